import Verif.Model.Conversion

/-
database/conversion.py with rounded arithmetic: the same formulas as in `Conversion.lean`, but the
result of every multiplication, division, addition and subtraction is rounded by a function `fl`
(IEEE double arithmetic is one such function; overflow and NaN are not modelled).
-/

namespace Cantools

/-- conversion.py:194-199 `LinearConversion.raw_to_scaled` in rounded arithmetic. -/
def rawToScaledFl (fl : Rat → Rat) (scale offset raw : Rat) : Rat :=
  fl (fl (raw * scale) + offset)

/-- conversion.py:208-212 `LinearConversion.numeric_scaled_to_raw` (integer raw values) in rounded
arithmetic. -/
def scaledToRawFl (fl : Rat → Rat) (scale offset x : Rat) : Int :=
  pyRound (fl (fl (x - offset) / scale))

end Cantools
