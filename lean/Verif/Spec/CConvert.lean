import Verif.Spec.Ieee

/-!
Conversions in the generated C code: the floating point types and the conversions they are good enough for.
-/

namespace Cantools.Spec.CConvert

/-- The type of physical values: `float` or `double`. -/
def format (single : Bool) : Ieee.Format := if single then Ieee.single else Ieee.double

/-- The type of physical values of a signal, given the option for `float`: signals that are themselves of type
`double` have `double`. -/
def physical (s : Signal) (useFloat : Bool) : Ieee.Format :=
  format (useFloat && !(s.conversion.isFloat && s.length != 32))

/-- A number of a type. -/
def IsNumber (f : Ieee.Format) (v : Rat) : Prop := ∃ l : List Bool, l.length = f.length ∧ f.number? l = some v

/-- Bits of the significand. -/
def precision (single : Bool) : Nat := if single then 24 else 53

/-- Exponents that are far from the limits of the type. -/
def exponents (single : Bool) : Int := if single then 100 else 900

/-- A scale and an offset that leave enough digits: the scale is neither tiny nor huge, and the offset is not
huge compared with the scale. -/
structure Moderate (single : Bool) (scale offset : Rat) : Prop where
  lower : (2 : Rat) ^ (-exponents single) ≤ |scale|
  upper : |scale| ≤ 2 ^ exponents single
  offset : |offset| ≤ 2 ^ (precision single - 5) * |scale|

/-- The conversion of this raw value needs no rounding: scale and offset are multiples of the same power of two,
and all results are multiples that fit into the significand. -/
structure NoRounding (single : Bool) (scale offset : Rat) (raw : Int) : Prop where
  multiples : ∃ a b k : Int, scale = a * 2 ^ k ∧ offset = b * 2 ^ k ∧ a ≠ 0 ∧ -exponents single ≤ k ∧ k ≤ exponents single ∧
    |a| < 2 ^ precision single ∧ |b| < 2 ^ precision single ∧ |raw * a| < 2 ^ precision single ∧
    |raw * a + b| < 2 ^ precision single
  raw : |raw| < 2 ^ precision single

/-- `r` is `i` or one step from it towards zero. -/
def OneStepShort (i r : Int) : Prop := r = i ∨ (0 < i ∧ r = i - 1) ∨ (i < 0 ∧ r = i + 1)

end Cantools.Spec.CConvert
