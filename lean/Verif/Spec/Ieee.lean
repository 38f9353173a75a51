import Verif.Spec.Codec

/-!
Binary floating point numbers according to IEEE 754.
-/

namespace Cantools.Spec.Ieee

/-- The number written by bits, the most significant one first. -/
def number : List Bool → Nat
  | [] => 0
  | b :: r => (if b then 2 ^ r.length else 0) + number r

/-- A format: one bit for the sign, then the exponent, then the fraction. -/
structure Format where
  exponentBits : Nat
  fractionBits : Nat

def half : Format := ⟨5, 10⟩
def single : Format := ⟨8, 23⟩
def double : Format := ⟨11, 52⟩

def Format.length (f : Format) : Nat := 1 + f.exponentBits + f.fractionBits

def Format.bias (f : Format) : Int := 2 ^ (f.exponentBits - 1) - 1

/-- The number represented by bits (IEEE 754-2008, 3.4); infinities and NaNs are none. -/
def Format.number? (f : Format) (bits : List Bool) : Option Rat :=
  let sign : Rat := if bits.head? = some true then -1 else 1
  let exponent := number ((bits.drop 1).take f.exponentBits)
  let fraction : Rat := (number (bits.drop (1 + f.exponentBits)) : Rat) / 2 ^ f.fractionBits
  if exponent = 2 ^ f.exponentBits - 1 then none
  else if exponent = 0 then some (sign * 2 ^ (1 - f.bias) * fraction)
  else some (sign * 2 ^ ((exponent : Int) - f.bias) * (1 + fraction))

/-- The formats of float signals. -/
inductive FormatOf : Nat → Format → Prop
  | half : FormatOf 16 half
  | single : FormatOf 32 single
  | double : FormatOf 64 double

/-- The bits `l` represent the number `v`, and no number of the format is nearer to `q`; if another one
is as near, the last bit of `l` is zero. -/
structure Nearest (f : Format) (q : Rat) (l : List Bool) (v : Rat) : Prop where
  length : l.length = f.length
  value : f.number? l = some v
  closest : ∀ l' v', l'.length = f.length → f.number? l' = some v' → |v - q| ≤ |v' - q|
  even : ∀ l' v', l'.length = f.length → f.number? l' = some v' → v' ≠ v → |v' - q| = |v - q| → l.getLast? = some false

/-- The middle between the largest number of the format and the next power of two. -/
def Format.limit (f : Format) : Rat := 2 ^ f.bias * (2 - 1 / 2 ^ (f.fractionBits + 1))

/-- A number of python's type `float`. -/
def IsDouble (q : Rat) : Prop := ∃ l : List Bool, l.length = 64 ∧ double.number? l = some q

/-- The number of python's type `float` for a decimal number. -/
def IsFloatOf (q v : Rat) : Prop := ∃ l, Nearest double q l v

/-- What comes back for the number `r` put into the signal `s`: for float signals the nearest number of
the format with the length of the signal. -/
def Kept (s : Signal) (r r' : Rat) : Prop :=
  if s.conversion.isFloat then ∃ f l, FormatOf s.length f ∧ Nearest f r l r' else r' = r

end Cantools.Spec.Ieee
