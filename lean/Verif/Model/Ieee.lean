import Verif.Model.Bitstruct
import Mathlib.Algebra.Order.Ring.Rat

/-!
Binary floating point numbers: `f` fields of bitstruct formats (`struct.pack` with the formats `e`,
`f` and `d`), and the arithmetic of python's `float`.

Simplification: there are no NaNs and no negative zero; infinity is `none`.
-/

namespace Cantools.Ieee

/-- A format: the number of bits of the exponent, and of the significand without its first bit. -/
structure Fmt where
  w : Nat
  t : Nat
  deriving DecidableEq, Repr

/-- `struct.pack('e', …)` -/
def binary16 : Fmt := ⟨5, 10⟩
/-- `struct.pack('f', …)` -/
def binary32 : Fmt := ⟨8, 23⟩
/-- `struct.pack('d', …)`, python's `float`. -/
def binary64 : Fmt := ⟨11, 52⟩

/-- The exponent of the smallest positive number. -/
def Fmt.emin (f : Fmt) : Int := 2 - 2 ^ (f.w - 1) - f.t

/-- The floor of the logarithm of a positive number. -/
def ilog2 (q : Rat) : Int :=
  let l : Int := (Nat.log2 q.num.natAbs : Int) - (Nat.log2 q.den : Int)
  if q < 2 ^ l then l - 1 else l

/-- The exponent of the last bit of the significand of a positive number. -/
def Fmt.exp (f : Fmt) (a : Rat) : Int := max (ilog2 a - f.t) f.emin

/-- Round half to even. -/
def Fmt.round (f : Fmt) (q : Rat) : Rat :=
  if q = 0 then 0 else (pyRound (q / 2 ^ f.exp |q|) : Rat) * 2 ^ f.exp |q|

/-- Exponent and significand of the number next to a number that is not negative, as one natural
number: a carry of the significand goes to the exponent. -/
def Fmt.code (f : Fmt) (a : Rat) : Nat :=
  if a = 0 then 0 else ((f.exp a - f.emin) * 2 ^ f.t + pyRound (a / 2 ^ f.exp a)).toNat

/-- The first code that is not a number. -/
def Fmt.top (f : Fmt) : Nat := (2 ^ f.w - 1) * 2 ^ f.t

/-- The number with the given exponent and significand. -/
def Fmt.value (f : Fmt) (n : Nat) : Rat :=
  if n / 2 ^ f.t = 0 then ((n % 2 ^ f.t : Nat) : Rat) * 2 ^ f.emin
  else ((2 ^ f.t + n % 2 ^ f.t : Nat) : Rat) * 2 ^ (((n / 2 ^ f.t : Nat) : Int) - 1 + f.emin)

/-- The formats for `f16`, `f32` and `f64`. -/
def fmt? (n : Nat) : Option Fmt :=
  if n = 16 then some binary16 else if n = 32 then some binary32 else if n = 64 then some binary64 else none

/-- `bitstruct.pack` of an `f` field (database/utils.py:195-201); other lengths are a `NotImplementedError`. -/
def pack (n : Nat) (q : Rat) : Except Err (List Bool) :=
  match fmt? n with
  | none => .error .runtimeError
  | some f =>
    if f.code |q| < f.top then .ok (decide (q < 0) :: natBits (f.w + f.t) (f.code |q|)) else .error .overflowError

/-- `bitstruct.unpack` of an `f` field (database/utils.py:195-201). -/
def unpack (bits : List Bool) : Rat :=
  match fmt? bits.length with
  | none => 0
  | some f =>
    if bits.head? = some true then -f.value (natOfBits bits.tail) else f.value (natOfBits bits.tail)

theorem pack_length (n : Nat) (q : Rat) (l : List Bool) (h : pack n q = .ok l) : l.length = n := by
  unfold pack fmt? at h
  split at h
  · cases h
  · rename_i f hf
    split at h
    · injection h with h
      rw [← h]
      split at hf
      · injection hf with hf; subst hf; simp [natBits, binary16, *]
      · split at hf
        · injection hf with hf; subst hf; simp [natBits, binary32, *]
        · split at hf
          · injection hf with hf; subst hf; simp [natBits, binary64, *]
          · cases hf
    · cases h

/-- `f` fields of bitstruct formats. -/
def ops : FloatOps := { pack := pack, unpack := unpack, pack_length := pack_length }

/-! ### Arithmetic -/

/-- The result of an operation of python's `float`, given the exact one. -/
def double (q : Rat) : Option Rat := if binary64.code |q| < binary64.top then some (binary64.round q) else none

/-- database/conversion.py:194-199 `LinearConversion.raw_to_scaled` for floats `scale` and `offset`. -/
def rawToScaled (scale offset : Rat) (raw : Int) : Option Rat := do
  let r ← double raw
  let p ← double (r * scale)
  double (p + offset)

/-- database/conversion.py:208-212 `LinearConversion.numeric_scaled_to_raw` for floats `scale`,
`offset` and `scaled` and integers as raw values. -/
def scaledToRaw (scale offset scaled : Rat) : Option Int := do
  let d ← double (scaled - offset)
  let q ← double (d / scale)
  pure (pyRound q)

/-- The constant `1e-6`. -/
def millionth : Rat := binary64.round (1 / 1000000)

/-- database/can/message.py:768 `scaled_value < signal.minimum - …`; a difference that is infinite is
negative. -/
def below (minimum : Option Rat) (tol scaled : Rat) : Bool :=
  match minimum with
  | none => false
  | some m =>
    match double (m - tol) with
    | none => false
    | some x => decide (scaled < x)

/-- database/can/message.py:774 `scaled_value > signal.maximum + …`; a sum that is infinite is positive. -/
def above (maximum : Option Rat) (tol scaled : Rat) : Bool :=
  match maximum with
  | none => false
  | some m =>
    match double (m + tol) with
    | none => false
    | some x => decide (x < scaled)

/-- database/can/message.py:768-778: whether a value is rejected. -/
def outside (scale : Rat) (minimum maximum : Option Rat) (scaled : Rat) : Option Bool := do
  let tol ← double (|scale| * millionth)
  pure (below minimum tol scaled || above maximum tol scaled)

end Cantools.Ieee
