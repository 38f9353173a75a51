import Verif.Model.CSource
import Verif.Model.Ieee

/-!
database/can/c_source.py: the functions `…_encode`, `…_decode` and `…_is_in_phys_range` of the generated C code.

The generator is modelled as a function from a signal to C expressions, which get the meaning of the C standard
with IEEE 754 (every operation is rounded to its type).  Numbers of signals are the numbers their texts denote, so
that a literal is the nearest number of its type.  Undefined behaviour is an error.  Simplification: infinity is
`none`; expressions that are infinite are treated as undefined.
-/

namespace Cantools.C
open Cantools Ieee

/-- The result of an operation in a format, given the exact one. -/
def arith (f : Fmt) (q : Rat) : Option Rat := if f.code |q| < f.top then some (f.round q) else none

/-- c_source.py:1481-1482 `_get_floating_point_type`. -/
def fpType (useFloat : Bool) : Fmt := if useFloat then binary32 else binary64

/-- c_source.py:1575-1582: `_use_float` of a signal in the definitions. -/
def usesFloat (s : Signal) (useFloat : Bool) : Bool := useFloat && !decide (typeName s = .double)

/-- Expressions over the parameter `value`. -/
inductive Expr where
  | value
  | cast
  | lit (q : Rat)
  | add (a b : Expr)
  | sub (a b : Expr)
  | mul (a b : Expr)
  | div (a b : Expr)
  | round (a : Expr)
  deriving DecidableEq, Repr

/-- The function `round` of the C library: half away from zero. -/
def cRound (q : Rat) : Int := if q < 0 then (q - 1 / 2).ceil else (q + 1 / 2).floor

/-- Division; a quotient by zero is infinite or no number. -/
def cDiv (f : Fmt) (x y : Rat) : Option Rat := if y = 0 then none else arith f (x / y)

/-- The value of an expression of the given type. -/
def Expr.eval (f : Fmt) (v : Rat) : Expr → Option Rat
  | .value => some v
  | .cast => arith f v
  | .lit q => arith f q
  | .add a b => do arith f ((← a.eval f v) + (← b.eval f v))
  | .sub a b => do arith f ((← a.eval f v) - (← b.eval f v))
  | .mul a b => do arith f ((← a.eval f v) * (← b.eval f v))
  | .div a b => do cDiv f (← a.eval f v) (← b.eval f v)
  | .round a => do pure (cRound (← a.eval f v) : Rat)

/-- c_source.py:1253-1264: the expression for encoding without rounding. -/
def plainEncodeExpr (scale offset : Rat) : Expr :=
  if offset = 0 ∧ scale = 1 then .value
  else if offset ≠ 0 ∧ scale ≠ 1 then .div (.sub .value (.lit offset)) (.lit scale)
  else if offset ≠ 0 then .sub .value (.lit offset)
  else .div .value (.lit scale)

/-- c_source.py:1244-1269 `_generate_encode_decode`: the expression for encoding. -/
def encodeExpr (scale offset : Rat) (isFloat useRound : Bool) : Expr :=
  if !isFloat && useRound then .round (plainEncodeExpr scale offset) else plainEncodeExpr scale offset

/-- c_source.py:1244-1269 `_generate_encode_decode`: the expression for decoding. -/
def decodeExpr (scale offset : Rat) : Expr :=
  if offset = 0 ∧ scale = 1 then .cast
  else if offset ≠ 0 ∧ scale ≠ 1 then .add (.mul .cast (.lit scale)) (.lit offset)
  else if offset ≠ 0 then .add .cast (.lit offset)
  else .mul .cast (.lit scale)

/-- Conversion of a floating point number to a type; undefined if the number without its fraction is not a number
of the type. -/
def toType (t : CType) (q : Rat) : Except CErr Rat :=
  match t with
  | .int w => if -2 ^ (w - 1) ≤ pyInt q ∧ pyInt q < 2 ^ (w - 1) then .ok (pyInt q) else .error .undefined
  | .uint w => if 0 ≤ pyInt q ∧ pyInt q < 2 ^ w then .ok (pyInt q) else .error .undefined
  | .float => match arith binary32 q with
    | some r => .ok r
    | none => .error .undefined
  | .double => .ok q

/-- c_source.py:545-551: the function `…_encode`. -/
def encode (s : Signal) (useFloat useRound : Bool) (value : Rat) : Except CErr Rat :=
  match (encodeExpr s.conversion.scale s.conversion.offset s.conversion.isFloat useRound).eval
      (fpType (usesFloat s useFloat)) value with
  | some q => toType (typeName s) q
  | none => .error .undefined

/-- c_source.py:553-559: the function `…_decode`. -/
def decode (s : Signal) (useFloat : Bool) (raw : Rat) : Option Rat :=
  (decodeExpr s.conversion.scale s.conversion.offset).eval (fpType (usesFloat s useFloat)) raw

/-- A comparison with a literal. -/
inductive Check where
  | ge (q : Rat)
  | le (q : Rat)
  deriving DecidableEq, Repr

/-- c_source.py:1325-1358 `_generate_is_in_phys_range`: the comparisons; none means `true`. -/
def physChecks (s : Signal) : List Check :=
  (match s.minimum with | some m => [.ge m] | none => []) ++ (match s.maximum with | some m => [.le m] | none => [])

/-- The value of a comparison; literals that are infinite compare like infinity. -/
def Check.eval (f : Fmt) (v : Rat) : Check → Bool
  | .ge q => match arith f q with | some x => decide (x ≤ v) | none => decide (q < 0)
  | .le q => match arith f q with | some x => decide (v ≤ x) | none => decide (0 < q)

/-- c_source.py:569-576: the function `…_is_in_phys_range`. -/
def isInPhysRange (s : Signal) (useFloat : Bool) (value : Rat) : Bool :=
  (physChecks s).all (·.eval (fpType (usesFloat s useFloat)) value)

end Cantools.C
