import Verif.Model.Base

/-
database/conversion.py and database/namedsignalvalue.py.
`int`/`float` numbers are exact rationals (see DESIGN.md).
-/

namespace Cantools

/-- database/namedsignalvalue.py:1-61 `NamedSignalValue`. `__eq__` between two of them compares
value, name and comments, i.e. is structural equality. -/
structure NamedSignalValue where
  value : Int
  name : String
  comments : List (String × String) := []
  deriving DecidableEq, Repr

/-- An entry of a choices dictionary (typechecking.py `Choices`): a plain string or a
`NamedSignalValue`. -/
inductive Choice where
  | str (s : String)
  | named (v : NamedSignalValue)
  deriving DecidableEq, Repr

/-- `str(choice)`: namedsignalvalue.py:45-46 `__str__`. -/
def Choice.toStr : Choice → String
  | .str s => s
  | .named v => v.name

/-- typechecking.py `Choices`: dictionary from raw values to names. -/
abbrev Choices := List (Int × Choice)

/-- A signal value: number, string or `NamedSignalValue` (typechecking.py `SignalValueType`). -/
inductive Value where
  | num (q : Rat)
  | str (s : String)
  | named (v : NamedSignalValue)
  deriving DecidableEq, Repr

def Choice.toValue : Choice → Value
  | .str s => .str s
  | .named v => .named v

/-- conversion.py:117-220 `IdentityConversion`, `LinearIntegerConversion`, `LinearConversion`. -/
inductive BaseConv where
  | identity (isFloat : Bool)
  | linearInteger (scale offset : Int)
  | linear (scale offset : Rat) (isFloat : Bool)
  deriving DecidableEq, Repr

/-- conversion.py:27-65 `BaseConversion.factory` with `choices=None`; `_is_integer` (295-302) is
"denominator 1" for exact numbers. -/
def BaseConv.factory (scale offset : Rat) (isFloat : Bool) : BaseConv :=
  if scale = 1 ∧ offset = 0 then .identity isFloat
  else if scale.den = 1 ∧ offset.den = 1 ∧ isFloat = false then
    .linearInteger scale.num offset.num
  else .linear scale offset isFloat

def BaseConv.scale : BaseConv → Rat
  | .identity _ => 1
  | .linearInteger s _ => s
  | .linear s _ _ => s

def BaseConv.offset : BaseConv → Rat
  | .identity _ => 0
  | .linearInteger _ o => o
  | .linear _ o _ => o

def BaseConv.isFloat : BaseConv → Bool
  | .identity f => f
  | .linearInteger _ _ => false
  | .linear _ _ f => f

/-- conversion.py:125-130, 156-161, 194-199 `raw_to_scaled`. -/
def BaseConv.rawToScaled : BaseConv → Rat → Rat
  | .identity _, r => r
  | .linearInteger s o, r => r * s + o
  | .linear s o _, r => r * s + o

/-- conversion.py:139-142, 170-180, 208-212 `numeric_scaled_to_raw`.  `divmod` is floor division. -/
def BaseConv.numericScaledToRaw : BaseConv → Rat → Except Err Rat
  | .identity f, x => .ok (if f then x else (pyRound x : Int))
  | .linearInteger s o, x =>
    if s = 0 then .error .zeroDivisionError
    else
      let raw := x - o
      let quotient : Rat := ((raw / s).floor : Int)
      let remainder := raw - quotient * s
      let raw' := if remainder = 0 then quotient else raw / s
      .ok (pyRound raw' : Int)
  | .linear s o f, x =>
    if s = 0 then .error .zeroDivisionError
    else
      let raw := (x - o) / s
      .ok (if f then raw else (pyRound raw : Int))

/-- conversion.py: any conversion object.  `named` is `NamedSignalConversion` (223-292): `choices`,
the separately stored inverse table `_inverse_choices` and the inner `_conversion`. -/
inductive Conversion where
  | base (b : BaseConv)
  | named (scale offset : Rat) (choices : Choices) (inverse : List (String × Int)) (b : BaseConv)
  deriving DecidableEq, Repr

/-- conversion.py:274-276 `_update_choices`: a dictionary comprehension, later entries win. -/
def inverseChoices (cs : Choices) : List (String × Int) :=
  cs.foldl (fun acc c => dictSet acc c.2.toStr c.1) []

/-- conversion.py:27-65 `BaseConversion.factory`, 224-241 `NamedSignalConversion.__init__`. -/
def Conversion.factory (scale offset : Rat) (choices : Option Choices) (isFloat : Bool) :
    Conversion :=
  match choices with
  | none => .base (.factory scale offset isFloat)
  | some cs => .named scale offset cs (inverseChoices cs) (.factory scale offset isFloat)

def Conversion.inner : Conversion → BaseConv
  | .base b => b
  | .named _ _ _ _ b => b

def Conversion.isFloat (c : Conversion) : Bool := c.inner.isFloat

def Conversion.scale : Conversion → Rat
  | .base b => b.scale
  | .named s _ _ _ _ => s

def Conversion.offset : Conversion → Rat
  | .base b => b.offset
  | .named _ o _ _ _ => o

def Conversion.choices : Conversion → Option Choices
  | .base _ => none
  | .named _ _ cs _ _ => some cs

/-- conversion.py:243-250 (named) and the base classes' `raw_to_scaled`. -/
def Conversion.rawToScaled (c : Conversion) (raw : Rat) (decodeChoices : Bool) : Value :=
  match c with
  | .base b => .num (b.rawToScaled raw)
  | .named _ _ cs _ b =>
    match (if decodeChoices then dictGet? cs (pyInt raw) else none) with
    | some ch => ch.toValue
    | none => .num (b.rawToScaled raw)

/-- `numeric_scaled_to_raw`; for named conversions it is monkeypatched to the inner conversion's
(conversion.py:240-241). -/
def Conversion.numericScaledToRaw (c : Conversion) (x : Rat) : Except Err Rat :=
  c.inner.numericScaledToRaw x

/-- conversion.py:109-110 (base: `KeyError`) and 278-279 (named). -/
def Conversion.choiceToNumber (c : Conversion) (s : String) : Except Err Int :=
  match c with
  | .base _ => .error .keyError
  | .named _ _ _ inv _ =>
    match dictGet? inv s with
    | some i => .ok i
    | none => .error .keyError

/-- conversion.py `scaled_to_raw`: 132-137 (base classes reject non-numbers with `TypeError`),
252-263 (named). -/
def Conversion.scaledToRaw (c : Conversion) (v : Value) : Except Err Rat :=
  match c, v with
  | c, .num q => c.numericScaledToRaw q
  | .base _, _ => .error .typeError
  | .named _ _ _ _ _, .named nv => .ok nv.value
  | c, .str s => (c.choiceToNumber s).map (fun i : Int => (i : Rat))

end Cantools
