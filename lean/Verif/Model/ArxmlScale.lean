import Verif.Model.Conversion
import Verif.Model.DecodeCommand

/-!
Scaling and names of ARXML signals: the numbers of an ARXML file (arxml/utils.py) and the
`COMPU-METHOD`s (arxml/system_loader.py:1745-1969).

Texts are the contents of XML elements; references between elements are taken as resolved and an
element without text does not occur.  Numbers are exact; infinite limits are left out.  Comments and
units are left out.
-/

namespace Cantools.ArxmlScale

open Regex (Chars)

/-- `float(text)` and `float.fromhex(text)`; `none` stands for `ValueError`. -/
structure FloatRead where
  float : Chars → Option Rat
  fromHex : Chars → Option Rat

/-- The value of a digit of `int(text, base)`, for lower case texts. -/
def digitOf (base : Nat) (c : Char) : Option Nat :=
  let v := if '0' ≤ c ∧ c ≤ '9' then some (c.toNat - 48)
    else if 'a' ≤ c ∧ c ≤ 'z' then some (c.toNat - 87) else none
  v.filter (· < base)

/-- `int(text, base)` after the first digits, whose value is `acc`: single underscores may separate
digits. -/
def digitsFrom (base : Nat) : Nat → Chars → Option Nat
  | acc, [] => some acc
  | acc, '_' :: c :: r => (digitOf base c).bind fun d => digitsFrom base (acc * base + d) r
  | acc, c :: r => (digitOf base c).bind fun d => digitsFrom base (acc * base + d) r

/-- `int(text, base)` of a text without sign and prefix. -/
def digits (base : Nat) : Chars → Option Nat
  | [] => none
  | c :: r => (digitOf base c).bind fun d => digitsFrom base d r

/-- The digits after `0x`, `0o` or `0b`: an underscore may come first. -/
def prefixed (base : Nat) : Chars → Option Nat
  | '_' :: r => digits base r
  | r => digits base r

/-- `int(text, 0)` of a text without sign: a decimal number does not begin with zero unless it is
zero. -/
def natBase0 : Chars → Option Nat
  | '0' :: 'x' :: r => prefixed 16 r
  | '0' :: 'o' :: r => prefixed 8 r
  | '0' :: 'b' :: r => prefixed 2 r
  | '0' :: r => if r.all (fun c => c = '0' || c = '_') then digits 10 ('0' :: r) else none
  | r => digits 10 r

/-- `int(text, 0)`; `none` stands for `ValueError`. -/
def intBase0 : Chars → Option Int
  | '-' :: r => (natBase0 r).map fun n : Nat => -(n : Int)
  | '+' :: r => (natBase0 r).map fun n : Nat => (n : Int)
  | r => (natBase0 r).map fun n : Nat => (n : Int)

def orValueError {α : Type} : Option α → Except Err α
  | some a => .ok a
  | none => .error .valueError

/-- arxml/utils.py:20-52: the value of a stripped text in lower case that is not empty. -/
def numberOf (F : FloatRead) (s : Chars) : Except Err Rat :=
  if s = "true".toList then .ok 1
  else if s = "false".toList then .ok 0
  else
    match s with
    | '0' :: d :: r =>
      if Regex.isDigit d then orValueError ((digits 8 ('0' :: d :: r)).map fun n : Nat => (n : Rat))
      else
        match intBase0 ('0' :: d :: r) with
        | some i => .ok i
        | none =>
          if d = 'x' then orValueError (F.fromHex ('0' :: d :: r))
          else orValueError (F.float ('0' :: d :: r))
    | s =>
      match intBase0 s with
      | some i => .ok i
      | none => orValueError (F.float s)

/-- arxml/utils.py:4-66 `parse_number_string`. -/
def parseNumber (F : FloatRead) (t : Chars) (allowFloat : Bool) : Except Err Rat :=
  let s := (DecodeCommand.strip t).map Char.toLower
  if s = [] then .ok 0
  else do
    let v ← numberOf F s
    if allowFloat = false ∧ v ≠ (pyInt v : Int) then .error .valueError
    else .ok v

/-- `COMPU-RATIONAL-COEFFS`: the texts of the `V` elements of `COMPU-NUMERATOR` and
`COMPU-DENOMINATOR`. -/
structure Coeffs where
  numerators : List Chars
  denominators : List Chars
  deriving DecidableEq, Repr

/-- `COMPU-SCALE`: the texts of `LOWER-LIMIT`, `UPPER-LIMIT` and `VT`. -/
structure CompuScale where
  lower : Option Chars
  upper : Option Chars
  coeffs : Option Coeffs := none
  vt : Option String := none
  deriving DecidableEq, Repr

/-- The text of `CATEGORY`. -/
inductive Category where
  | texttable | linear | linearAndTexttable | other
  deriving DecidableEq, Repr

/-- `COMPU-METHOD`. -/
structure CompuMethod where
  category : Option Category
  scales : List CompuScale
  deriving DecidableEq, Repr

/-- A limit of `_load_scale_limits`. -/
def loadLimit (F : FloatRead) : Option Chars → Except Err (Option Rat)
  | none => .ok none
  | some t => (parseNumber F t true).map some

/-- arxml/system_loader.py:1845-1857 `_load_scale_limits`. -/
def loadScaleLimits (F : FloatRead) (s : CompuScale) : Except Err (Option Rat × Option Rat) := do
  let lower ← loadLimit F s.lower
  let upper ← loadLimit F s.upper
  pure (lower, upper)

/-- `choices[value] = NamedSignalValue(value, name, comments)`.  A value that is not an integer is an
error here; python keeps it. -/
def addName (choices : Choices) (value : Rat) (name : String) : Except Err Choices :=
  if value.den = 1 then .ok (dictSet choices value.num (.named { value := value.num, name := name }))
  else .error .typeError

/-- arxml/system_loader.py:1755-1766: one round of the loop of `_load_texttable`. -/
def textScale (F : FloatRead) (choices : Choices) (s : CompuScale) : Except Err Choices := do
  let (lower, upper) ← loadScaleLimits F s
  match lower with
  | none => .error .assertionError
  | some value =>
    if upper = some value then
      match s.vt with
      | none => .error .typeError
      | some name => addName choices value name
    else .error .assertionError

/-- arxml/system_loader.py:1745-1768 `_load_texttable`. -/
def loadTexttable (F : FloatRead) (scales : List CompuScale) : Except Err Choices :=
  scales.foldlM (textScale F) []

/-- What `_load_linear_scale` returns. -/
structure Scaling where
  minimum : Option Rat
  maximum : Option Rat
  factor : Rat
  offset : Rat
  deriving DecidableEq, Repr

/-- arxml/system_loader.py:1772-1797: factor and offset. -/
def loadCoeffs (F : FloatRead) : Option Coeffs → Except Err (Rat × Rat)
  | none => .ok (1, 0)
  | some c =>
    match c.numerators, c.denominators with
    | [v0, v1], [d] => do
      let denominator ← parseNumber F d true
      let n1 ← parseNumber F v1 true
      if denominator = 0 then .error .zeroDivisionError
      else do
        let n0 ← parseNumber F v0 true
        pure (n1 / denominator, n0 / denominator)
    | _, _ => .error .valueError

/-- arxml/system_loader.py:1770-1821 `_load_linear_scale`; warnings are left out. -/
def loadLinearScale (F : FloatRead) (s : CompuScale) : Except Err Scaling := do
  let (factor, offset) ← loadCoeffs F s.coeffs
  let (lower, upper) ← loadScaleLimits F s
  let (lower, upper) :=
    match lower, upper with
    | some l, some u => if u < l then (none, none) else (some l, some u)
    | l, u => (l, u)
  pure { minimum := lower.map fun l => l * factor + offset,
         maximum := upper.map fun u => u * factor + offset,
         factor := factor, offset := offset }

/-- What is known before the first scale. -/
def noScaling : Scaling := { minimum := none, maximum := none, factor := 1, offset := 0 }

/-- arxml/system_loader.py:1823-1843 `_load_linear`: `_get_arxml_children` (2191-2279) raises
`ValueError` for several children where one is expected. -/
def loadLinear (F : FloatRead) : List CompuScale → Except Err Scaling
  | [] => .ok noScaling
  | [s] => loadLinearScale F s
  | _ => .error .valueError

/-- arxml/system_loader.py:1872-1913: one round of the loop of
`_load_scale_linear_and_texttable`. -/
def mixedScale (F : FloatRead) (acc : Scaling × Choices) (s : CompuScale) :
    Except Err (Scaling × Choices) :=
  match s.vt with
  | none => do
    let r ← loadLinearScale F s
    pure (r, acc.2)
  | some name => do
    let (lower, upper) ← loadScaleLimits F s
    match lower, upper with
    | none, none => .ok acc
    | some value, none => do pure (acc.1, ← addName acc.2 value name)
    | none, some value => do pure (acc.1, ← addName acc.2 value name)
    | some l, some u => if l = u then do pure (acc.1, ← addName acc.2 l name) else .ok acc

/-- arxml/system_loader.py:1859-1915 `_load_scale_linear_and_texttable`. -/
def loadMixed (F : FloatRead) (scales : List CompuScale) : Except Err (Scaling × Choices) :=
  scales.foldlM (mixedScale F) (noScaling, [])

/-- arxml/system_loader.py:1917-1970 `_load_system_signal`, `none` if there is no compu method:
limits, factor, offset and choices. -/
def loadSystemSignal (F : FloatRead) : Option CompuMethod → Except Err (Scaling × Option Choices)
  | none => .ok (noScaling, none)
  | some m =>
    match m.category with
    | none => .ok (noScaling, none)
    | some .texttable => do
      let choices ← loadTexttable F m.scales
      pure (noScaling, some choices)
    | some .linear => do
      let s ← loadLinear F m.scales
      pure (s, none)
    | some .linearAndTexttable => do
      let (s, choices) ← loadMixed F m.scales
      pure (s, some choices)
    | some .other => .ok (noScaling, none)

/-- What a loaded signal takes from its compu method. -/
structure Loaded where
  conversion : Conversion
  minimum : Option Rat
  maximum : Option Rat
  deriving DecidableEq, Repr

/-- arxml/system_loader.py:1491-1529: the part of `_load_signal` that uses them. -/
def loadSignal (F : FloatRead) (m : Option CompuMethod) (isFloat : Bool) : Except Err Loaded := do
  let (s, choices) ← loadSystemSignal F m
  pure { conversion := Conversion.factory s.factor s.offset choices isFloat,
         minimum := s.minimum, maximum := s.maximum }

end Cantools.ArxmlScale
