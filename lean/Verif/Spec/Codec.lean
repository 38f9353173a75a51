import Verif.Spec.Layout
import Mathlib.Algebra.Order.Field.Rat
import Mathlib.Algebra.Order.Group.Abs

/-
Independent specification of values: what raw number a user value stands for, how a raw number is
carried by a payload, what a raw number is shown as, and which signals a frame has.
-/

namespace Cantools.Spec
open Cantools

/-- `i` is the integer nearest to `q`; of two equally near ones it is the even one. -/
def NearestEven (q : Rat) (i : Int) : Prop :=
  -(1/2) ≤ q - i ∧ q - i ≤ 1/2 ∧ (q - i = 1/2 ∨ q - i = -(1/2) → i % 2 = 0)

/-- The value table of a signal. -/
def table (s : Signal) : Choices := s.conversion.choices.getD []

/-- The number the value table of a signal has for a name (the last one if the name occurs twice). -/
def numberNamed (s : Signal) (name : String) : Option Int :=
  ((table s).reverse.find? fun e => e.2.toStr == name).map (·.1)

/-- `r` is the raw number a user value stands for.  A number is scaled (if wanted) and, unless the
signal is a float, rounded to the nearest integer; a string is looked up in the value table; a named
value must be the one in the table. -/
def RawOf (s : Signal) (scaling : Bool) : Value → Rat → Prop
  | .num q, r =>
    (scaling = true → s.conversion.scale ≠ 0) ∧
    ∃ x, x = (if scaling then (q - s.conversion.offset) / s.conversion.scale else q) ∧
      if s.conversion.isFloat then r = x else ∃ i : Int, r = i ∧ NearestEven x i
  | .str c, r => ∃ i : Int, numberNamed s c = some i ∧ r = i
  | .named nv, r => r = nv.value ∧
    (dictGet? (table s) nv.value = some (.named nv) ∨
      dictGet? (table s) nv.value = some (.str nv.name))

/-- The payload carries the raw number `r` of signal `s`: an integer in range, in two's complement,
or the float bits of `r`. -/
def Carries (fo : FloatOps) (s : Signal) (data : Bytes) (r : Rat) : Prop :=
  if s.conversion.isFloat then
    ∃ l, fo.pack s.length r = .ok l ∧
      ∀ j, j < s.length → payloadBit data (bitPos s j) = l.getD (s.length - 1 - j) false
  else ∃ i : Int, r = i ∧ ReadsAs s data i

/-- A raw number has a representation in the signal. -/
def Representable (fo : FloatOps) (s : Signal) (r : Rat) : Prop :=
  if s.conversion.isFloat then ∃ l, fo.pack s.length r = .ok l
  else ∃ i : Int, r = i ∧ InRange s i

/-- `r` is the raw number written in the bits of signal `s` of a payload. -/
def RawIn (fo : FloatOps) (s : Signal) (data : Bytes) (r : Rat) : Prop :=
  if s.conversion.isFloat then
    r = fo.unpack ((List.range s.length).map fun k => payloadBit data (bitPos s (s.length - 1 - k)))
  else ∃ i : Int, r = i ∧ ReadsAs s data i

/-- How a raw number is presented to the user: by its name if it has one (and names are wanted),
otherwise as number, scaled if wanted. -/
def shown (s : Signal) (decodeChoices scaling : Bool) (r : Rat) : Value :=
  match (if decodeChoices = true ∧ r.den = 1 then dictGet? (table s) r.num else none) with
  | some (.str c) => .str c
  | some (.named nv) => .named nv
  | none => .num (if scaling then r * s.conversion.scale + s.conversion.offset else r)

/-- The selector number a value of signal `s` stands for (numbers are truncated). -/
def selectorNumber (s : Signal) : Value → Option Int
  | .num q => some (pyInt q)
  | .str c => numberNamed s c
  | .named nv => numberNamed s nv.name

/-- The selector values requested by a dictionary of values. -/
def requested (sigs : List Signal) (data : List (String × Value)) (n : String) : Option Int :=
  match sigs.find? (fun s => s.name == n), dictGet? data n with
  | some s, some v => selectorNumber s v
  | _, _ => none

/-- `sel` gives the selector values found in a payload of which `received` bytes are there: the
selector number of the shown value for signals that were completely received. -/
def SelectorsIn (fo : FloatOps) (sigs : List Signal) (data : Bytes)
    (decodeChoices scaling : Bool) (received : Nat) (sel : String → Option Int) : Prop :=
  ∀ s ∈ sigs,
    (Fits received s → ∃ r, RawIn fo s data r ∧
      sel s.name = selectorNumber s (shown s decodeChoices scaling r)) ∧
    (¬ Fits received s → sel s.name = none)

/-- Selector `p` has a branch for number `i`: some signal is multiplexed by it with this id, or the
number is in its value table. -/
def HasBranch (sigs : List Signal) (p : Signal) (i : Int) : Prop :=
  (∃ s ∈ sigs, s.multiplexerSignal = some p.name ∧ i ∈ s.multiplexerIds.getD []) ∨
    i ∈ (table p).map (·.1)

/-- Every selector that is there (and selects anything at all) has a value with a branch. -/
def Selectable (sigs : List Signal) (sel : String → Option Int) : Prop :=
  ∀ p, Present sigs sel p → p.isMultiplexer = true → (∃ i, HasBranch sigs p i) →
    ∃ i, sel p.name = some i ∧ HasBranch sigs p i

/-- `p` is one of the selectors above `s`. -/
inductive Above (sigs : List Signal) (p : Signal) : Signal → Prop where
  | direct (s : Signal) (hp : p ∈ sigs) (hs : s.multiplexerSignal = some p.name) : Above sigs p s
  | step (q s : Signal) (hq : q ∈ sigs) (hs : s.multiplexerSignal = some q.name)
      (h : Above sigs p q) : Above sigs p s

/-- A conversion as the constructors make it (conversions can be modified later by pruning). -/
def Built (c : Conversion) : Prop :=
  ∃ scale offset choices isFloat, c = Conversion.factory scale offset choices isFloat

/-- A value strict encoding accepts for a signal: a known name, or a number that has an entry in the
value table or whose physical value lies between minimum and maximum (with a tolerance of a
millionth of the scale). -/
def ValidValue (s : Signal) (scaling : Bool) : Value → Prop
  | .str c => ∃ i, numberNamed s c = some i
  | .named nv => ∃ i, numberNamed s nv.name = some i
  | .num q =>
    (scaling = true → s.conversion.scale ≠ 0) ∧
    ((∃ raw, (if scaling then RawOf s true (.num q) raw else raw = q) ∧
        ∃ e ∈ table s, (e.1 : Rat) = raw) ∨
      ∃ phys tol, phys = (if scaling then q else q * s.conversion.scale + s.conversion.offset) ∧
        tol = |s.conversion.scale| / 1000000 ∧
        (∀ mn, s.minimum = some mn → mn - tol ≤ phys) ∧
        (∀ mx, s.maximum = some mx → phys ≤ mx + tol))

/-- The raw number read back after a raw number was stored: the same number, for float signals the
float it was packed as. -/
def Stored (fo : FloatOps) (s : Signal) (r r' : Rat) : Prop :=
  if s.conversion.isFloat then ∃ l, fo.pack s.length r = .ok l ∧ r' = fo.unpack l else r' = r

end Cantools.Spec
