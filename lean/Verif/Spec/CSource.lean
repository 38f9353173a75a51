import Verif.Spec.Codec
import Verif.Model.CSource

/-
Independent specification of the members of generated C structs.
-/

namespace Cantools.Spec
open Cantools

/-- `v` is what a payload says about a struct member: the raw value of an integer signal, the bit
pattern of a float signal. -/
def MemberIn (s : Signal) (data : Bytes) (v : Int) : Prop :=
  if s.conversion.isFloat then
    0 ≤ v ∧ v < 2 ^ s.length ∧ ∀ j, j < s.length → payloadBit data (bitPos s j) = intBit v j
  else ReadsAs s data v

/-- `v` is the struct member for the raw number `r`: the number itself, or its float bits. -/
def MemberFor (fo : FloatOps) (s : Signal) (r : Rat) (v : Int) : Prop :=
  if s.conversion.isFloat then
    ∃ l, fo.pack s.length r = .ok l ∧ ∀ j, j < s.length → intBit v j = l.getD (s.length - 1 - j) false
  else r = v

/-- The number a struct member stands for. -/
def memberNumber (fo : FloatOps) (s : Signal) (v : Int) : Rat :=
  if s.conversion.isFloat then
    fo.unpack ((List.range s.length).map fun k => intBit v (s.length - 1 - k))
  else v

/-- A struct member that a signal can carry. -/
def MemberFits (s : Signal) (v : Int) : Prop :=
  if s.conversion.isFloat then 0 ≤ v ∧ v < 2 ^ s.length else InRange s v

/-- Signals the generated code can handle: integers of up to 64 bits, and 32 and 64 bit floats. -/
def CSupported (s : Signal) : Prop :=
  s.length ≤ 64 ∧ (s.conversion.isFloat = true → s.length = 32 ∨ s.length = 64)

/-- A selector with branches. -/
def Selects (sigs : List Signal) (s : Signal) : Prop :=
  s.isMultiplexer = true ∧ ∃ i, HasBranch sigs s i

/-- The values of the C type of an integer signal: 8, 16, 32 or 64 bits, whatever is enough. -/
def InCType (s : Signal) (v : Int) : Prop :=
  ∃ w, (w = 8 ∨ w = 16 ∨ w = 32 ∨ w = 64) ∧ s.length ≤ w ∧
    (∀ w', (w' = 8 ∨ w' = 16 ∨ w' = 32 ∨ w' = 64) → s.length ≤ w' → w ≤ w') ∧
    if s.isSigned then -(2 ^ (w - 1)) ≤ v ∧ v < 2 ^ (w - 1) else 0 ≤ v ∧ v < 2 ^ w

/-- `switch` statements can be generated for the selectors: they are integers and their ids are
values of their C type. -/
def CSelectors (sigs : List Signal) : Prop :=
  ∀ s ∈ sigs, Selects sigs s → s.conversion.isFloat = false ∧ ∀ i, HasBranch sigs s i → InCType s i

/-- `b` is the raw value of a physical bound `x`. -/
def RawBound (s : Signal) (x : Rat) (b : Int) : Prop :=
  s.conversion.scale ≠ 0 ∧ NearestEven ((x - s.conversion.offset) / s.conversion.scale) b

/-- `v` lies within the declared minimum and maximum, converted to raw. -/
def WithinDeclared (s : Signal) (v : Int) : Prop :=
  (∀ mn b, s.minimum = some mn → RawBound s mn b → b ≤ v) ∧
  (∀ mx b, s.maximum = some mx → RawBound s mx b → v ≤ b)

end Cantools.Spec
