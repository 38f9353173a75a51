import Verif.Model.Database

/-
Independent specification of lookups in a database.
-/

namespace Cantools.Spec
open Cantools

/-- The most recently added message with a property. -/
def LastWith (P : DbMessage → Prop) (l : List DbMessage) (m : DbMessage) : Prop :=
  ∃ a b, l = a ++ m :: b ∧ P m ∧ ∀ x ∈ b, ¬ P x

/-- Whether a requested frame id means an extended frame: if forced, or if it does not fit in 11
bits. -/
def WantsExtended (id : Nat) (force : Bool) : Prop := force = true ∨ 2 ^ 11 ≤ id

/-- A message answers to a frame id: it is of that frame format, and its frame id agrees on all bits of
the mask (bit 31, used in some formats as a flag for extended frames, is not part of an id). -/
def Answers (mask id : Nat) (force : Bool) (m : DbMessage) : Prop :=
  (m.isExtended = true ↔ WantsExtended id force) ∧
    ∀ i, i ≠ 31 → mask.testBit i = true → m.frameId.testBit i = id.testBit i

/-- Frame ids have 29 bits. -/
def ValidIds (l : List DbMessage) : Prop := ∀ m ∈ l, m.frameId < 2 ^ 29

end Cantools.Spec
