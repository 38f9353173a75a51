import Verif.Spec.Layout

/-
Specification of signals that differ in the order of their multiplexer ids only.
-/

namespace Cantools.Spec
open Cantools

/-- The same signal, with the same multiplexer ids in any order. -/
structure SameIds (a b : Signal) : Prop where
  rest : b = { a with multiplexerIds := b.multiplexerIds }
  none_ : b.multiplexerIds = none ↔ a.multiplexerIds = none
  ids : ∀ i, i ∈ b.multiplexerIds.getD [] ↔ i ∈ a.multiplexerIds.getD []

theorem SameIds.name {a b : Signal} (h : SameIds a b) : b.name = a.name := by rw [h.rest]

end Cantools.Spec
