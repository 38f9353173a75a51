import Verif.Model.Dbc

/-
Specification of what a DBC file must preserve.
-/

namespace Cantools.Spec
open Cantools

/-- A frame id that exists on the bus. -/
def ValidFrameId (frameId : Int) (isExtended : Bool) : Prop :=
  0 ≤ frameId ∧ frameId < 2 ^ (if isExtended then 29 else 11)

/-- The multiplexing of the signals of a message makes sense: distinct names, and a signal either
has neither selector nor ids, or some ids and another signal of the message as selector. -/
structure WellMuxed (signals : List Signal) : Prop where
  nodup : (signals.map (·.name)).Nodup
  both : ∀ s ∈ signals, s.multiplexerIds = none ↔ s.multiplexerSignal = none
  some_id : ∀ s ∈ signals, s.multiplexerIds ≠ some []
  parent : ∀ s ∈ signals, ∀ n, s.multiplexerSignal = some n →
    ∃ p ∈ signals, p.name = n ∧ p ≠ s ∧ p.isMultiplexer = true

/-- A loaded signal has the same multiplexing as the original. -/
def SameMux (s : Signal) (l : LoadedMux) : Prop :=
  l.name = s.name ∧ l.isMultiplexer = s.isMultiplexer ∧ l.multiplexerSignal = s.multiplexerSignal ∧
  (s.multiplexerIds = none → l.multiplexerIds = none) ∧
  ∀ ids, s.multiplexerIds = some ids →
    ∃ ids', l.multiplexerIds = some ids' ∧ ∀ i, i ∈ ids' ↔ i ∈ ids

end Cantools.Spec
