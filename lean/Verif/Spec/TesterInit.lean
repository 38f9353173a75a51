import Verif.Spec.SignalTree
import Verif.Spec.Codec

/-
What a new message of a tester should contain.
-/

namespace Cantools.Spec
open Cantools

/-- A physical value is within the limits of a signal. -/
def Within (s : Signal) (q : Rat) : Prop :=
  (∀ mn, s.minimum = some mn → mn ≤ q) ∧ ∀ mx, s.maximum = some mx → q ≤ mx

/-- The limits of a signal do not contradict each other, and a signal without minimum does not have a
negative maximum. -/
def SaneLimits (s : Signal) : Prop :=
  ∀ mx, s.maximum = some mx →
    (s.minimum = none → 0 ≤ mx) ∧ ∀ mn, s.minimum = some mn → mn ≤ mx

/-- Every selector that selects something has a signal it selects, and not only a value table. -/
def SelectorsHaveSignals (sigs : List Signal) : Prop :=
  ∀ p ∈ sigs, SelectsSome sigs p →
    ∃ c ∈ sigs, c.multiplexerSignal = some p.name ∧ c.multiplexerIds.getD [] ≠ []

/-- A number can be sent in a signal: strict encoding accepts it and it fits. -/
def Sendable (fo : FloatOps) (s : Signal) (scaling : Bool) (v : Value) : Prop :=
  ValidValue s scaling v ∧ ∃ r, RawOf s scaling v r ∧ Representable fo s r

end Cantools.Spec
