import Verif.Model.Kcd
import Verif.Spec.Codec

/-
What a KCD file can say about a signal and about the multiplexing of a message.
-/

namespace Cantools.Spec
open Cantools Cantools.Kcd

/-- The names of values are kept, comments of named values are not, and an empty table is lost. -/
def keptChoices : Option Choices → Option Choices
  | none => none
  | some [] => none
  | some cs => some (cs.map fun e => (e.1, .named { value := e.1, name := e.2.toStr }))

/-- What is kept of a signal: everything, except that a float is not signed, tables of names are as
in `keptChoices`, and an empty comment is lost. -/
def keptSignal (k : KSignal) : KSignal :=
  { k with
    core := { k.core with
      isSigned := k.core.isSigned && !k.core.conversion.isFloat
      conversion := .factory k.core.conversion.scale k.core.conversion.offset
        (keptChoices k.core.conversion.choices) k.core.conversion.isFloat }
    comment := if k.comment = some "" then none else k.comment }

/-- The signals and messages that can be written at all: receivers are nodes of the database, and
the numbers in a table of names are distinct (it is a dictionary). -/
def Writable (nodes : List String) (k : KSignal) : Prop :=
  (∀ r ∈ k.receivers, ∃ n ∈ nodes, r = some n) ∧
  ∀ cs, k.core.conversion.choices = some cs → (cs.map (·.1)).Nodup

/-- The signals of which everything is kept. -/
def Expressible (k : KSignal) : Prop :=
  Built k.core.conversion ∧
  (k.core.conversion.isFloat = true → k.core.isSigned = false) ∧
  (∀ cs, k.core.conversion.choices = some cs → cs ≠ [] ∧
    ∀ e ∈ cs, e.2 = .named { value := e.1, name := e.2.toStr }) ∧
  k.comment ≠ some ""

/-- The signals whose raw and physical values are kept; comments and the sign of a float do not matter for them. -/
def Meaningful (k : KSignal) : Prop :=
  Built k.core.conversion ∧
  ∀ cs, k.core.conversion.choices = some cs → cs ≠ [] ∧
    ∀ e ∈ cs, e.2 = .named { value := e.1, name := e.2.toStr }

/-- Multiplexing with one level of selectors, and one id for every multiplexed signal. -/
structure Flat (sigs : List KSignal) : Prop where
  names : (sigs.map (·.core.name)).Nodup
  plain : ∀ k ∈ sigs, k.core.multiplexerIds = none → k.core.multiplexerSignal = none
  multiplexed : ∀ k ∈ sigs, ∀ ids, k.core.multiplexerIds = some ids →
    k.core.isMultiplexer = false ∧ (∃ i, ids = [i]) ∧
    ∃ p ∈ sigs, p.core.isMultiplexer = true ∧ k.core.multiplexerSignal = some p.core.name

/-- Numbers survive being written and read. -/
def _root_.Cantools.Kcd.NumText.Faithful (T : NumText) : Prop := ∀ q, T.read (T.show_ q) = .ok q

end Cantools.Spec
