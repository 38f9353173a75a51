import Verif.Model.KcdFile
import Verif.Spec.Files
import Verif.Spec.Kcd
import Verif.Spec.KcdXml

/-
The databases of DBC and SYM files that can be written to a KCD file, and what it keeps of them.
-/

namespace Cantools.Spec
open Dbc
open Kcd (KSignal KMessage KDatabase)

variable {F : Type}

/-- A text for an attribute of XML. -/
def XmlChars (t : Chars) : Prop := ∀ c ∈ t, XmlChar c

/-- A text for the contents of an element. -/
def XmlContents (t : Chars) : Prop := ∀ c ∈ t, XmlChar c ∧ c ≠ '\r'

/-- A signal that a KCD file has fields for: its receivers are nodes, it has one multiplexer id at most, and its table of
names, if it has one, is a dictionary that is not empty. -/
structure KcdSignal (nodes : List Chars) (sigs : List (DSignal F)) (s : DSignal F) : Prop where
  receivers : ∀ r ∈ s.receivers, r ∈ nodes
  plain : s.multiplexerIds = none → s.multiplexerSignal = none
  multiplexed : ∀ ids, s.multiplexerIds = some ids → s.isMultiplexer = false ∧ (∃ i, ids = [i]) ∧
    ∃ p ∈ sigs, p.isMultiplexer = true ∧ s.multiplexerSignal = some p.name
  choices : ∀ cs, s.choices = some cs → cs ≠ [] ∧ (cs.map (·.1)).Nodup
  name : XmlChars s.name
  unit : ∀ t, s.unit = some t → XmlChars t
  comment : ∀ t, s.comment = some t → XmlContents t
  names : ∀ cs, s.choices = some cs → ∀ e ∈ cs, XmlChars e.2

/-- A message that a KCD file has fields for. -/
structure KcdMessage (nodes : List Chars) (m : DMessage F) : Prop where
  id : 0 ≤ m.frameId
  senders : ∀ s ∈ m.senders, s ∈ nodes
  cycleTime : ∀ n, m.cycleTime = some n → ∃ i, n = .int i
  distinct : (m.signals.map (·.name)).Nodup
  name : XmlChars m.name
  comment : ∀ t, m.comment = some t → XmlContents t
  signals : ∀ s ∈ m.signals, KcdSignal nodes m.signals s

/-- A database that a KCD file has fields for. -/
structure KcdDatabase (db : DDatabase F) : Prop where
  messages : ∀ m ∈ db.messages, KcdMessage (db.nodes.map (·.name)) m
  nodes : ∀ n ∈ db.nodes, XmlChars n.name
  version : ∀ v, db.version = some v → XmlChars v

/-- Empty comments are lost. -/
def keptComment (c : Option Chars) : Option String := (c.filter (· ≠ [])).map String.ofList

/-- What is read for a signal: floats are not signed. -/
structure KcdKeptSignal (T : FloatText F) (s : DSignal F) (k : KSignal) : Prop where
  core : k.core = { s.core T with isSigned := s.isSigned && !s.isFloat }
  unit : k.unit = s.unit.map String.ofList
  comment : k.comment = keptComment s.comment
  receivers : k.receivers = s.receivers.map fun r => some (String.ofList r)

/-- What is read for a message. -/
structure KcdKept (T : FloatText F) (m : DMessage F) (k : KMessage) : Prop where
  frameId : (k.frameId : Int) = m.frameId
  isExtendedFrame : k.isExtendedFrame = m.isExtendedFrame
  name : k.name = String.ofList m.name
  length : k.length = m.length
  senders : k.senders = m.senders.map fun s => some (String.ofList s)
  cycleTime : m.cycleTime = k.cycleTime.map .int
  comment : k.comment = keptComment m.comment
  signals : ∃ l : List (DSignal F), l.Perm m.signals ∧ List.Forall₂ (KcdKeptSignal T) l k.signals

/-- What is read for a database. -/
structure KcdKeptDatabase (T : FloatText F) (db : DDatabase F) (k : KDatabase) : Prop where
  version : k.version = some (String.ofList (db.version.getD []))
  nodes : k.nodes = db.nodes.map fun n => String.ofList n.name
  messages : List.Forall₂ (KcdKept T) db.messages k.messages

/-- The messages treat frames in the same way: the new one is accepted by the strict check, encodes all data to the same
frame (without padding or if the old one pads with ones) and decodes every frame to the same values or rejects it. -/
def KcdFramesSurvive (fo : FloatOps) (T : FloatText F) (m : DMessage F) (k : KMessage) : Prop :=
  ∀ pattern msg, messageOf T pattern true m = .ok msg →
    ∃ msg', k.create = .ok msg' ∧
      (∀ data scaling padding strict payload, (padding = true → pattern = 0xff) →
        (encode fo msg data scaling padding strict = .ok payload ↔
          encode fo msg' data scaling padding strict = .ok payload)) ∧
      ∀ data decodeChoices scaling truncated excess,
        (decode fo msg data decodeChoices scaling truncated excess = .error .decodeError ∧
          decode fo msg' data decodeChoices scaling truncated excess = .error .decodeError) ∨
        ∃ r r', decode fo msg data decodeChoices scaling truncated excess = .ok r ∧
          decode fo msg' data decodeChoices scaling truncated excess = .ok r' ∧ r'.Perm r

end Cantools.Spec
