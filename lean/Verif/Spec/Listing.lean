import Verif.Model.Listing
import Verif.Spec.DbcNumber
import Mathlib.Data.List.Forall2

/-
Specification of what the `list` command tells about a database.
-/

namespace Cantools.Spec.Listed
open Cantools Dbc Listing

variable {F : Type}

/-! ### Texts that can be told apart from what surrounds them -/

/-- A text on one line. -/
def OneLine (t : Chars) : Prop := '\n' ∉ t

instance (t : Chars) : Decidable (OneLine t) := inferInstanceAs (Decidable ('\n' ∉ t))

/-- A name of a signal: no white space. -/
def Word (t : Chars) : Prop := t ≠ [] ∧ ' ' ∉ t ∧ '\n' ∉ t

/-- Names in a list. -/
def Separable (l : List Chars) : Prop := ∀ t ∈ l, OneLine t ∧ ',' ∉ t

/-- Comments on one line, and languages that do not look like the end of a language. -/
def FineComments (l : Listing.Comments) : Prop := ∀ c ∈ l, OneLine c.1 ∧ ']' ∉ c.1 ∧ OneLine c.2

def FineValue : Option (Shown F) → Prop
  | some (.name t) => OneLine t
  | _ => True

/-- A signal whose properties can be told from its listing: its scaling factor is one or not very close to one;
the named values of a signal that others depend on have different names that are no numbers; the signals that others
depend on are the multiplexer signals. -/
structure FineSignal (T : FloatText F) (signals : List (LSignal F)) (s : LSignal F) : Prop where
  name : Word s.name
  comments : FineComments (s.comments.getD [])
  unit : OneLine (s.unit.getD [])
  receivers : Separable s.receivers
  choices : s.choices ≠ some []
  choiceNames : ∀ e ∈ s.choices.getD [], OneLine e.2.name ∧ FineComments e.2.comments
  initial : FineValue s.initial
  invalid : FineValue s.invalid
  scale : s.scale.value T = 1 ∨ 1 + 1 / 10 ^ 10 < s.scale.value T ∨ s.scale.value T < 1 - 1 / 10 ^ 10
  muxed : s.multiplexerIds = none ↔ s.multiplexerSignal = none
  some_id : s.multiplexerIds ≠ some []
  multiplexer : s.isMultiplexer = true ↔ ∃ s' ∈ signals, s'.multiplexerSignal = some s.name
  selector : s.isMultiplexer = true →
    ((s.choices.getD []).map (·.2.name)).Nodup ∧
    ∀ e ∈ s.choices.getD [], ',' ∉ e.2.name ∧ ∀ i : Int, e.2.name ≠ intText i

def FineText : Option Chars → Prop
  | none => True
  | some t => OneLine t

/-- The texts of what is specific to ARXML files. -/
def FineAutosar (a : Autosar) : Prop :=
  (∀ e, a.e2e = some e → FineText e.category) ∧
  ∀ s, a.secoc = some s → FineText s.authAlgorithm ∧ FineText s.freshnessAlgorithm

/-- A message whose properties can be told from its listing. -/
structure FineMessage (T : FloatText F) (m : LMessage F) : Prop where
  name : OneLine m.name ∧ m.name ≠ [] ∧ m.name.head? ≠ some ' '
  comments : FineComments (m.comments.getD [])
  busName : OneLine (m.busName.getD [])
  senders : Separable m.senders
  autosar : ∀ a, m.autosar = some a → FineAutosar a
  names : (m.signals.map (·.name)).Nodup
  signals : ∀ s ∈ m.signals, FineSignal T m.signals s

/-- A message and the messages that it can contain; it has signals of its own or contains messages. -/
structure FineEntry (T : FloatText F) (e : Entry F) : Prop where
  message : FineMessage T e.message
  contained : ∀ m ∈ e.contained, FineMessage T m
  signals : e.contained ≠ [] → e.message.signals = []

/-- A message that can be listed: different names of signals, and selectors that are there. -/
def Listable (m : LMessage F) : Prop :=
  (m.signals.map (·.name)).Nodup ∧
  ∀ s ∈ m.signals, ∀ n, s.multiplexerSignal = some n → ∃ s' ∈ m.signals, s'.name = n

/-! ### What the listing tells -/

/-- What can be told about a signal.  (No unit is like an empty one, and so are comments.) -/
structure SameSignal (T : FloatText F) (a b : LSignal F) : Prop where
  name : b.name = a.name
  start : b.start = a.start
  length : b.length = a.length
  byteOrder : b.byteOrder = a.byteOrder
  isSigned : b.isSigned = a.isSigned
  isFloat : b.isFloat = a.isFloat
  scale : b.scale.value T = a.scale.value T
  offset : b.offset.value T = a.offset.value T
  minimum : b.minimum = a.minimum
  maximum : b.maximum = a.maximum
  unit : b.unit.getD [] = a.unit.getD []
  receivers : b.receivers.Perm a.receivers
  comments : b.comments.getD [] = a.comments.getD []
  choices : b.choices = a.choices
  isMultiplexer : b.isMultiplexer = a.isMultiplexer
  multiplexerIds : b.multiplexerIds = a.multiplexerIds
  multiplexerSignal : b.multiplexerSignal = a.multiplexerSignal

/-- What can be told about a message.  The frame id is not shown for messages that have a header id. -/
structure SameMessage (T : FloatText F) (a b : LMessage F) : Prop where
  name : b.name = a.name
  headerId : b.headerId = a.headerId
  frame : a.headerId = none →
    b.frameId = a.frameId ∧ b.isExtendedFrame = a.isExtendedFrame ∧ b.isFd = a.isFd
  length : b.length = a.length
  comments : b.comments.getD [] = a.comments.getD []
  busName : b.busName.getD [] = a.busName.getD []
  senders : b.senders.Perm a.senders
  cycleTime : b.cycleTime = a.cycleTime
  signals : List.Forall₂ (SameSignal T) a.signals b.signals

/-- What can be told about a message and the messages that it can contain. -/
structure SameEntry (T : FloatText F) (a b : Entry F) : Prop where
  message : SameMessage T a.message b.message
  contained : List.Forall₂ (SameMessage T) a.contained b.contained

/-- The message as the encoder sees it. -/
def messageOf (T : FloatText F) (pattern : UInt8) (strict : Bool) (m : LMessage F) : Except Err Message :=
  Message.create m.frameId (String.ofList m.name) m.length (m.signals.map (·.core T)) pattern m.isExtendedFrame strict

/-! ### Which items are listed -/

/-- In alphabetical order. -/
def Sorted (l : List Chars) : Prop := l.Pairwise (· ≤ ·)

/-- The messages that are not excluded. -/
def Included (args : Args) (e : Entry F) : Prop :=
  (e.message.isExtendedFrame = true → args.excludeExtended = false) ∧
  (e.message.isExtendedFrame = false → args.excludeNormal = false)

instance (args : Args) (e : Entry F) : Decidable (Included args e) := by unfold Included; infer_instance

/-- The last message of a name. -/
def LastNamed (db : LDatabase F) (name : Chars) (e : Entry F) : Prop :=
  ∃ before after, db.messages = before ++ e :: after ∧ e.message.name = name ∧ ∀ x ∈ after, x.message.name ≠ name

/-- What is printed for a name: the listing of the last message of this name, or that there is none. -/
def ItemShown (T : FloatText F) (db : LDatabase F) (specifics : Bool) (name : Chars) (lines : List Line) : Prop :=
  (∃ e, LastNamed db name e ∧ entryLines T specifics e = .ok lines) ∨
  ((∀ e ∈ db.messages, e.message.name ≠ name) ∧
    lines = ["No message named \"".toList ++ (name ++ "\" has been found in input file.".toList)])

end Cantools.Spec.Listed
