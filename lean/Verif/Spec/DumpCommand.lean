import Verif.Model.DumpCommand
import Verif.Spec.J1939
import Mathlib.Data.List.Forall2

/-
Specification of what the `dump` command tells about a CAN database: one page for each message, and one for each message
that it can contain.
-/

namespace Cantools.Spec.Dumping
open Dbc DumpCommand
open Listing (LSignal LMessage NamedValue signalTree)
open Dump (rstrip layoutLines)

variable {F : Type}

/-- A message on a page of its own; `parent` is the name of the message that can contain it. -/
structure Page (F : Type) where
  parent : Option Chars
  message : LMessage F
  j1939 : Bool
  children : List Chars

/-- A message, and what it can contain. -/
def pages (d : Dumped F) : List (Page F) :=
  { parent := none, message := d.message, j1939 := d.j1939, children := d.contained.map (·.name) } ::
  d.contained.map fun c => { parent := some d.message.name, message := c, j1939 := false, children := [] }

/-- Names that can be told apart from what surrounds them. -/
structure FinePage (p : Page F) : Prop where
  name : ' ' ∉ p.message.name
  parent : ∀ n, p.parent = some n → ' ' ∉ n
  senders : ∀ t ∈ p.message.senders, ' ' ∉ t ∧ ',' ∉ t
  header : ∀ h, p.message.headerId = some h → 0 ≤ h
  signals : ∀ s ∈ p.message.signals, s.name ≠ [] ∧ ∀ c ∈ s.name, c.isWhitespace = false

def Fine (db : List (Dumped F)) : Prop := ∀ d ∈ db, ∀ p ∈ pages d, FinePage p

/-- The senders that are shown. -/
def shownSenders (m : LMessage F) : List Chars := if m.senders = [] then ["-".toList] else m.senders

/-- The signals with named values. -/
def withChoices (m : LMessage F) : List (LSignal F) := m.signals.filter fun s => decide (s.choices.getD [] ≠ [])

/-- A named value; white space at the end of the name cannot be seen. -/
def told (e : Int × NamedValue) : Int × Chars := (e.1, rstrip e.2.name)

/-- What a page tells.  The picture of the layout is that of C44, the signal tree is that of C64. -/
structure SamePage (T : FloatText F) (a b : Page F) : Prop where
  parent : b.parent = a.parent
  name : b.message.name = a.message.name
  frameId : a.parent = none → b.message.frameId = a.message.frameId
  headerId : a.parent ≠ none → b.message.headerId = a.message.headerId
  j1939 : b.j1939 = a.j1939
  length : b.message.length = a.message.length
  cycleTime : b.message.cycleTime = a.message.cycleTime
  senders : shownSenders b.message = shownSenders a.message
  children : b.children = a.children
  layout : a.children = [] → ∃ m m' l l', coreMessage T a.message = .ok m ∧ coreMessage T b.message = .ok m' ∧
    layoutLines m true = .ok l ∧ layoutLines m' true = .ok l' ∧ ∀ i, l'.getD i [] = l.getD i []
  tree : a.children = [] → ∃ t t', signalTree T a.message.signals = .ok t ∧ signalTree T b.message.signals = .ok t' ∧
    ∀ i, rstrip (t'.getD i []) = rstrip (t.getD i [])
  choices : a.children = [] → List.Forall₂ (fun s s' => s'.name = s.name ∧
    ((s'.choices.getD []).map told).Perm ((s.choices.getD []).map told)) (withChoices a.message) (withChoices b.message)

/-- The last message with a name. -/
def LastNamed (db : List (Dumped F)) (name : Chars) (d : Dumped F) : Prop :=
  ∃ before after, db = before ++ d :: after ∧ d.message.name = name ∧ ∀ x ∈ after, x.message.name ≠ name

/-- A page that can be printed: the signals have different names and at least one bit, as the constructor of messages
demands, and identifiers of J1939 messages have 29 bits. -/
structure Dumpable (p : Page F) : Prop where
  names : (p.message.signals.map (·.name)).Nodup
  visible : ∀ s ∈ p.message.signals, s.name ≠ [] ∧ ∀ c ∈ s.name, c.isWhitespace = false
  lengths : ∀ s ∈ p.message.signals, 0 < s.length
  j1939 : p.j1939 = true → 0 ≤ p.message.frameId ∧ p.message.frameId < 2 ^ 29

/-- The parameter group of an identifier: in the PDU1 format, PDU specific is the destination and not part of it. -/
def groupOf (f : FrameId) : Pgn where
  reserved := f.reserved
  dataPage := f.dataPage
  pduFormat := f.pduFormat
  pduSpecific := if f.pduFormat < 240 then 0 else f.pduSpecific

/-- What is told about a DID. -/
structure SameDid (a b : Did) : Prop where
  name : b.name = a.name
  length : b.length = a.length
  datas : b.datas.map (fun d => (d.name, d.start, d.length)) = a.datas.map fun d => (d.name, d.start, d.length)

end Cantools.Spec.Dumping
