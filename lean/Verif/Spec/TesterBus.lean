import Verif.Model.TesterBus
import Verif.Spec.Tester
import Verif.Spec.Database
import Verif.Spec.Codec

/-
Independent specification: the messages of a tester, and testers that share a bus.
-/

namespace Cantools.Spec
open Cantools Tester

/-- The last message of a bus with a name. -/
def LastOn (T : TestDatabase) (bus : Option String) (name : String) (x : BusMessage) : Prop :=
  ∃ a b, T.messages = a ++ x :: b ∧ x.bus = bus ∧ x.message.name = name ∧
    ∀ y ∈ b, ¬ (y.bus = bus ∧ y.message.name = name)

/-- Some message of the bus has the name. -/
def OnBus (T : TestDatabase) (bus : Option String) (name : String) : Prop :=
  ∃ x ∈ T.messages, x.bus = bus ∧ x.message.name = name

/-- The arguments of a tester are acceptable: the device under test is a node, unless no name (or an empty one) is given,
and the bus is one of the buses, or there is none and no name is given. -/
def GoodNames (T : TestDatabase) (dut bus : Option String) : Prop :=
  (∀ d, dut = some d → d = "" ∨ d ∈ T.db.nodes) ∧
  (T.db.buses = [] → bus = none) ∧ (T.db.buses ≠ [] → ∃ b ∈ T.db.buses, bus = some b)

/-- The device under test sends the message. -/
def SentByDut (dut : Option String) (x : BusMessage) : Prop := ∃ d, dut = some d ∧ d ≠ "" ∧ d ∈ x.senders

/-- Everything that is done with a tester. -/
inductive Used (fo : FloatOps) : State → State → Prop
  | new (t : State) : Used fo t t
  | set {t u : State} (name signal : String) (v : Value) : Used fo t u → Used fo t (u.set fo name signal v).2
  | update {t u : State} (name : String) (signals : List (String × Value)) :
      Used fo t u → Used fo t (u.update fo name signals).2
  | send {t u : State} (name : String) (signals : Option (List (String × Value))) :
      Used fo t u → Used fo t (u.send fo name signals).2
  | hear {t u : State} (f : Frame) : Used fo t u → Used fo t (u.hear fo f)
  | expect {t u : State} (name : String) (signals : List (String × Value)) (discard timeout : Bool) (rs : List Round) :
      Used fo t u → Used fo t (u.expect name signals discard timeout rs).2
  | flush {t u : State} (a : List Decoded) : Used fo t u → Used fo t { u with input := flushInput a u.input }
  | control {t u : State} (c : PCall) : Used fo t u → Used fo t (u.control c)

/-- The database is in use: its tables are up to date, its messages are those of the tester, frame ids are valid. -/
structure InUse (T : TestDatabase) : Prop where
  current : ∃ db0 : Db, db0.refresh = (T.db, none)
  messages : T.db.messages = T.messages.map (·.message)
  ids : ValidIds T.db.messages
  standard : ∀ m ∈ T.db.messages, m.isExtended = false → m.frameId < 2 ^ 11

/-- The frame id of a message is its own: a message of the database (of whatever bus) that answers to it is this one. -/
def OwnId (T : TestDatabase) (m : DbMessage) : Prop :=
  ∀ y ∈ T.db.messages, Answers T.db.mask m.frameId m.isExtended y → y = m

/-- What arrives of some values: the signals they select, each as the value shown for the number that was sent. -/
def Arrives (fo : FloatOps) (sigs : List Signal) (values : List (String × Value)) (scaling decodeChoices scaling' : Bool)
    (r : List (String × Value)) : Prop :=
  ∀ n v', dictGet? r n = some v' ↔ ∃ s v raw raw', Present sigs (requested sigs values) s ∧
    s.name = n ∧ dictGet? values n = some v ∧ RawOf s scaling v raw ∧ Stored fo s raw raw' ∧
    v' = shown s decodeChoices scaling' raw'

end Cantools.Spec
