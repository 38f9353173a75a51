import Verif.Model.TesterInit
import Verif.Model.Database

/-
tester.py: a whole tester, from the frames of the bus to the calls of the user.

Left out: the callback `on_message`; the frames that active periodic tasks send (C35 is about them); what python-can itself
refuses to send.
-/

namespace Cantools.Tester
open Cantools

/-- A message of a database, with what else a tester uses of it (can/message.py:64-143): the name of its bus, its senders,
its cycle time, and the initial values of its signals. -/
structure BusMessage where
  message : DbMessage
  bus : Option String := none
  senders : List String := []
  cycleTime : Option Nat := none
  raw : Signal → Option Rat := fun _ => none

/-- A database as a tester sees it (can/database.py:46-72). -/
structure TestDatabase where
  messages : List BusMessage
  db : Db

/-- A CAN frame (`can.Message`). -/
structure Frame where
  id : Nat
  extended : Bool := false
  data : Bytes
  error : Bool := false
  remote : Bool := false
  deriving DecidableEq, Repr

/-- tester.py:309-369: a tester.  `periodic` holds what concerns periodic sending, in the same order as `messages`. -/
structure State where
  database : TestDatabase
  decodeChoices : Bool
  scaling : Bool
  messages : List (String × BusMessage × TMessage) := []
  periodic : PState := { messages := [] }
  input : Input := {}

/-- tester.py:334-336: the name of the DUT is missing, or that of a node. -/
def dutOk (nodes : List String) (dut : Option String) : Bool :=
  match dut with
  | none => true
  | some d => d == "" || nodes.any (· == d)

/-- tester.py:339-348: there are no buses and no name is given, or the name is that of a bus. -/
def busOk (buses : List String) (bus : Option String) : Bool :=
  if buses.isEmpty then bus.isNone else buses.any fun b => some b == bus

/-- tester.py:352-359: the message of a tester.  The values of a message that holds other messages cannot be encoded: the
strict checks refuse the empty dictionary (message.py:921-924), and without them the payload is too short for
`can.Message`. -/
def newSlot (fo : FloatOps) (scaling padding strict : Bool) (x : BusMessage) : Except Err TMessage :=
  match x.message.body with
  | .inl m => newMessage fo m x.raw scaling padding strict
  | .inr _ => if strict then .error .encodeError else .error .valueError

/-- tester.py:350-359: the loop over the messages of the database. -/
def newSlots (fo : FloatOps) (bus : Option String) (scaling padding strict : Bool) :
    List (String × BusMessage × TMessage) → List BusMessage → Except Err (List (String × BusMessage × TMessage))
  | acc, [] => .ok acc
  | acc, x :: r =>
    if x.bus = bus then do
      let t ← newSlot fo scaling padding strict x
      newSlots fo bus scaling padding strict (dictSet acc x.message.name (x, t)) r
    else newSlots fo bus scaling padding strict acc r

/-- tester.py:137-145, 375-376: what matters of a message for periodic sending. -/
def pmessage (dut : Option String) (name : String) (x : BusMessage) : PMessage :=
  { name := name, periodic := x.cycleTime.isSome
    fromDut := match dut with
      | none => false
      | some d => d != "" && x.senders.contains d }

/-- tester.py:313-366 `__init__`. -/
def State.create (fo : FloatOps) (dut : Option String) (T : TestDatabase) (bus : Option String)
    (decodeChoices scaling padding strict : Bool) : Except Err State :=
  if !dutOk T.db.nodes dut then .error .error
  else if !busOk T.db.buses bus then .error .error
  else do
    let slots ← newSlots fo bus scaling padding strict [] T.messages
    pure { database := T, decodeChoices := decodeChoices, scaling := scaling, messages := slots
           periodic := { messages := slots.map fun e => pmessage dut e.1 e.2.1 } }

/-- tester.py:117-136: the attribute `enabled` of a message. -/
def State.enabled (t : State) (name : String) : Bool :=
  match t.periodic.messages.find? fun m => m.name == name with
  | some m => m.enabled
  | none => false

/-- tester.py:86-111 `on_message_received`: the message for the queue, if any.  An exception (the payload is not one of the
message) ends the call. -/
def State.onFrame (fo : FloatOps) (t : State) (f : Frame) : Except Err (Option Decoded) :=
  if f.error || f.remote then .ok none
  else
    match t.database.db.getByFrameId f.id f.extended with
    | .error _ => .ok none
    | .ok m =>
      match dictGet? t.messages m.name with
      | none => .ok none
      | some _ =>
        if !t.enabled m.name then .ok none
        else
          match m.body with
          | .inl msg => do
            let r ← decode fo msg f.data t.decodeChoices t.scaling false true
            pure (some { name := m.name, signals := r })
          | .inr _ => .error .decodeError

/-- tester.py:86-111: the tester after a frame was received. -/
def State.hear (fo : FloatOps) (t : State) (f : Frame) : State :=
  match t.onFrame fo f with
  | .ok (some d) => { t with input := receive d t.input }
  | _ => t

/-- tester.py:31-32, 448-456 `send`: the frame that is sent (248-260), or the exception. -/
def State.send (fo : FloatOps) (t : State) (name : String) (signals : Option (List (String × Value))) :
    Except Err Frame × State :=
  match dictGet? t.messages name with
  | none => (.error .error, t)
  | some (x, m) =>
    let o := Cantools.Tester.send fo m signals
    ((do let d ← o.1
         pure { id := x.message.frameId, extended := x.message.isExtended, data := d }),
      { t with messages := dictSet t.messages name (x, o.2) })

/-- tester.py:31-32, 149-153, 397-413: `tester.messages[name][signal] = value`. -/
def State.set (fo : FloatOps) (t : State) (name signal : String) (v : Value) : Except Err Unit × State :=
  match dictGet? t.messages name with
  | none => (.error .error, t)
  | some (x, m) =>
    let o := setItem fo m signal v
    (o.1, { t with messages := dictSet t.messages name (x, o.2) })

/-- tester.py:31-32, 155-162, 397-413: `tester.messages[name].update(signals)`. -/
def State.update (fo : FloatOps) (t : State) (name : String) (signals : List (String × Value)) : Except Err Unit × State :=
  match dictGet? t.messages name with
  | none => (.error .error, t)
  | some (x, m) =>
    let o := Cantools.Tester.update fo m signals
    (o.1, { t with messages := dictSet t.messages name (x, o.2) })

/-- tester.py:31-32, 458-486 `expect`. -/
def State.expect (t : State) (name : String) (signals : List (String × Value)) (discard timeout : Bool)
    (rs : List Round) : Outcome × State :=
  match dictGet? t.messages name with
  | none => (.raised .error, t)
  | some _ =>
    let o := Cantools.Tester.expect (matchesMsg name signals) discard timeout rs t.input
    (o.1, { t with input := o.2 })

/-- tester.py:371-446: `start`, `stop`, `enable` and `disable`. -/
def State.control (t : State) (c : PCall) : State := { t with periodic := t.periodic.call c }

end Cantools.Tester
