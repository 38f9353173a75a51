import Verif.Model.Message

/-
tester.py: expecting, periodic sending, and setting signals.
-/

namespace Cantools.Tester
open Cantools

/-! ### Expecting messages -/

/-- tester.py:17-24 `DecodedMessage`. -/
structure Decoded where
  name : String
  signals : List (String × Value)
  deriving DecidableEq, Repr

/-- Python `==` of signal values (namedsignalvalue.py:51-61 for named values; comments of named
values are not modelled). -/
def valueEq : Value → Value → Bool
  | .num a, .num b => decide (a = b)
  | .str a, .str b => decide (a = b)
  | .named a, .named b => decide (a = b)
  | .named a, .str b => decide (a.name = b)
  | .str a, .named b => decide (a = b.name)
  | _, _ => false

/-- The generator expression of tester.py:232: stops at the first difference, and raises `KeyError`
for a signal that is not in the message. -/
def allEqual (got : List (String × Value)) : List (String × Value) → Except Err Bool
  | [] => .ok true
  | (n, v) :: r => do
    let g ← dictGet got n
    if valueEq g v then allEqual got r else pure false

/-- tester.py:231-233 `_filter_expected_message`: does the message match? -/
def matchesMsg (name : String) (signals : List (String × Value)) (m : Decoded) : Except Err Bool :=
  if m.name = name then allEqual m.signals signals else .ok false

/-- The input of a tester: `_input_list` and `_input_queue`. -/
structure Input where
  list : List Decoded := []
  queue : List Decoded := []
  deriving DecidableEq, Repr

/-- How a call of `expect` ends. -/
inductive Outcome where
  /-- The signals of a message are returned. -/
  | found (m : Decoded)
  /-- `None` is returned. -/
  | nothing
  /-- An exception is raised. -/
  | raised (e : Err)
  /-- The call still waits. -/
  | waiting
  deriving DecidableEq, Repr

/-- tester.py:183-203 `_expect_input_list`.  `other` is the local variable `other_messages`.  When
the filter raises, the messages popped so far are gone. -/
def expectList (p : Decoded → Except Err Bool) (discard : Bool) :
    List Decoded → List Decoded → Outcome × List Decoded
  | other, [] => (.nothing, if discard then [] else other)
  | other, m :: r =>
    match p m with
    | .error e => (.raised e, r)
    | .ok true => (.found m, if discard then r else other ++ r)
    | .ok false => expectList p discard (other ++ [m]) r

/-- What happens during one round of the loop of `_expect_input_queue`: messages that the listener
thread puts into the queue before `get` returns, and whether the time is up after a message that
does not match. -/
structure Round where
  arrivals : List Decoded := []
  timeUp : Bool := false
  deriving DecidableEq, Repr

/-- tester.py:205-229 `_expect_input_queue`, for a given course of events.  If the queue stays empty,
`get` raises `queue.Empty` when a timeout is given and waits otherwise; the call also waits when the
events end.  A negative timeout is not modelled. -/
def expectQueue (p : Decoded → Except Err Bool) (discard timeout : Bool) :
    List Round → Input → Outcome × Input
  | [], i => (.waiting, i)
  | ro :: rs, i =>
    match i.queue ++ ro.arrivals with
    | [] => if timeout then (.nothing, { i with queue := [] })
            else expectQueue p discard timeout rs { i with queue := [] }
    | m :: q =>
      match p m with
      | .error e => (.raised e, { i with queue := q })
      | .ok true => (.found m, { i with queue := q })
      | .ok false =>
        let i' : Input := { list := if discard then i.list else i.list ++ [m], queue := q }
        if timeout && ro.timeUp then (.nothing, i') else expectQueue p discard timeout rs i'

/-- tester.py:170-181 `expect`. -/
def expect (p : Decoded → Except Err Bool) (discard timeout : Bool) (rs : List Round) (i : Input) :
    Outcome × Input :=
  match expectList p discard [] i.list with
  | (.nothing, l) => expectQueue p discard timeout rs { i with list := l }
  | (o, l) => (o, { i with list := l })

/-- tester.py:488-496 `flush_input`; `arrivals` arrive before the queue is found empty. -/
def flushInput (_arrivals : List Decoded) (_ : Input) : Input := {}

/-- tester.py:104-111: the listener puts a message into the queue. -/
def receive (m : Decoded) (i : Input) : Input := { i with queue := i.queue ++ [m] }

/-! ### Periodic sending -/

/-- The part of a tester message that matters for periodic sending (tester.py:114-141).  Tasks are
numbered in the order in which the bus created them. -/
structure PMessage where
  name : String
  periodic : Bool
  /-- The DUT is one of the senders. -/
  fromDut : Bool
  enabled : Bool := true
  task : Option Nat := none
  deriving DecidableEq, Repr

/-- A tester and the periodic tasks of the bus: the number of the next task and the active tasks with
the message they send. -/
structure PState where
  messages : List PMessage
  running : Bool := false
  next : Nat := 0
  active : List (Nat × String) := []
  deriving DecidableEq, Repr

/-- tester.py:235-241 `send_periodic_start`; `send_periodic` of the bus makes a new active task. -/
def periodicStart (m : PMessage) (next : Nat) (active : List (Nat × String)) :
    PMessage × Nat × List (Nat × String) :=
  if m.enabled then ({ m with task := some next }, next + 1, active ++ [(next, m.name)])
  else (m, next, active)

/-- tester.py:243-246 `send_periodic_stop`. -/
def periodicStop (m : PMessage) (active : List (Nat × String)) : PMessage × List (Nat × String) :=
  match m.task with
  | none => (m, active)
  | some t => ({ m with task := none }, active.filter fun a => a.1 != t)

/-- tester.py:367-377: the loop of `start`. -/
def startLoop : List PMessage → Nat → List (Nat × String) →
    List PMessage × Nat × List (Nat × String)
  | [], next, active => ([], next, active)
  | m :: r, next, active =>
    let s := if m.fromDut || !m.periodic then (m, next, active) else periodicStart m next active
    let t := startLoop r s.2.1 s.2.2
    (s.1 :: t.1, t.2)

/-- tester.py:388-389: the loop of `stop`. -/
def stopLoop : List PMessage → List (Nat × String) → List PMessage × List (Nat × String)
  | [], active => ([], active)
  | m :: r, active =>
    let s := periodicStop m active
    let t := stopLoop r s.2
    (s.1 :: t.1, t.2)

/-- The calls of a tester that concern periodic sending. -/
inductive PCall where
  | start
  | stop
  | enable (name : String)
  | disable (name : String)
  deriving DecidableEq, Repr

/-- Apply a change to the message of a name. -/
def updateNamed (name : String) (f : PMessage → Nat → List (Nat × String) →
    PMessage × Nat × List (Nat × String)) :
    List PMessage → Nat → List (Nat × String) → List PMessage × Nat × List (Nat × String)
  | [], next, active => ([], next, active)
  | m :: r, next, active =>
    if m.name = name then
      let s := f m next active
      (s.1 :: r, s.2)
    else
      let t := updateNamed name f r next active
      (m :: t.1, t.2)

/-- tester.py:430-432: `enabled = True`, and start if the tester runs and the message is periodic. -/
def enableMessage (running : Bool) (m : PMessage) (next : Nat) (active : List (Nat × String)) :
    PMessage × Nat × List (Nat × String) :=
  if running && m.periodic then periodicStart { m with enabled := true } next active
  else ({ m with enabled := true }, next, active)

/-- tester.py:443-446: `enabled = False`, and stop if the tester runs and the message is periodic. -/
def disableMessage (running : Bool) (m : PMessage) (next : Nat) (active : List (Nat × String)) :
    PMessage × Nat × List (Nat × String) :=
  if running && m.periodic then
    let s := periodicStop { m with enabled := false } active
    (s.1, next, s.2)
  else ({ m with enabled := false }, next, active)

/-- tester.py:361-446 `start`, `stop`, `enable`, `disable`.  Unknown names raise `Error` and change
nothing. -/
def PState.call (s : PState) : PCall → PState
  | .start =>
    let t := startLoop s.messages s.next s.active
    { messages := t.1, running := true, next := t.2.1, active := t.2.2 }
  | .stop =>
    let t := stopLoop s.messages s.active
    { s with messages := t.1, running := false, active := t.2 }
  | .enable n =>
    let t := updateNamed n (enableMessage s.running) s.messages s.next s.active
    { s with messages := t.1, next := t.2.1, active := t.2.2 }
  | .disable n =>
    let t := updateNamed n (disableMessage s.running) s.messages s.next s.active
    { s with messages := t.1, next := t.2.1, active := t.2.2 }

/-! ### Setting signals -/

/-- A tester message (tester.py:114-141): the database message, the values, the frame to send, and
the frame of the active periodic task (if any). -/
structure TMessage where
  database : Message
  scaling : Bool
  padding : Bool
  strict : Bool
  data : List (String × Value) := []
  frame : Option Bytes := none
  periodicFrame : Option Bytes := none

/-- tester.py:248-264 `_update_can_message`: the new frame. -/
def newFrame (fo : FloatOps) (t : TMessage) : Except Err Bytes := do
  let pruned ← gatherSignals t.database t.data
  encode fo t.database pruned t.scaling t.padding t.strict

/-- tester.py:248-264 `_update_can_message`; an active periodic task is modified too. -/
def updateCanMessage (fo : FloatOps) (t : TMessage) : Except Err TMessage := do
  let f ← newFrame fo t
  pure { t with frame := some f, periodicFrame := t.periodicFrame.map fun _ => f }

/-- Run `_update_can_message` (tester.py:248-264) on a message whose values were changed.  The call
succeeds or raises; both leave a message behind. -/
def afterChange (fo : FloatOps) (t : TMessage) : Except Err Unit × TMessage :=
  match updateCanMessage fo t with
  | .ok t' => (.ok (), t')
  | .error e => (.error e, t)

/-- tester.py:149-153 `__setitem__`. -/
def setItem (fo : FloatOps) (t : TMessage) (name : String) (v : Value) :
    Except Err Unit × TMessage :=
  if t.database.signals.any fun s => s.name == name then
    afterChange fo { t with data := dictSet t.data name v }
  else (.error .keyError, t)

/-- tester.py:155-162 `update`. -/
def update (fo : FloatOps) (t : TMessage) (signals : List (String × Value)) :
    Except Err Unit × TMessage :=
  if signals.all fun kv => t.database.signals.any fun s => s.name == kv.1 then
    afterChange fo { t with data := dictUpdate t.data signals }
  else (.error .keyError, t)

/-- tester.py:164-168 `send`: the frame put on the bus. -/
def send (fo : FloatOps) (t : TMessage) (signals : Option (List (String × Value))) :
    Except Err Bytes × TMessage :=
  match signals with
  | none => ((match t.frame with | some f => .ok f | none => .error .typeError), t)
  | some s =>
    match update fo t s with
    | (.ok (), t') => ((match t'.frame with | some f => .ok f | none => .error .typeError), t')
    | (.error e, t') => (.error e, t')

end Cantools.Tester
