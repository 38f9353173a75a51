import Verif.Model.Tester

/-
Independent specification of what a tester should do with its input.
-/

namespace Cantools.Spec
open Cantools Tester

/-- A received message is the expected one: it has the name, and all given signals with the given
values. -/
def Expected (name : String) (signals : List (String × Value)) (m : Decoded) : Prop :=
  m.name = name ∧ ∀ n v, (n, v) ∈ signals → ∃ g, dictGet? m.signals n = some g ∧ valueEq g v = true

/-- All given signals are in the messages of that name (as they are if the signals are not
multiplexed). -/
def HasSignals (name : String) (signals : List (String × Value)) (m : Decoded) : Prop :=
  m.name = name → ∀ n v, (n, v) ∈ signals → (dictGet? m.signals n).isSome = true

/-- The messages of a tester that were received and not yet used, in order. -/
def kept (i : Input) : List Decoded := i.list ++ i.queue

/-- The messages that arrive in some rounds. -/
def arrived (rs : List Round) : List Decoded := rs.flatMap (·.arrivals)

/-- The input of a tester together with everything received and everything returned so far. -/
structure History where
  input : Input := {}
  received : List Decoded := []
  returned : List Decoded := []
  /-- Something was flushed, or messages were to be discarded, or a call raised an exception. -/
  lossy : Bool := false

/-- The message a call returned, if any. -/
def _root_.Cantools.Tester.Outcome.result : Outcome → List Decoded
  | .found m => [m]
  | _ => []

/-- The call raised an exception. -/
def _root_.Cantools.Tester.Outcome.isRaised : Outcome → Bool
  | .raised _ => true
  | _ => false

/-- Everything that can happen to the input of a tester.  The rounds of a call of `expect` are those
that really took place: before the last of them the call was still waiting. -/
inductive Reached : History → Prop
  | start : Reached {}
  | receive {h : History} (m : Decoded) : Reached h →
      Reached { h with input := Tester.receive m h.input, received := h.received ++ [m] }
  | flush {h : History} (a : List Decoded) : Reached h →
      Reached { h with input := flushInput a h.input, received := h.received ++ a, lossy := true }
  | expect {h : History} {name : String} {signals : List (String × Value)} {discard timeout : Bool}
      {rs : List Round} {o : Outcome} {i' : Input} : Reached h →
      (∀ k, k < rs.length →
        (Tester.expect (matchesMsg name signals) discard timeout (rs.take k) h.input).1 = .waiting) →
      Tester.expect (matchesMsg name signals) discard timeout rs h.input = (o, i') →
      Reached { input := i', received := h.received ++ arrived rs,
                returned := h.returned ++ o.result,
                lossy := (h.lossy || discard) || o.isRaised }

end Cantools.Spec

namespace Cantools.Spec
open Cantools Tester

/-! ### Periodic sending -/

/-- The message of that name is being sent periodically by some task of the bus. -/
def Sending (s : PState) (n : String) : Prop := ∃ t, (t, n) ∈ s.active

/-- The call does not start a message that is already being sent. -/
def Careful (s : PState) : PCall → Prop
  | .start => ∀ m ∈ s.messages, m.periodic = true → m.enabled = true → m.fromDut = false →
      ¬ Sending s m.name
  | .enable n => ∀ m ∈ s.messages, m.name = n → m.periodic = true → s.running = true →
      ¬ Sending s n
  | _ => True

/-- A new tester. -/
def PFresh (s : PState) : Prop :=
  (s.messages.map (·.name)).Nodup ∧ (∀ m ∈ s.messages, m.enabled = true ∧ m.task = none) ∧
    s.running = false ∧ s.active = []

/-- The states of a tester that is used carefully. -/
inductive CarefullyUsed : PState → Prop
  | new {s : PState} : PFresh s → CarefullyUsed s
  | call {s : PState} (c : PCall) : CarefullyUsed s → Careful s c → CarefullyUsed (s.call c)

end Cantools.Spec

namespace Cantools.Spec
open Cantools Tester

/-! ### Setting signals -/

/-- What is done with a tester message. -/
inductive TCall where
  /-- `message[name] = value` -/
  | set (name : String) (v : Value)
  /-- `message.update(signals)` -/
  | update (signals : List (String × Value))
  /-- `message.send(signals)` -/
  | send (signals : Option (List (String × Value)))
  /-- `message.send_periodic_start()` -/
  | start
  /-- `message.send_periodic_stop()` -/
  | stop

/-- The message after a call. -/
def afterCall (fo : FloatOps) (t : TMessage) : TCall → TMessage
  | .set n v => (setItem fo t n v).2
  | .update s => (Tester.update fo t s).2
  | .send s => (Tester.send fo t s).2
  | .start => { t with periodicFrame := t.frame }
  | .stop => { t with periodicFrame := none }

/-- The call raised an exception. -/
def callFails (fo : FloatOps) (t : TMessage) : TCall → Bool
  | .set n v => !(setItem fo t n v).1.isOk
  | .update s => !(Tester.update fo t s).1.isOk
  | .send s => !(Tester.send fo t s).1.isOk
  | _ => false

/-- The frame is the encoding of the given signal values with the settings of the tester, and so is the
frame sent periodically. -/
def SendsEncodingOf (fo : FloatOps) (t : TMessage) (data : List (String × Value)) : Prop :=
  ∃ gathered f, gatherSignals t.database data = .ok gathered ∧
    encode fo t.database gathered t.scaling t.padding t.strict = .ok f ∧
    t.frame = some f ∧ (t.periodicFrame = none ∨ t.periodicFrame = some f)

/-- All messages of a tester: a new one was given its initial values, `data` are the values when the
last call succeeded that changed them, `failed` says whether any call failed. -/
inductive TReached (fo : FloatOps) : TMessage → List (String × Value) → Bool → Prop
  | new {t t' : TMessage} {initial : List (String × Value)} :
      t.data = [] → t.frame = none → t.periodicFrame = none →
      Tester.update fo t initial = (.ok (), t') → TReached fo t' t'.data false
  | call {t : TMessage} {data : List (String × Value)} {failed : Bool} (c : TCall) :
      TReached fo t data failed →
      TReached fo (afterCall fo t c)
        (if callFails fo t c then data else
          match c with
          | .set _ _ | .update _ | .send (some _) => (afterCall fo t c).data
          | _ => data)
        (failed || callFails fo t c)

end Cantools.Spec
