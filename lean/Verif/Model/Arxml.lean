import Verif.Model.Message

/-
database/can/formats/arxml/system_loader.py: the signals of a frame, from its PDUs.  The PDU is given after
references have been followed (lines 2182-2304) and the elements of its signals have been read (lines 1441-1530):
it is a tree.  Containers are not part of the tree: their contained PDUs become messages of their own.
-/

namespace Cantools.Arxml
open Cantools

mutual
/-- A PDU: its own signals; for a multiplexed PDU also position, length and byte order of the selector field, the
alternatives of the dynamic part and the static parts. -/
inductive Pdu where
  | plain (signals : List Signal)
  | secured (payload : Pdu)
  | multiplexed (signals : List Signal) (pos len : Nat) (order : ByteOrder) (alts : Alts) (statics : Pdus)
/-- Alternatives of a dynamic part: selector code, whether it is the initial one, PDU. -/
inductive Alts where
  | nil
  | cons (code : Int) (initial : Bool) (pdu : Pdu) (rest : Alts)
inductive Pdus where
  | nil
  | cons (pdu : Pdu) (rest : Pdus)
end

/-- system_loader.py:1139-1146: the selector, with the choices of lines 1247-1253. -/
def selectorSignal (frame : String) (idx pos len : Nat) (order : ByteOrder) (choices : Choices) : Signal :=
  { name := frame ++ "_selector" ++ toString idx, start := pos, length := len, byteOrder := order, isMultiplexer := true
    conversion := if choices.isEmpty then .base (.identity false) else .factory 1 0 (some choices) false }

/-- system_loader.py:1234-1239: a signal that is not yet below a selector gets this one. -/
def claim (selector : String) (code : Int) (s : Signal) : Signal :=
  if s.multiplexerSignal = none then { s with multiplexerSignal := some selector, multiplexerIds := some [code] } else s

/-- What the loop over the alternatives maintains: next index, initial value and choices of the selector, signals. -/
structure AltState where
  idx : Nat
  initial : Option Int
  choices : Choices
  signals : List Signal

/-- system_loader.py:1201-1241: the rest of the loop body, once the PDU of the alternative has been loaded. -/
def addAlternative (selector : String) (pos len : Nat) (code : Int) (initial : Bool) (st : AltState)
    (loaded : Nat × List Signal) : Except Err AltState := do
  let init ← if initial then (if st.initial.isSome then .error .assertionError else .ok (some code)) else .ok st.initial
  match loaded.2.filter fun s => s.start == pos with
  | [sel] =>
    if sel.length ≠ len then .error .assertionError
    else .ok { idx := loaded.1, initial := init
               choices := match sel.conversion.choices with
                 | some c => dictUpdate st.choices c
                 | none => st.choices
               signals := st.signals ++ ((loaded.2.filter fun s => s.start != pos).map (claim selector code)) }
  | _ => .error .assertionError

mutual
/-- system_loader.py:921-1115 `_load_pdu`, without containers: the next index for selectors and the signals; 1117-1298
`_load_multiplexed_pdu`.  The index that is returned for a multiplexed PDU is the one that was given (lines 1103-1115). -/
def loadPdu (frame : String) : Pdu → Nat → Except Err (Nat × List Signal)
  | .plain signals, idx => .ok (idx, signals)
  | .secured payload, idx => loadPdu frame payload idx
  | .multiplexed signals pos len order alts statics, idx => do
    let name := (selectorSignal frame idx pos len order []).name
    let st ← loadAlts frame name pos len alts { idx := idx + 1, initial := none, choices := [], signals := [] }
    let static ← loadStatics frame statics st.idx []
    return (idx, signals ++ selectorSignal frame idx pos len order st.choices :: (st.signals ++ static))

/-- system_loader.py:1170-1245: the loop over the alternatives. -/
def loadAlts (frame selector : String) (pos len : Nat) : Alts → AltState → Except Err AltState
  | .nil, st => .ok st
  | .cons code initial pdu rest, st => do
    let loaded ← loadPdu frame pdu st.idx
    let st' ← addAlternative selector pos len code initial st loaded
    loadAlts frame selector pos len rest st'

/-- system_loader.py:1274-1296: the loop over the static parts. -/
def loadStatics (frame : String) : Pdus → Nat → List Signal → Except Err (List Signal)
  | .nil, _, acc => .ok acc
  | .cons pdu rest, idx, acc => do
    let (idx', sigs) ← loadPdu frame pdu idx
    loadStatics frame rest idx' (acc ++ sigs)
end

/-- What is needed of a secured PDU for its signals: the length of the payload in bytes and how many bits of freshness
value and authenticator are transmitted. -/
structure Trailer where
  payloadLength : Nat
  freshnessTx : Option Nat
  authTx : Option Nat
  deriving DecidableEq, Repr

/-- system_loader.py:873-884: the signal for the truncated freshness value. -/
def freshnessSignal (name : String) (t : Trailer) : List Signal :=
  match t.freshnessTx with
  | none => []
  | some n =>
    if 0 < n then
      [{ name := name ++ "_Freshness", start := t.payloadLength * 8 + 7, length := n, byteOrder := .big
         conversion := .base (.identity false) }]
    else []

/-- system_loader.py:885-896: the signal for the truncated authenticator.  Without the size of the freshness value there
is a `TypeError`. -/
def authSignal (name : String) (t : Trailer) : Except Err (List Signal) :=
  match t.authTx with
  | none => .ok []
  | some n =>
    if 0 < n then
      match t.freshnessTx with
      | none => .error .typeError
      | some f =>
        .ok [{ name := name ++ "_Authenticator", start := t.payloadLength * 8 + (f / 8) * 8 + (7 - f % 8), length := n
               byteOrder := .big, conversion := .base (.identity false) }]
    else .ok []

/-- system_loader.py:871-896: the signals that `_load_secured_properties` adds. -/
def trailerSignals (name : String) : Option Trailer → Except Err (List Signal)
  | none => .ok []
  | some t => do
    let auth ← authSignal name t
    return freshnessSignal name t ++ auth

/-- system_loader.py:776-800, and 981-1013 for a message in a container: the signals of a message.  The signals of the
trailer have the name of the message, selectors that of the frame. -/
def loadFrameSignals (frame name : String) (pdu : Pdu) (trailer : Option Trailer) : Except Err (List Signal) := do
  let (_, signals) ← loadPdu frame pdu 1
  let extra ← trailerSignals name trailer
  return signals ++ extra

end Cantools.Arxml
