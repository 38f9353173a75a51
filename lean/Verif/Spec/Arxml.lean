import Verif.Model.Arxml
import Verif.Spec.Codec

/-
What the signals of a multiplexed PDU are (C50).
-/

namespace Cantools.Spec
open Cantools Arxml

/-- The selector field of a multiplexed PDU: an unsigned number in the frame. -/
def selectorField (pos len : Nat) (order : ByteOrder) : Signal := { name := "", start := pos, length := len, byteOrder := order }

/-- The selector of a multiplexed PDU as a signal, with names of its values. -/
def selectorAt (frame : String) (depth pos len : Nat) (order : ByteOrder) (names : Choices) : Signal :=
  { name := frame ++ "_selector" ++ toString depth, start := pos, length := len, byteOrder := order, isMultiplexer := true
    conversion := .factory 1 0 (if names = [] then none else some names) false }

mutual
/-- The signals of a PDU in a frame for which `chosen` tells which alternatives its selector fields choose: the signals
of the PDU itself, the selector, the signals of the static parts, and the signals of the chosen alternatives without
their copy of the selector field.  Selectors are numbered by depth. -/
def signalsIn (frame : String) : (chosen : Signal → Int → Bool) → Pdu → (depth : Nat) → List Signal
  | _, .plain signals, _ => signals
  | chosen, .secured payload, depth => signalsIn frame chosen payload depth
  | chosen, .multiplexed signals pos len order alts statics, depth =>
    signals ++ selectorAt frame depth pos len order (selectorNames frame pos alts (depth + 1) []) ::
      (alternativeSignals frame chosen (selectorField pos len order) alts (depth + 1) ++
        staticSignals frame chosen statics (depth + 1))
/-- The signals of the chosen alternatives. -/
def alternativeSignals (frame : String) : (chosen : Signal → Int → Bool) → (field : Signal) → Alts → (depth : Nat) → List Signal
  | _, _, .nil, _ => []
  | chosen, field, .cons code _ pdu rest, depth =>
    (if chosen field code then (signalsIn frame chosen pdu depth).filter (fun s => s.start != field.start) else []) ++
      alternativeSignals frame chosen field rest depth
/-- The signals of the static parts. -/
def staticSignals (frame : String) : (chosen : Signal → Int → Bool) → Pdus → (depth : Nat) → List Signal
  | _, .nil, _ => []
  | chosen, .cons pdu rest, depth => signalsIn frame chosen pdu depth ++ staticSignals frame chosen rest depth
/-- The names of the values of a selector: what the alternatives call them, later ones override earlier ones. -/
def selectorNames (frame : String) (pos : Nat) : Alts → (depth : Nat) → Choices → Choices
  | .nil, _, names => names
  | .cons _ _ pdu rest, depth, names =>
    selectorNames frame pos rest depth
      (((signalsIn frame (fun _ _ => true) pdu depth).filter fun s => s.start == pos).foldl
        (fun l s => dictUpdate l (table s)) names)
end

/-- An unsigned number in `len` consecutive bits of a frame, from bit `first` on.  Bits are counted as they are sent: byte
by byte, the most significant bit of a byte first. -/
def wireField (name : String) (first len : Nat) : Signal :=
  { name := name, start := 8 * (first / 8) + (7 - first % 8), length := len, byteOrder := .big }

/-- After the payload of a secured frame follow the transmitted bits of the freshness value and of the authenticator. -/
def trailerIn (frame : String) : Option Trailer → List Signal
  | none => []
  | some t =>
    [wireField (frame ++ "_Freshness") (8 * t.payloadLength) (t.freshnessTx.getD 0),
     wireField (frame ++ "_Authenticator") (8 * t.payloadLength + t.freshnessTx.getD 0) (t.authTx.getD 0)].filter
      fun s => 0 < s.length

/-- The signals of a message with a PDU in a frame, and the trailer if it is secured. -/
def frameSignalsIn (frame name : String) (chosen : Signal → Int → Bool) (pdu : Pdu) (t : Option Trailer) : List Signal :=
  signalsIn frame chosen pdu 1 ++ trailerIn name t

/-- A signal that is not multiplexed and has a conversion as the constructors make it. -/
def PlainSignal (s : Signal) : Prop :=
  s.isMultiplexer = false ∧ s.multiplexerSignal = none ∧ s.multiplexerIds = none ∧ Built s.conversion ∧
    (s.conversion.isFloat = true → s.conversion.choices = none)

mutual
/-- The signals of a PDU as they are read from their elements: none of them is multiplexed, and the copies of a selector
field in the alternatives are not selectors themselves. -/
def CleanPdu (frame : String) : Pdu → (depth : Nat) → Prop
  | .plain signals, _ => ∀ s ∈ signals, PlainSignal s
  | .secured payload, depth => CleanPdu frame payload depth
  | .multiplexed signals pos _ _ alts statics, depth =>
    (∀ s ∈ signals, PlainSignal s) ∧ CleanAlts frame pos alts (depth + 1) ∧ CleanPdus frame statics (depth + 1)
def CleanAlts (frame : String) (pos : Nat) : Alts → (depth : Nat) → Prop
  | .nil, _ => True
  | .cons _ _ pdu rest, depth => CleanPdu frame pdu depth ∧
    (∀ s ∈ signalsIn frame (fun _ _ => true) pdu depth, s.start = pos → s.isMultiplexer = false) ∧
    CleanAlts frame pos rest depth
def CleanPdus (frame : String) : Pdus → (depth : Nat) → Prop
  | .nil, _ => True
  | .cons pdu rest, depth => CleanPdu frame pdu depth ∧ CleanPdus frame rest depth
end

end Cantools.Spec
