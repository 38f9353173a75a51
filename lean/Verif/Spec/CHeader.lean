import Verif.Model.CHeader
import Verif.Spec.Layout
import Verif.Spec.CConvert

/-!
The interface of the generated C code: which functions, structs and macros a header for a node has.
-/

namespace Cantools.Spec.CHeader
open C

/-- A name made of parts. -/
def nameOf (parts : List (List Char)) : List Char := List.intercalate ['_'] parts

/-- The header is for all nodes or for one that sends the message. -/
def Sends (node : Option String) (m : GenMessage) : Prop := ∀ n, node = some n → n ∈ m.senders

/-- The header is for all nodes or for one that receives the signal. -/
def Gets (node : Option String) (s : GenSignal) : Prop := ∀ n, node = some n → n ∈ s.receivers

/-- The header is for all nodes or for one that receives a signal of the message. -/
def Receives (node : Option String) (m : GenMessage) : Prop := node = none ∨ ∃ s ∈ m.signals, Gets node s

/-- The type of physical values. -/
def physicalType (o : Options) : Ty := .value (if o.useFloat then .float else .double)

/-- The functions of the interface. -/
inductive Function (o : Options) (ms : List GenMessage) : Proto → Prop
  | pack (m : GenMessage) (hm : m ∈ ms) (h : Sends o.node m) : Function o ms
      ⟨nameOf [o.database, m.snake, "pack".toList], .int,
        [.bytes false, .struct true (nameOf [o.database, m.snake, "t".toList]), .size]⟩
  | unpack (m : GenMessage) (hm : m ∈ ms) (h : Receives o.node m) : Function o ms
      ⟨nameOf [o.database, m.snake, "unpack".toList], .int,
        [.struct false (nameOf [o.database, m.snake, "t".toList]), .bytes true, .size]⟩
  | init (m : GenMessage) (hm : m ∈ ms) (h : Sends o.node m ∨ Receives o.node m) : Function o ms
      ⟨nameOf [o.database, m.snake, "init".toList], .int, [.struct false (nameOf [o.database, m.snake, "t".toList])]⟩
  | encode (m : GenMessage) (hm : m ∈ ms) (s : GenSignal) (hs : s ∈ m.signals) (hf : o.floatingPoint = true)
      (h : Sends o.node m) : Function o ms
      ⟨nameOf [o.database, m.snake, s.snake, "encode".toList], .value (typeName s.signal), [physicalType o]⟩
  | decode (m : GenMessage) (hm : m ∈ ms) (s : GenSignal) (hs : s ∈ m.signals) (hf : o.floatingPoint = true)
      (h : Gets o.node s) : Function o ms
      ⟨nameOf [o.database, m.snake, s.snake, "decode".toList], physicalType o, [.value (typeName s.signal)]⟩
  | inRange (m : GenMessage) (hm : m ∈ ms) (s : GenSignal) (hs : s ∈ m.signals)
      (h : Sends o.node m ∨ Gets o.node s) : Function o ms
      ⟨nameOf [o.database, m.snake, s.snake, "is_in_range".toList], .bool, [.value (typeName s.signal)]⟩
  | inPhysRange (m : GenMessage) (hm : m ∈ ms) (s : GenSignal) (hs : s ∈ m.signals)
      (h : Sends o.node m ∨ Gets o.node s) : Function o ms
      ⟨nameOf [o.database, m.snake, s.snake, "is_in_phys_range".toList], .bool, [physicalType o]⟩

/-- The macros; `up` is the name in capitals. -/
inductive Macro (o : Options) (ms : List GenMessage) (up : List Char → List Char) : List Char × MacroValue → Prop
  | frameId (m : GenMessage) (hm : m ∈ ms) (h : Sends o.node m ∨ Receives o.node m) :
      Macro o ms up (nameOf [up o.database, up m.snake, "FRAME_ID".toList], .hex m.frameId)
  | length (m : GenMessage) (hm : m ∈ ms) (h : Sends o.node m ∨ Receives o.node m) :
      Macro o ms up (nameOf [up o.database, up m.snake, "LENGTH".toList], .unsigned m.length)
  | extended (m : GenMessage) (hm : m ∈ ms) (h : Sends o.node m ∨ Receives o.node m) :
      Macro o ms up (nameOf [up o.database, up m.snake, "IS_EXTENDED".toList], .plain (if m.isExtended then 1 else 0))
  | cycleTime (m : GenMessage) (hm : m ∈ ms) (h : Sends o.node m ∨ Receives o.node m) (t : Nat) (ht : m.cycleTime = some t) :
      Macro o ms up (nameOf [up o.database, up m.snake, "CYCLE_TIME_MS".toList], .unsigned t)
  | name (m : GenMessage) (hm : m ∈ ms) (h : Sends o.node m ∨ Receives o.node m) :
      Macro o ms up (nameOf [up o.database, up m.snake, "NAME".toList], .string m.name)
  | signalName (m : GenMessage) (hm : m ∈ ms) (h : Sends o.node m ∨ Receives o.node m) (s : GenSignal) (hs : s ∈ m.signals) :
      Macro o ms up (nameOf [up o.database, up m.snake, up s.snake, "NAME".toList], .string s.signal.name)
  | choice (m : GenMessage) (hm : m ∈ ms) (s : GenSignal) (hs : s ∈ m.signals) (h : Sends o.node m ∨ Gets o.node s)
      (cs : Choices) (hc : s.signal.conversion.choices = some cs) (v : Int) (c : List Char) (hv : (v, c) ∈ uniqueChoices cs) :
      Macro o ms up (nameOf [up o.database, up m.snake, up s.snake, c, "CHOICE".toList],
        if s.signal.isSigned then .plain v else .unsigned v)

/-- Two names are equal or one of them continues the other after an underscore. -/
def Overlap (a b : List Char) : Prop := a = b ∨ a ++ ['_'] <+: b ∨ b ++ ['_'] <+: a

/-- Names of messages that do not overlap. -/
def MessagesApart (ms : List GenMessage) : Prop := ms.Pairwise fun a b => ¬ Overlap a.snake b.snake

/-- Names of signals that are distinct in each message. -/
def SignalsDistinct (ms : List GenMessage) : Prop := ∀ m ∈ ms, (m.signals.map (·.snake)).Nodup

/-- Names of signals that do not overlap. -/
def SignalsApart (ms : List GenMessage) : Prop := ∀ m ∈ ms, m.signals.Pairwise fun a b => ¬ Overlap a.snake b.snake

/-- The value a member has after `…_init`: the initial value, or zero if there is none. -/
def initialMember (s : GenSignal) : Rat := s.rawInitial.getD 0

/-- A raw value the signal can have. -/
def Storable (s : GenSignal) (r : Rat) : Prop :=
  if s.signal.conversion.isFloat then CConvert.IsNumber (CConvert.format (decide (s.signal.length = 32))) r
  else s.signal.length ≤ 64 ∧ ∃ i : Int, r = i ∧ InRange s.signal i

/-- A message has a struct if the header is for all nodes or for one that sends or receives it. -/
def HasStruct (o : Options) (m : GenMessage) : Prop := Sends o.node m ∨ Receives o.node m

/-- The members of a struct: one for each signal, in the order of the message, or one that is not used. -/
def MembersOf (bitFields : Bool) (m : GenMessage) (members : List Member) : Prop :=
  (m.signals = [] ∧ members = [⟨.uint 8, "dummy".toList, none⟩]) ∨
    (m.signals ≠ [] ∧ List.Forall₂ (fun s x => x.type = typeName s.signal ∧ x.name = s.snake ∧
      (x.bits = some s.signal.length ∨ x.bits = none) ∧
      (x.bits = none ↔ bitFields = false ∨ s.signal.conversion.isFloat = true)) m.signals members)

end Cantools.Spec.CHeader
