import Verif.Model.Message
import Verif.Spec.ArxmlRef
import Verif.Spec.Cdd

/-!
ECU extracts in ARXML files: what a document says about the messages of an ECU.

The module `Com` has a container for every PDU and for every signal; a container has parameters and
references, which are told apart by the last name of their definitions.  The module `CanIf` has a
container for every PDU that is sent or received, with the identifier and the length of its frame.
-/

namespace Cantools.Spec.Extract

open Kcd (Xml)

/-- The element has the name `n`. -/
def Named (x : Xml) (n : String) : Prop := ∃ k ∈ kids x "SHORT-NAME", k.text.getD "" = n

instance (x : Xml) (n : String) : Decidable (Named x n) := by unfold Named; infer_instance

/-- The name of the element is `n`. -/
def NameIs (x : Xml) (n : String) : Prop := ∃ k, kids x "SHORT-NAME" = [k] ∧ k.text = some n

/-- `y` is below `x` on a way of tags, with names if they are given, and there is only one such way. -/
inductive Way : Xml → List (String × Option String) → Xml → Prop
  | here {x} : Way x [] x
  | tag {x t c r y} (h : kids x t = [c]) (hr : Way c r y) : Way x ((t, none) :: r) y
  | name {x t n c r y} (h : (kids x t).filter (Named · n) = [c]) (hr : Way c r y) : Way x ((t, some n) :: r) y

/-- The way to a package. -/
def packageSteps (ps : List String) : List (String × Option String) :=
  ps.flatMap fun p => [("AR-PACKAGES", none), ("AR-PACKAGE", some p)]

/-- The way to the containers of a module. -/
def moduleSteps (ps : List String) (m config : String) : List (String × Option String) :=
  packageSteps ps ++ [("ELEMENTS", none), ("ECUC-MODULE-CONFIGURATION-VALUES", some m), ("CONTAINERS", none),
    ("ECUC-CONTAINER-VALUE", some config), ("SUB-CONTAINERS", none)]

/-- The last name of the path `t` is `n`. -/
def EndsIn (t n : String) : Prop := '/' ∉ n.toList ∧ ∃ p : Chars, t.toList = p ++ '/' :: n.toList

/-- The definition of the element is `n`. -/
def Defined (x : Xml) (n : String) : Prop :=
  ∃ d t, kids x "DEFINITION-REF" = [d] ∧ d.text = some t ∧ EndsIn t n

/-- No other definition ends in one of these names. -/
def Distinct (names defs : List String) : Prop := ∀ n ∈ names, ∀ d ∈ defs, n.toList <:+ d.toList → d = n

/-- A parameter (with the tag `VALUE`) or a reference (with the tag `VALUE-REF`): its definition and its
value. -/
def EntrySays (tag : String) (x : Xml) (e : String × String) : Prop :=
  Defined x e.1 ∧ ∃ k, kids x tag = [k] ∧ k.text = some e.2

/-- The parameters of a container. -/
def Parameters (x : Xml) (l : List (String × String)) : Prop :=
  ∃ w, kids x "PARAMETER-VALUES" = [w] ∧ List.Forall₂ (EntrySays "VALUE") w.children l

/-- The references of a container. -/
def References (x : Xml) (l : List (String × String)) : Prop :=
  ∃ w, kids x "REFERENCE-VALUES" = [w] ∧ (∀ c ∈ w.children, c.tag = "ECUC-REFERENCE-VALUE") ∧
    List.Forall₂ (EntrySays "VALUE-REF") w.children l

/-- There is one entry with this name, and this is its value. -/
def ValueOf (l : List (String × String)) (name v : String) : Prop :=
  (l.filter fun e => e.1 = name) = [(name, v)]

/-- A signal. -/
structure SignalContent where
  name : String
  start : Nat
  length : Nat
  big : Bool
  type : String
  deriving DecidableEq

def SignalContent.signed (s : SignalContent) : Bool := s.type ∈ ["SINT8", "SINT16", "SINT32", "SINT64"]

def SignalContent.float (s : SignalContent) : Bool := s.type ∈ ["FLOAT32", "FLOAT64"]

/-- The signal as part of a message: the number in its bits is not scaled. -/
def fieldOf (s : SignalContent) : Signal :=
  { name := s.name, start := s.start, length := s.length, byteOrder := if s.big then .big else .little
    isSigned := s.signed, conversion := .base (.identity s.float) }

/-- The container of a signal says `s`. -/
def SignalSays (x : Xml) (s : SignalContent) : Prop :=
  NameIs x s.name ∧ ∃ l pos size, Parameters x l ∧
    ValueOf l "ComBitPosition" pos ∧ DecimalText pos s.start ∧
    ValueOf l "ComBitSize" size ∧ DecimalText size s.length ∧
    ValueOf l "ComSignalEndianness" (if s.big then "BIG_ENDIAN" else "LITTLE_ENDIAN") ∧
    ValueOf l "ComSignalType" s.type ∧
    s.type ∈ ["BOOLEAN", "UINT8", "UINT16", "UINT32", "UINT64", "SINT8", "SINT16", "SINT32", "SINT64", "FLOAT32",
      "FLOAT64"]

/-- A container of the module `Com` in package `ps` to which a reference leads. -/
def ContainerAt (root : Xml) (ps : List String) (ref n : String) (c : Xml) : Prop :=
  (∀ p ∈ n :: ps, '/' ∉ p.toList) ∧ ref.toList = pathText (ps ++ ["Com", "ComConfig", n]) ∧
    Way root (moduleSteps ps "Com" "ComConfig" ++ [("ECUC-CONTAINER-VALUE", some n)]) c

/-- The signal to which a reference leads. -/
def SignalAt (root : Xml) (ps : List String) (ref : String) (s : SignalContent) : Prop :=
  ∃ c, ContainerAt root ps ref s.name c ∧ SignalSays c s

/-- The signals of the group to which a reference leads. -/
def GroupAt (root : Xml) (ps : List String) (ref : String) (l : List SignalContent) : Prop :=
  ∃ n c w, ContainerAt root ps ref n c ∧ kids c "SUB-CONTAINERS" = [w] ∧ List.Forall₂ SignalSays w.children l

/-- A message.  `pdu` is the path of the PDU that `Com` and `CanIf` share. -/
structure MessageContent where
  name : String
  frameId : Nat
  idType : String
  length : Nat
  pdu : List String
  signals : List SignalContent
  groups : List (List SignalContent)
  deriving DecidableEq

/-- The identifier has 29 bits. -/
def MessageContent.extended (m : MessageContent) : Bool :=
  m.idType ∈ ["EXTENDED_CAN", "EXTENDED_FD_CAN", "EXTENDED_NO_FD_CAN"]

/-- All signals of a message. -/
def MessageContent.all (m : MessageContent) : List SignalContent := m.signals ++ m.groups.flatten

/-- The container is the configuration (`pre` is `CanIfTxPdu` or `CanIfRxPdu`) of the PDU. -/
def Configures (pre : String) (x : Xml) (ref : String) : Prop :=
  Defined x (pre ++ "Cfg") ∧ ∃ l, References x l ∧ (pre ++ "Ref", ref) ∈ l

/-- What `CanIf` in package `qs` says about the identifier and the length of a message. -/
def HeaderSays (root : Xml) (qs : List String) (pre ref : String) (m : MessageContent) : Prop :=
  ∃ sub defs x l id len, Way root (moduleSteps qs "CanIf" "CanIfInitCfg") sub ∧
    List.Forall₂ Defined (kids sub "ECUC-CONTAINER-VALUE") defs ∧
    Distinct ["CanIfTxPduCfg", "CanIfRxPduCfg"] defs ∧
    (∀ c ∈ kids sub "ECUC-CONTAINER-VALUE", Defined c "CanIfTxPduCfg" ∨ Defined c "CanIfRxPduCfg" →
      ∃ l, References c l) ∧
    x ∈ kids sub "ECUC-CONTAINER-VALUE" ∧ Configures pre x ref ∧
    (∀ c ∈ kids sub "ECUC-CONTAINER-VALUE", Configures "CanIfTxPdu" c ref ∨ Configures "CanIfRxPdu" c ref → c = x) ∧
    Parameters x l ∧
    ValueOf l (pre ++ "CanId") id ∧ DecimalText id m.frameId ∧
    ValueOf l (pre ++ "Dlc") len ∧ DecimalText len m.length ∧
    ValueOf l (pre ++ "CanIdType") m.idType ∧
    m.idType ∈ ["STANDARD_CAN", "EXTENDED_CAN", "STANDARD_FD_CAN", "EXTENDED_FD_CAN", "STANDARD_NO_FD_CAN",
      "EXTENDED_NO_FD_CAN"]

/-- The configuration of a PDU that is sent, or received. -/
inductive Direction : String → String → Prop
  | send : Direction "SEND" "CanIfTxPdu"
  | receive : Direction "RECEIVE" "CanIfRxPdu"

/-- The container of a PDU says `m`. -/
def PduSays (root : Xml) (ps qs : List String) (x : Xml) (m : MessageContent) : Prop :=
  NameIs x m.name ∧ (∀ p ∈ m.pdu, '/' ∉ p.toList) ∧
    ∃ l rs dir pre ref, Parameters x l ∧ ValueOf l "ComIPduDirection" dir ∧ Direction dir pre ∧
      References x rs ∧ ValueOf rs "ComPduIdRef" ref ∧ ref.toList = pathText m.pdu ∧
      HeaderSays root qs pre ref m ∧
      Distinct ["ComIPduSignalRef"] (rs.map (·.1)) ∧
      List.Forall₂ (SignalAt root ps) ((rs.filter fun e => e.1 = "ComIPduSignalRef").map (·.2)) m.signals ∧
      List.Forall₂ (GroupAt root ps) ((rs.filter fun e => e.1 = "ComIPduSignalGroupRef").map (·.2)) m.groups

/-- All collections of values of a document. -/
def collectionsOf (root : Xml) : List Xml :=
  (((kids root "AR-PACKAGES").flatMap (kids · "AR-PACKAGE")).flatMap (kids · "ELEMENTS")).flatMap
    (kids · "ECUC-VALUE-COLLECTION")

/-- The references to modules of a collection. -/
def modulesOf (c : Xml) : List Xml :=
  ((kids c "ECUC-VALUES").flatMap (kids · "ECUC-MODULE-CONFIGURATION-VALUES-REF-CONDITIONAL")).flatMap
    (kids · "ECUC-MODULE-CONFIGURATION-VALUES-REF")

/-- The document has the module `Com` in package `ps` and the module `CanIf` in package `qs`, and the
messages of the ECU are `ms`. -/
def Describes (root : Xml) (ps qs : List String) (ms : List MessageContent) : Prop :=
  (∀ p ∈ ps, '/' ∉ p.toList) ∧
  ∃ coll refs com sub defs, collectionsOf root = [coll] ∧
    List.Forall₂ (fun x t => x.text = some t) (modulesOf coll) refs ∧
    (refs.filter fun t => "/Com".toList <:+ t.toList) = [com] ∧ com.toList = pathText (ps ++ ["Com"]) ∧
    Way root (moduleSteps ps "Com" "ComConfig") sub ∧
    List.Forall₂ Defined sub.children defs ∧ Distinct ["ComIPdu"] defs ∧
    List.Forall₂ (PduSays root ps qs) (((sub.children.zip defs).filter fun e => e.2 = "ComIPdu").map (·.1)) ms

/-- What the loader understands: the PDU is in the package of `CanIf`, no CAN FD frames with
identifiers of 29 bits, no signal groups, no signed numbers of 64 bits. -/
def Understood (q : String) (m : MessageContent) : Prop :=
  m.pdu.head? = some q ∧ m.idType ∉ ["EXTENDED_FD_CAN", "EXTENDED_NO_FD_CAN"] ∧ m.groups = [] ∧
    ∀ s ∈ m.signals, s.type ≠ "SINT64"

end Cantools.Spec.Extract
