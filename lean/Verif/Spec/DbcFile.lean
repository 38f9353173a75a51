import Verif.Spec.Dbc
import Verif.Spec.DbcNumber
import Mathlib.Data.List.Forall2

/-
Specification of what a DBC file must preserve of a whole database, and of the databases for which it
does so.
-/

namespace Cantools.Spec
open Cantools Cantools.Dbc

variable {F : Type}

/-! ### What can be written -/

/-- Text that may stand between quotation marks as it is. -/
def PlainText (t : Chars) : Prop := '"' ∉ t ∧ t.getLast? ≠ some '\\'

/-- Text that may stand between quotation marks when its own quotation marks are escaped. -/
def CommentText (t : Chars) : Prop := t.getLast? ≠ some '\\'

/-- The value of an attribute has the type of its definition. -/
def OfType (d : AttrDef F) : AttrVal F → Prop
  | .num (.int _) => d.typeName = some "INT" ∨ d.typeName = some "HEX" ∨ d.typeName = some "ENUM"
  | .num (.float _) => d.typeName = some "FLOAT"
  | .str s => d.typeName = some "STRING" ∧ PlainText s

/-- A definition of an attribute: its default has its type (the default of an enumeration is a name), and
it has both limits or none. -/
structure WritableDef (d : AttrDef F) : Prop where
  name : PlainText d.name
  kind : d.kind = none ∨ d.kind = some "BU_" ∨ d.kind = some "BO_" ∨ d.kind = some "SG_" ∨ d.kind = some "EV_"
  type : d.typeName = some "INT" ∨ d.typeName = some "HEX" ∨ d.typeName = some "FLOAT" ∨
    d.typeName = some "STRING" ∨ d.typeName = some "ENUM"
  default : ∀ v, d.default = some v → match v with
    | .num (.int _) => d.typeName = some "INT" ∨ d.typeName = some "HEX"
    | .num (.float _) => d.typeName = some "FLOAT"
    | .str s => (d.typeName = some "STRING" ∨ d.typeName = some "ENUM") ∧ PlainText s
  limits : (d.minimum = none ∧ d.maximum = none) ∨
    (∃ a b, d.minimum = some (.int a) ∧ d.maximum = some (.int b) ∧
      (d.typeName = some "INT" ∨ d.typeName = some "HEX")) ∨
    (∃ a b, d.minimum = some (.float a) ∧ d.maximum = some (.float b) ∧ d.typeName = some "FLOAT")
  choices : ∀ c ∈ d.choices, PlainText c
  enum : d.choices ≠ [] → d.typeName = some "ENUM"

/-- The attributes of an object of a kind: each has a definition for this kind and a value of its type. -/
structure WritableAttrs (defs : Defs F) (kind : Option String) (attributes : Attrs F) : Prop where
  nodup : (attributes.map (·.1)).Nodup
  defined : ∀ e ∈ attributes, dictGet? defs e.1 = some e.2.definition ∧ e.2.definition.kind = kind
  typed : ∀ e ∈ attributes, OfType e.2.definition e.2.value

/-- The definition of an attribute that is written from a property of the object, if the database has one. -/
def DefinedAs (defs : Defs F) (name : Chars) (kind : Option String) (types : List String) : Prop :=
  ∀ d, dictGet? defs name = some d → d.kind = kind ∧ ∃ t ∈ types, d.typeName = some t

/-- An integer a floating point number can hold exactly. -/
def SmallInt (i : Int) : Prop := i.natAbs ≤ 2 ^ 53

/-- The SPN of a signal is its attribute `SPN`, an integer; without the attribute it is the default of the
attribute's definition, if there is one. -/
def SpnOf (defs : Defs F) (attributes : Attrs F) (spn : Option (AttrVal F)) : Prop :=
  match dictGet? attributes "SPN".toList with
  | some a => ∃ i : Int, a.value = .num (.int i) ∧ spn = some (.num (.int i))
  | none => spn = (dictGet? defs "SPN".toList).bind (·.default)

/-- The send type of a message is what its attribute `GenMsgSendType` says: a choice of the definition if it
has choices, a text if it has none; without the attribute it is the default of the definition. -/
def SendTypeOf (defs : Defs F) (attributes : Attrs F) (sendType : Option Chars) : Prop :=
  match dictGet? defs "GenMsgSendType".toList with
  | none => sendType = none
  | some d =>
    match dictGet? attributes "GenMsgSendType".toList with
    | some a => (∃ (i : Nat) (t : Chars), a.value = .num (.int i) ∧ d.choices[i]? = some t ∧ sendType = some t) ∨
        (d.choices = [] ∧ ∃ t, a.value = .str t ∧ sendType = some t)
    | none => (d.default = none ∧ sendType = none) ∨ ∃ t, d.default = some (.str t) ∧ sendType = some t

structure WritableSignal (db : DDatabase F) (s : DSignal F) : Prop where
  name : Name s.name
  float : s.isFloat = true → s.length = 32 ∨ s.length = 64
  limits : s.minimum = none ↔ s.maximum = none
  noZeros : ¬ (s.minimum = some (.int 0) ∧ s.maximum = some (.int 0))
  unit : ∀ u, s.unit = some u → u ≠ [] ∧ PlainText u
  receivers : ∀ r ∈ s.receivers, Name r
  noVector : s.receivers ≠ [vectorXXX]
  comment : ∀ c, s.comment = some c → CommentText c
  choices : ∀ cs, s.choices = some cs → cs ≠ [] ∧ (cs.map (·.1)).Nodup ∧ ∀ c ∈ cs, PlainText c.2
  ids : ∀ ids, s.multiplexerIds = some ids → ∀ i ∈ ids, 0 ≤ i
  parent : ∀ n, s.multiplexerSignal = some n → Name n
  initial : ∀ n, s.rawInitial = some n → ∀ d, dictGet? db.definitions genSigStartValue = some d →
    d.typeName = some "FLOAT" ∨ ∃ i, n = .int i ∧ SmallInt i
  attributes : WritableAttrs db.definitions (some "SG_") s.attributes
  spn : SpnOf db.definitions s.attributes s.spn

/-- The frame format is one that the attribute `VFrameFormat` can express, with a definition of the
database or, for CAN FD buses, with the standard one; an attribute the message has already does not
contradict it. -/
def WritableFormat (db : DDatabase F) (m : DMessage F) : Prop :=
  (m.protocol = none ∨ (m.protocol = some "j1939".toList ∧ m.isFd = false)) ∧
  match (if busIsCanFd db then some ((dictGet? db.definitions vFrameFormat).getD vFrameFormatDef)
      else dictGet? db.definitions vFrameFormat) with
  | none => m.protocol = none ∧ m.isFd = false
  | some d => frameFormat m ∈ d.choices ∧ ∃ t, d.default = some (.str t) ∧
      (frameFormat m = t → ∀ a, dictGet? m.attributes vFrameFormat = some a →
        ∃ i : Nat, a.value = .num (.int i) ∧ d.choices[i]? = some (frameFormat m))

/-- The cycle time is not 0, and its attribute can hold it. -/
def WritableCycleTime (T : FloatText F) (db : DDatabase F) (m : DMessage F) : Prop :=
  ∀ n, m.cycleTime = some n → n.value T ≠ 0 ∧
    ((∃ i, n = .int i ∧ SmallInt i) ∨ ((∃ f, n = .float f) ∧
      ∃ d, dictGet? db.definitions genMsgCycleTime = some d ∧ d.typeName = some "FLOAT"))

structure WritableMessage (T : FloatText F) (db : DDatabase F) (m : DMessage F) : Prop where
  id : ValidFrameId m.frameId m.isExtendedFrame
  name : Name m.name
  kept : m.name ≠ "VECTOR__INDEPENDENT_SIG_MSG".toList
  senders : ∀ s ∈ m.senders, Name s ∧ s ≠ vectorXXX
  distinct : m.senders.Nodup
  comment : ∀ c, m.comment = some c → CommentText c
  muxed : WellMuxed (m.signals.map (·.core T))
  signals : ∀ s ∈ m.signals, WritableSignal db s
  groups : ∀ gs, m.signalGroups = some gs → gs ≠ [] ∧ ∀ g ∈ gs, Name g.name ∧
    ∀ n ∈ g.signalNames, n ∈ m.signals.map (·.name)
  attributes : WritableAttrs db.definitions (some "BO_") m.attributes
  sendType : SendTypeOf db.definitions m.attributes m.sendType
  cycleTime : WritableCycleTime T db m
  format : WritableFormat db m
  bus : m.busName = db.buses.head?.map (·.name)

structure WritableNode (db : DDatabase F) (n : DNode F) : Prop where
  name : Name n.name
  comment : ∀ c, n.comment = some c → CommentText c
  attributes : WritableAttrs db.definitions (some "BU_") n.attributes

structure WritableEnvvar (db : DDatabase F) (e : Chars × DEnvvar F) : Prop where
  key : e.1 = e.2.name
  name : Name e.2.name
  unit : CommentText e.2.unit
  access : Name e.2.accessType ∧ Name e.2.accessNode
  comment : ∀ c, e.2.comment = some c → CommentText c
  attributes : WritableAttrs db.definitions (some "EV_") e.2.attributes

/-- The only bus: its name is the attribute `DBName`, and it has a name, a baud rate or a comment. -/
structure WritableBus (db : DDatabase F) (b : DBus) : Prop where
  name : (b.name = [] ∧ dictGet? db.attributes dbName = none) ∨
    ∃ a, dictGet? db.attributes dbName = some a ∧ a.value = .str b.name
  comment : ∀ c, b.comment = some c → PlainText c
  something : b.name ≠ [] ∨ b.baudrate.getD 0 ≠ 0 ∨ b.comment.getD [] ≠ []

/-- A database of which a DBC file keeps everything listed in `SameDatabase`. -/
structure WritableDatabase (T : FloatText F) (db : DDatabase F) : Prop where
  messages : ∀ m ∈ db.messages, WritableMessage T db m
  ids : (db.messages.map fun m => (m.frameId, m.isExtendedFrame)).Nodup
  names : (db.messages.map (·.name)).Nodup
  nodes : ∀ n ∈ db.nodes, WritableNode db n
  nodeNames : (db.nodes.map (·.name)).Nodup
  version : PlainText (db.version.getD [])
  buses : (db.buses = [] ∧ dictGet? db.attributes dbName = none) ∨ ∃ b, db.buses = [b] ∧ WritableBus db b
  attributes : WritableAttrs db.definitions none db.attributes
  definitions : ∀ e ∈ db.definitions, e.1 = e.2.name ∧ WritableDef e.2
  definitionNames : (db.definitions.map (·.1)).Nodup
  cycleTime : DefinedAs db.definitions genMsgCycleTime (some "BO_") ["INT", "HEX", "FLOAT"]
  startValue : DefinedAs db.definitions genSigStartValue (some "SG_") ["INT", "HEX", "FLOAT"]
  baudrate : DefinedAs db.definitions baudrate none ["INT", "HEX"]
  format : DefinedAs db.definitions vFrameFormat (some "BO_") ["ENUM"]
  envvars : ∀ e ∈ db.envvars, WritableEnvvar db e
  envvarNames : (db.envvars.map (·.1)).Nodup
  tables : ∀ t ∈ db.valueTables, Name t.1 ∧ (t.2.map (·.1)).Nodup ∧ ∀ c ∈ t.2, PlainText c.2
  tableNames : (db.valueTables.map (·.1)).Nodup

/-- What is known about characters: letters, digits and underscores of ASCII are word characters, and of
these the digits are digits. -/
structure UnicodeLaws (U : Unicode) : Prop where
  word : ∀ c, isWordChar c = true → U.word c = true
  digit : ∀ c, isWordChar c = true → U.digit c = isDigit c

/-- What must hold for names longer than 32 characters to be restored: the attributes that hold them are
texts, there are not too many nodes, senders and receivers that are not nodes cannot be mistaken for a
shortened name, and the names of multiplexer selectors are not shortened. -/
structure KeptNames (db : DDatabase F) : Prop where
  node : DefinedAs db.definitions systemNode (some "BU_") ["STRING"]
  message : DefinedAs db.definitions systemMessage (some "BO_") ["STRING"]
  signal : DefinedAs db.definitions systemSignal (some "SG_") ["STRING"]
  envvar : DefinedAs db.definitions systemEnvvar (some "EV_") ["STRING"]
  nodes : db.nodes.length ≤ 10000
  senders : ∀ m ∈ db.messages, ∀ n ∈ m.senders, n ∈ db.nodes.map (·.name) ∨ n.length < 32
  receivers : ∀ m ∈ db.messages, ∀ s ∈ m.signals, ∀ n ∈ s.receivers, n ∈ db.nodes.map (·.name) ∨ n.length < 32
  selectors : ∀ m ∈ db.messages, ∀ s ∈ m.signals, ∀ n, s.multiplexerSignal = some n → n.length ≤ 32

/-- The message as the encoder sees it. -/
def messageOf (T : FloatText F) (pattern : UInt8) (strict : Bool) (m : DMessage F) : Except Err Message :=
  Message.create m.frameId (String.ofList m.name) m.length (m.signals.map (·.core T)) pattern m.isExtendedFrame strict

/-! ### What must be kept -/

/-- The same values for all names but some. -/
def SameBut {α : Type} (names : List Chars) (a b : List (Chars × α)) : Prop :=
  ∀ n, n ∉ names → dictGet? b n = dictGet? a n

structure SameSignal (T : FloatText F) (a b : DSignal F) : Prop where
  name : b.name = a.name
  start : b.start = a.start
  length : b.length = a.length
  byteOrder : b.byteOrder = a.byteOrder
  isSigned : b.isSigned = a.isSigned
  scale : b.scale = a.scale
  offset : b.offset = a.offset
  isFloat : b.isFloat = a.isFloat
  minimum : b.minimum = a.minimum
  maximum : b.maximum = a.maximum
  unit : b.unit = a.unit
  receivers : b.receivers = a.receivers
  comment : b.comment = a.comment
  choices : b.choices = a.choices
  isMultiplexer : b.isMultiplexer = a.isMultiplexer
  multiplexerSignal : b.multiplexerSignal = a.multiplexerSignal
  multiplexed : b.multiplexerIds = none ↔ a.multiplexerIds = none
  ids : ∀ i, i ∈ b.multiplexerIds.getD [] ↔ i ∈ a.multiplexerIds.getD []
  initial : b.rawInitial.map (·.toFloat T) = a.rawInitial.map (·.toFloat T)
  spn : b.spn = a.spn
  attributes : SameBut [genSigStartValue, systemSignal] a.attributes b.attributes

structure SameMessage (T : FloatText F) (a b : DMessage F) : Prop where
  frameId : b.frameId = a.frameId
  isExtendedFrame : b.isExtendedFrame = a.isExtendedFrame
  name : b.name = a.name
  length : b.length = a.length
  senders : b.senders = a.senders
  sendType : b.sendType = a.sendType
  cycleTime : b.cycleTime.map (·.value T) = a.cycleTime.map (·.value T)
  comment : b.comment = a.comment
  protocol : b.protocol = a.protocol
  busName : b.busName = a.busName
  isFd : b.isFd = a.isFd
  signalGroups : b.signalGroups = a.signalGroups
  attributes : SameBut [genMsgCycleTime, vFrameFormat, systemMessage] a.attributes b.attributes
  /-- The same signals, up to their order; the new ones are sorted by start bit. -/
  signals : ∃ l : List (DSignal F), l.Perm a.signals ∧ List.Forall₂ (SameSignal T) l b.signals
  sorted : b.signals.Pairwise fun x y => startBit (x.core T) ≤ startBit (y.core T)

structure SameNode (a b : DNode F) : Prop where
  name : b.name = a.name
  comment : b.comment = a.comment
  attributes : SameBut [systemNode] a.attributes b.attributes

structure SameEnvvar (a b : Chars × DEnvvar F) : Prop where
  key : b.1 = a.1
  name : b.2.name = a.2.name
  envType : b.2.envType = a.2.envType
  minimum : b.2.minimum = a.2.minimum
  maximum : b.2.maximum = a.2.maximum
  unit : b.2.unit = a.2.unit
  initialValue : b.2.initialValue = a.2.initialValue
  envId : b.2.envId = a.2.envId
  accessType : b.2.accessType = a.2.accessType
  accessNode : b.2.accessNode = a.2.accessNode
  comment : b.2.comment = a.2.comment
  attributes : SameBut [systemEnvvar] a.2.attributes b.2.attributes

/-- The database `b` has the same contents as `a`. -/
structure SameDatabase (T : FloatText F) (a b : DDatabase F) : Prop where
  messages : List.Forall₂ (SameMessage T) a.messages b.messages
  nodes : List.Forall₂ SameNode a.nodes b.nodes
  buses : b.buses = a.buses
  version : b.version.getD [] = a.version.getD []
  attributes : SameBut [baudrate] a.attributes b.attributes
  /-- All definitions are kept; those of attributes that are written from properties may be new. -/
  definitions : ∀ n d, n ≠ baudrate → dictGet? a.definitions n = some d → dictGet? b.definitions n = some d
  envvars : List.Forall₂ SameEnvvar a.envvars b.envvars
  valueTables : List.Forall₂ (fun x y => y.1 = x.1 ∧ y.2.Perm x.2) a.valueTables b.valueTables

end Cantools.Spec
