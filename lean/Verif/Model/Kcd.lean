import Verif.Model.Message
import Verif.Model.Dbc

/-
database/can/formats/kcd.py: dumping a database to XML elements and loading it again.

`Xml` are the elements (for the text of the document see KcdXml.lean), and `Xml.reparse` is
what is left of them after `ElementTree.tostring` and `ElementTree.fromstring`.  White space between
elements and name spaces do not matter here.
-/

namespace Cantools.Kcd
open Cantools

/-- An XML element. -/
inductive Xml where
  | elem (tag : String) (attrs : List (String × String)) (text : Option String)
      (children : List Xml)
  deriving Repr

def Xml.tag : Xml → String
  | .elem t _ _ _ => t
def Xml.attrs : Xml → List (String × String)
  | .elem _ a _ _ => a
def Xml.text : Xml → Option String
  | .elem _ _ x _ => x
def Xml.children : Xml → List Xml
  | .elem _ _ _ c => c

/-- `element.attrib.get(name)`. -/
def Xml.attr? (x : Xml) (name : String) : Option String := dictGet? x.attrs name
/-- `element.iterfind(tag)`. -/
def Xml.findAll (x : Xml) (tag : String) : List Xml := x.children.filter fun c => c.tag == tag
/-- `element.find(tag)`. -/
def Xml.find? (x : Xml) (tag : String) : Option Xml := x.children.find? fun c => c.tag == tag

/-
What the XML library does to an element when it is written and read: an element with empty text is
written like one without text.
-/
mutual
def Xml.reparse : Xml → Xml
  | .elem t a x c => .elem t a (if x = some "" then none else x) (reparseAll c)
def reparseAll : List Xml → List Xml
  | [] => []
  | x :: r => x.reparse :: reparseAll r
end

/-! ### Numbers as text -/

/-- python `str(i)` for an integer. -/
def showInt (i : Int) : String :=
  String.ofList (if i < 0 then '-' :: decimal i.natAbs else decimal i.natAbs)

/-- A decimal digit. -/
def digit? (c : Char) : Option Nat := if '0' ≤ c ∧ c ≤ '9' then some (c.toNat - 48) else none

/-- A number in a given base from its digits. -/
def readDigits (base : Nat) (digit : Char → Option Nat) : List Char → Nat → Option Nat
  | [], n => some n
  | c :: r, n => (digit c).bind fun d => readDigits base digit r (n * base + d)

/-- python `int(text)`, without white space, underscores and plus signs. -/
def readInt (text : String) : Except Err Int :=
  match text.toList with
  | [] => .error .valueError
  | ['-'] => .error .valueError
  | '-' :: r => match readDigits 10 digit? r 0 with | some n => .ok (-(n : Int)) | none => .error .valueError
  | r => match readDigits 10 digit? r 0 with | some n => .ok n | none => .error .valueError

/-- An upper case hexadecimal digit. -/
def hexChar (n : Nat) : Char := if n < 10 then Char.ofNat (48 + n) else Char.ofNat (55 + n)

/-- The hexadecimal digits of a number. -/
def hexadecimal (n : Nat) : List Char :=
  if n < 16 then [hexChar n] else hexadecimal (n / 16) ++ [hexChar (n % 16)]

/-- kcd.py:372 `f'0x{n:03X}'`. -/
def showFrameId (n : Nat) : String :=
  String.ofList ('0' :: 'x' :: (List.replicate (3 - (hexadecimal n).length) '0' ++ hexadecimal n))

/-- The value of a hexadecimal digit. -/
def hex? (c : Char) : Option Nat :=
  if '0' ≤ c ∧ c ≤ '9' then some (c.toNat - 48)
  else if 'A' ≤ c ∧ c ≤ 'F' then some (c.toNat - 55)
  else if 'a' ≤ c ∧ c ≤ 'f' then some (c.toNat - 87)
  else none

/-- kcd.py:189 `int(value, 0)`, for hexadecimal and decimal numbers without sign. -/
def readFrameId (text : String) : Except Err Nat :=
  let digits (base : Nat) (digit : Char → Option Nat) (l : List Char) : Except Err Nat :=
    if l = [] then .error .valueError
    else match readDigits base digit l 0 with | some n => .ok n | none => .error .valueError
  match text.toList with
  | '0' :: 'x' :: r => digits 16 hex? r
  | '0' :: 'X' :: r => digits 16 hex? r
  | r => digits 10 digit? r

/-- How numbers are written and read: python's `str` of an `int` or `float`, and formats/utils.py:1-12
`num`. -/
structure NumText where
  show_ : Rat → String
  read : String → Except Err Rat

/-! ### Signals, messages, databases -/

/-- A signal with the attributes that only matter for files.  `receivers` may contain `None`
(kcd.py:39-42). -/
structure KSignal where
  core : Signal
  unit : Option String := none
  comment : Option String := none
  receivers : List (Option String) := []
  deriving DecidableEq, Repr

/-- The arguments of the `Message` constructor (kcd.py:233-245).  Frame ids and lengths are
natural numbers. -/
structure KMessage where
  frameId : Nat
  isExtendedFrame : Bool := false
  name : String
  length : Nat
  unusedBitPattern : UInt8
  senders : List (Option String) := []
  cycleTime : Option Int := none
  comment : Option String := none
  signals : List KSignal
  deriving DecidableEq, Repr

/-- kcd.py:32-36 `_start_bit`. -/
def startBitKcd (offset : Nat) : ByteOrder → Nat
  | .big => 8 * (offset / 8) + (7 - offset % 8)
  | .little => offset

/-- `node_refs[name]`; `None` is not a node. -/
def nodeRef (refs : List (String × Nat)) : Option String → Except Err Nat
  | none => .error .keyError
  | some n => dictGet refs n

/-- A list of `NodeRef` elements (kcd.py:290-297, 389-396). -/
def dumpRefs (tag : String) (refs : List (String × Nat)) (names : List (Option String)) :
    Except Err (List Xml) :=
  if names = [] then .ok []
  else do
    let ids ← names.mapM (nodeRef refs)
    pure [.elem tag [] none
      (ids.map fun (i : Nat) => Xml.elem "NodeRef" [("id", showInt i)] none [])]

/-- kcd.py:267-269 `_dump_notes` of a comment that is not `None`. -/
def dumpNotes : Option String → List Xml
  | none => []
  | some c => [.elem "Notes" [] (some c) []]

/-- An attribute that is only written under a condition. -/
def attrIf (b : Bool) (name value : String) : List (String × String) := if b then [(name, value)] else []

/-- An attribute that is only written if there is a value. -/
def attrOpt (name : String) : Option String → List (String × String)
  | none => []
  | some v => [(name, v)]

/-- kcd.py:317-325: the type of the value. -/
def typeName (s : Signal) : Option String :=
  if s.conversion.isFloat then some (if s.length = 32 then "single" else "double")
  else if s.isSigned then some "signed"
  else none

/-- kcd.py:299-328: the attributes of `Value`. -/
def valueAttrs (T : NumText) (k : KSignal) : List (String × String) :=
  attrOpt "min" (k.core.minimum.map T.show_) ++
  attrOpt "max" (k.core.maximum.map T.show_) ++
  attrIf (decide (k.core.conversion.scale ≠ 1)) "slope" (T.show_ k.core.conversion.scale) ++
  attrIf (decide (k.core.conversion.offset ≠ 0)) "intercept" (T.show_ k.core.conversion.offset) ++
  attrOpt "unit" k.unit ++
  attrOpt "type" (typeName k.core)

/-- kcd.py:333-338: the `LabelSet`. -/
def dumpLabels (choices : Option Choices) : List Xml :=
  match choices with
  | none => []
  | some [] => []
  | some cs => [.elem "LabelSet" [] none
      (cs.map fun c => Xml.elem "Label" [("name", c.2.toStr), ("value", showInt c.1)] none [])]

/-- kcd.py:272-338 `_dump_signal`: the attributes and children of the element. -/
def dumpSignal (T : NumText) (refs : List (String × Nat)) (k : KSignal) :
    Except Err (List (String × String) × List Xml) := do
  let s := k.core
  let attrs := [("name", s.name), ("offset", showInt (startBitKcd s.start s.byteOrder))] ++
    attrIf (decide (s.length ≠ 1)) "length" (showInt s.length) ++
    attrIf (decide (s.byteOrder ≠ .little)) "endianess" "big"
  let consumer ← dumpRefs "Consumer" refs k.receivers
  let value := valueAttrs T k
  pure (attrs, dumpNotes k.comment ++ consumer ++
    (if value = [] then [] else [Xml.elem "Value" value none []]) ++
    dumpLabels s.conversion.choices)

/-- kcd.py:355-362: `signals_per_count`: the signals of a multiplexer by their first id;
`multiplexer_ids[0]` raises `TypeError` for `None` and `IndexError` for an empty list. -/
def signalsPerCount (mux : String) : List KSignal → List (Int × List KSignal) →
    Except Err (List (Int × List KSignal))
  | [], acc => .ok acc
  | k :: r, acc =>
    if k.core.multiplexerSignal ≠ some mux then signalsPerCount mux r acc
    else
      match k.core.multiplexerIds with
      | none => .error .typeError
      | some [] => .error .indexError
      | some (i :: _) => signalsPerCount mux r (dictSet acc i ((dictGet? acc i).getD [] ++ [k]))

/-- A `Signal` element (kcd.py:350-352, 415-417). -/
def dumpPlainSignal (T : NumText) (refs : List (String × Nat)) (k : KSignal) : Except Err Xml := do
  let (a, c) ← dumpSignal T refs k
  pure (.elem "Signal" a none c)

/-- kcd.py:341-352 `_dump_mux_group`. -/
def dumpMuxGroup (T : NumText) (refs : List (String × Nat)) (g : Int × List KSignal) :
    Except Err Xml := do
  let c ← g.2.mapM (dumpPlainSignal T refs)
  pure (.elem "MuxGroup" [("count", showInt g.1)] none c)

/-- kcd.py:354-368 `_dump_mux_groups`. -/
def dumpMuxGroups (T : NumText) (refs : List (String × Nat)) (mux : String)
    (signals : List KSignal) : Except Err (List Xml) := do
  let groups ← signalsPerCount mux signals []
  groups.mapM (dumpMuxGroup T refs)

/-- kcd.py:404-417: the element of one signal, if it gets one of its own. -/
def dumpTopSignal (T : NumText) (refs : List (String × Nat)) (signals : List KSignal) (k : KSignal) :
    Except Err (List Xml) :=
  if k.core.isMultiplexer then do
    let (a, c) ← dumpSignal T refs k
    let g ← dumpMuxGroups T refs k.core.name signals
    pure [.elem "Multiplex" a none (c ++ g)]
  else if k.core.multiplexerIds = none then do
    let x ← dumpPlainSignal T refs k
    pure [x]
  else .ok []

/-- kcd.py:371-417 `_dump_message`; `sort` is the function `sort_signals`, or the identity. -/
def dumpMessage (T : NumText) (refs : List (String × Nat)) (sort : List KSignal → List KSignal)
    (m : KMessage) : Except Err Xml := do
  let attrs := [("id", showFrameId m.frameId), ("name", m.name), ("length", showInt m.length)] ++
    attrOpt "interval" (m.cycleTime.map showInt) ++
    attrIf m.isExtendedFrame "format" "extended"
  let producer ← dumpRefs "Producer" refs m.senders
  let signals := sort m.signals
  let elements ← signals.mapM (dumpTopSignal T refs signals)
  pure (.elem "Message" attrs none (dumpNotes m.comment ++ producer ++ elements.flatten))

/-! ### Loading -/

/-- kcd.py:39-42 `_get_node_name_by_id`; `None` if there is no such node. -/
def nodeNameById (nodes : List (List (String × String))) (id : String) :
    Except Err (Option String) :=
  match nodes with
  | [] => .ok none
  | n :: r => do
    let i ← dictGet n "id"
    if i = id then (dictGet n "name").map some else nodeNameById r id

/-- kcd.py:120-126, 206-212: the names of the nodes of the first child with a tag. -/
def loadRefs (nodes : List (List (String × String))) (tag : String) (x : Xml) :
    Except Err (List (Option String)) :=
  match x.find? tag with
  | none => .ok []
  | some c => (c.findAll "NodeRef").mapM fun r => do
    let i ← dictGet r.attrs "id"
    nodeNameById nodes i

/-- kcd.py:101-105, 200-204: the text of `Notes`. -/
def loadNotes (x : Xml) : Option String := (x.find? "Notes").bind (·.text)

/-- kcd.py:107-116: the labels. -/
def loadLabels (x : Xml) : Except Err (Option Choices) :=
  match x.find? "LabelSet" with
  | none => .ok none
  | some set => do
    let cs ← (set.findAll "Label").foldlM (fun (acc : Choices) l => do
      let v ← (dictGet l.attrs "value").bind readInt
      let n ← dictGet l.attrs "name"
      pure (dictSet acc v (.named { value := v, name := n }))) []
    pure (some cs)

/-- An optional number. -/
def readOpt {α : Type} (read : String → Except Err α) : Option String → Except Err (Option α)
  | none => .ok none
  | some v => (read v).map some

/-- kcd.py:45-146 `_load_signal_element`.  The loops over the attributes of an element (whose names
are distinct) are lookups here.  Simplifications: a missing name is empty, a negative offset or
length is zero, a byte order other than `big` is `little`. -/
def loadSignal (T : NumText) (nodes : List (List (String × String))) (x : Xml) :
    Except Err KSignal := do
  let offset ← readOpt readInt (x.attr? "offset")
  let length ← readOpt readInt (x.attr? "length")
  let byteOrder : ByteOrder := if x.attr? "endianess" = some "big" then .big else .little
  let value := (x.find? "Value").getD (.elem "Value" [] none [])
  let minimum ← readOpt T.read (value.attr? "min")
  let maximum ← readOpt T.read (value.attr? "max")
  let slope ← readOpt T.read (value.attr? "slope")
  let intercept ← readOpt T.read (value.attr? "intercept")
  let type := value.attr? "type"
  let labels ← loadLabels x
  let receivers ← loadRefs nodes "Consumer" x
  match offset with
  | none => .error .typeError
  | some offset =>
    pure { core :=
             { name := (x.attr? "name").getD ""
               start := startBitKcd offset.toNat byteOrder
               length := (length.getD 1).toNat
               byteOrder
               isSigned := decide (type = some "signed")
               conversion := .factory (slope.getD 1) (intercept.getD 0) labels
                 (decide (type = some "single" ∨ type = some "double"))
               minimum, maximum }
           unit := value.attr? "unit"
           comment := loadNotes x
           receivers }

/-- kcd.py:157-165: the signals of one `MuxGroup`. -/
def loadMuxGroup (T : NumText) (nodes : List (List (String × String))) (mux : String) (g : Xml) :
    Except Err (List KSignal) := do
  let count ← dictGet g.attrs "count"
  (g.findAll "Signal").mapM fun e => do
    let k ← loadSignal T nodes e
    let i ← readInt count
    pure { k with core := { k.core with multiplexerIds := some [i], multiplexerSignal := some mux } }

/-- kcd.py:149-167 `_load_multiplex_element`. -/
def loadMultiplex (T : NumText) (nodes : List (List (String × String))) (x : Xml) :
    Except Err (List KSignal) := do
  let k ← loadSignal T nodes x
  let rest ← (x.findAll "MuxGroup").mapM (loadMuxGroup T nodes k.core.name)
  pure ({ k with core := { k.core with isMultiplexer := true } } :: rest.flatten)

/-- kcd.py:223-231: the length of a message. -/
def loadLength (text : Option String) (signals : List KSignal) : Except Err Nat :=
  match text with
  | none | some "auto" =>
    .ok (((signals.map fun k => startBit k.core + k.core.length).foldl max 0 + 7) / 8)
  | some v => (readInt v).map (·.toNat)

/-- kcd.py:170-245 `_load_message_element`: the arguments of `Message`.  Simplification: a missing
name is empty; a missing id raises `TypeError` (in `Message`). -/
def loadMessage (T : NumText) (nodes : List (List (String × String))) (x : Xml) :
    Except Err KMessage := do
  let frameId ← readOpt readFrameId (x.attr? "id")
  let cycleTime ← readOpt readInt (x.attr? "interval")
  let senders ← loadRefs nodes "Producer" x
  let muxed ← (x.findAll "Multiplex").mapM (loadMultiplex T nodes)
  let plain ← (x.findAll "Signal").mapM (loadSignal T nodes)
  let signals := muxed.flatten ++ plain
  let length ← loadLength (x.attr? "length") signals
  match frameId with
  | none => .error .typeError
  | some frameId =>
    pure { frameId
           isExtendedFrame := decide (x.attr? "format" = some "extended")
           name := (x.attr? "name").getD ""
           length
           unusedBitPattern := 0xff
           senders
           cycleTime
           comment := loadNotes x
           signals }

/-- The message made from the arguments (kcd.py:233-245). -/
def KMessage.create (m : KMessage) (strict : Bool := true) (sort : SortSignals := .default) :
    Except Err Message :=
  Message.create m.frameId m.name m.length (m.signals.map (·.core)) m.unusedBitPattern
    m.isExtendedFrame strict sort

/-! ### Databases -/

/-- The part of a database that is dumped; only the names of nodes are. -/
structure KDatabase where
  version : Option String
  nodes : List String
  messages : List KMessage
  deriving DecidableEq, Repr

/-- kcd.py:425-428: `node_refs`. -/
def nodeRefs (nodes : List String) : List (String × Nat) :=
  (nodes.zipIdx 1).foldl (fun refs p => dictSet refs p.1 p.2) []

/-- kcd.py:425-428 `_dump_nodes`. -/
def dumpNodes (nodes : List String) : List Xml :=
  (nodes.zipIdx 1).map fun p => .elem "Node" [("id", showInt p.2), ("name", p.1)] none []

/-- kcd.py:438-463 `dump_string` (and 420-422, 431-435), up to the text. -/
def dump (T : NumText) (sort : List KSignal → List KSignal) (db : KDatabase) : Except Err Xml := do
  let messages ← db.messages.mapM (dumpMessage T (nodeRefs db.nodes) sort)
  pure (.elem "NetworkDefinition" [] none
    ([Xml.elem "Document" [("version", db.version.getD "")] none []] ++ dumpNodes db.nodes ++
      [.elem "Bus" [("name", "Bus")] none messages]))

/-- kcd.py:466-504 `load_string`, from the elements on; the buses themselves are not modelled. -/
def load (T : NumText) (x : Xml) : Except Err KDatabase := do
  if x.tag ≠ "NetworkDefinition" then .error .valueError
  else
    let nodes := (x.findAll "Node").map (·.attrs)
    let messages ← (x.findAll "Bus").mapM fun b => do
      let _ ← dictGet b.attrs "name"
      (b.findAll "Message").mapM (loadMessage T nodes)
    let names ← nodes.mapM fun n => dictGet n "name"
    pure { version := (x.find? "Document").bind fun d => d.attr? "version"
           nodes := names
           messages := messages.flatten }

end Cantools.Kcd
