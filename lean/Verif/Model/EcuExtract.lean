import Verif.Model.Message
import Verif.Model.ArxmlRef

/-!
database/can/formats/arxml/ecu_extract_loader.py: the messages of an ECU extract from its XML elements.

Tags are without their namespace.  Integers are read as in `Kcd.readInt`; a negative position, size or
length counts as zero.  Names have no quotes.  Log messages are left out.
-/

namespace Cantools.Extract

open Kcd (Xml readInt)
open ArxmlRef (splitSlash)

/-- `[ns:SHORT-NAME='n']` of a path. -/
def hasName (x : Xml) (n : String) : Bool := (x.findAll "SHORT-NAME").any fun k => k.text.getD "" == n

/-- One step of a path: the children with the tag and, if it is given, the name. -/
def step (x : Xml) (tag : String) (name : Option String) : List Xml :=
  x.children.filter fun c => c.tag == tag && (match name with | none => true | some n => hasName c n)

/-- ecu_extract_loader.py:15-19 `make_xpath` and `element.iterfind` for it. -/
def findSteps (x : Xml) : List (String × Option String) → List Xml
  | [] => [x]
  | (t, n) :: r => (step x t n).flatMap fun c => findSteps c r

/-- `element.text` if the text is used. -/
def textOf (x : Xml) : Except Err String :=
  match x.text with
  | none => .error .attributeError
  | some t => .ok t

/-- `element.find(tag).text` if the text is used. -/
def textAt (x : Xml) (tag : String) : Except Err String :=
  match x.find? tag with
  | none => .error .attributeError
  | some c => match c.text with
    | none => .error .attributeError
    | some t => .ok t

/-- `element.find(tag).text`. -/
def textAt? (x : Xml) (tag : String) : Except Err (Option String) :=
  match x.find? tag with
  | none => .error .attributeError
  | some c => .ok c.text

/-- `text.endswith(end)`. -/
def endsWith (t e : String) : Bool := e.toList.isSuffixOf t.toList

/-- `text.split('/')[1]`. -/
def packageOf (t : String) : Except Err String :=
  match (splitSlash t.toList)[1]? with
  | none => .error .indexError
  | some p => .ok (String.ofList p)

/-- `text.split('/')[-1]`. -/
def lastOf (t : String) : String := String.ofList ((splitSlash t.toList).getLast?.getD [])

/-- ecu_extract_loader.py:352-358 one round of `iter_parameter_values`, and 367-372 of
`iter_reference_values`. -/
def entry (tag : String) (x : Xml) : Except Err (String × Option String) := do
  let d ← textAt x "DEFINITION-REF"
  let v ← textAt? x tag
  pure (lastOf d, v)

/-- ecu_extract_loader.py:345-350, 360-365: the elements that `iter_parameter_values` and
`iter_reference_values` go through. -/
def entriesOf (x : Xml) (tag : String) : Except Err (List Xml) :=
  match x.find? tag with
  | none => .error .valueError
  | some c => .ok c.children

/-- ecu_extract_loader.py:110-120: the loops that stop at the first entry with a name. -/
def firstOf (tag name : String) : List Xml → Except Err (Option String)
  | [] => .ok none
  | x :: r => do
    let (n, v) ← entry tag x
    if n = name then pure v else firstOf tag name r

/-- `int(value)` for a value that may be missing. -/
def intOf : Option String → Except Err Int
  | none => .error .typeError
  | some t => readInt t

/-- ecu_extract_loader.py:290-300 `find_com_config`: the path. -/
def comSteps (package : String) : List (String × Option String) :=
  [("AR-PACKAGES", none), ("AR-PACKAGE", some package), ("ELEMENTS", none),
   ("ECUC-MODULE-CONFIGURATION-VALUES", some "Com"), ("CONTAINERS", none),
   ("ECUC-CONTAINER-VALUE", some "ComConfig"), ("SUB-CONTAINERS", none)]

/-- ecu_extract_loader.py:302-313 `find_value`. -/
def findValue (root : Xml) (ref : String) : Except Err (Option Xml) := do
  let p ← packageOf ref
  pure (findSteps root (comSteps p ++ [("ECUC-CONTAINER-VALUE", some (lastOf ref))])).head?

/-- ecu_extract_loader.py:316-328: the path. -/
def canIfSteps (package : String) : List (String × Option String) :=
  [("AR-PACKAGES", none), ("AR-PACKAGE", some package), ("ELEMENTS", none),
   ("ECUC-MODULE-CONFIGURATION-VALUES", some "CanIf"), ("CONTAINERS", none),
   ("ECUC-CONTAINER-VALUE", some "CanIfInitCfg"), ("SUB-CONTAINERS", none), ("ECUC-CONTAINER-VALUE", none)]

/-- ecu_extract_loader.py:341-343: whether an element has a given reference. -/
def hasReference (name ref : String) : List Xml → Except Err Bool
  | [] => .ok false
  | x :: r => do
    let (n, v) ← entry "VALUE-REF" x
    if n = name ∧ v = some ref then pure true else hasReference name ref r

/-- ecu_extract_loader.py:330-343: the loop of `find_can_if_rx_tx_pdu_cfg`. -/
def searchCanIf (ref : String) : List Xml → Except Err (Option Xml)
  | [] => .ok none
  | x :: r => do
    let d ← textAt x "DEFINITION-REF"
    if endsWith d "CanIfTxPduCfg" then
      if ← hasReference "CanIfTxPduRef" ref (← entriesOf x "REFERENCE-VALUES") then pure (some x)
      else searchCanIf ref r
    else if endsWith d "CanIfRxPduCfg" then
      if ← hasReference "CanIfRxPduRef" ref (← entriesOf x "REFERENCE-VALUES") then pure (some x)
      else searchCanIf ref r
    else searchCanIf ref r

/-- ecu_extract_loader.py:315-343 `find_can_if_rx_tx_pdu_cfg`. -/
def findCanIf (root : Xml) (ref : String) : Except Err (Option Xml) := do
  let p ← packageOf ref
  searchCanIf ref (findSteps root (canIfSteps p))

/-- Identifier, length and whether the identifier has 29 bits. -/
structure Header where
  frameId : Option Int := none
  length : Option Nat := none
  isExtended : Option Bool := none

/-- ecu_extract_loader.py:205-211: one round of the loop. -/
def headerStep (id dlc type : String) (h : Header) (x : Xml) : Except Err Header := do
  let (n, v) ← entry "VALUE" x
  if n = id then
    let i ← intOf v
    pure { h with frameId := some i }
  else if n = dlc then
    let i ← intOf v
    pure { h with length := some i.toNat }
  else if n = type then pure { h with isExtended := some (v == some "EXTENDED_CAN") }
  else pure h

/-- ecu_extract_loader.py:194-213 `load_message_rx_tx`. -/
def loadHeader (root : Xml) (ref id dlc type : String) : Except Err Header := do
  match ← findCanIf root ref with
  | none => pure {}
  | some x => (← entriesOf x "PARAMETER-VALUES").foldlM (headerStep id dlc type) {}

/-- What the loop over the parameters of a signal finds. -/
structure Found where
  position : Option Nat := none
  size : Option Nat := none
  order : Option String := none
  isSigned : Bool := false
  isFloat : Bool := false

/-- ecu_extract_loader.py:239-250: one round of the loop. -/
def signalStep (f : Found) (x : Xml) : Except Err Found := do
  let (n, v) ← entry "VALUE" x
  if n = "ComBitPosition" then
    let i ← intOf v
    pure { f with position := some i.toNat }
  else if n = "ComBitSize" then
    let i ← intOf v
    pure { f with size := some i.toNat }
  else if n = "ComSignalEndianness" then
    match v with
    | none => .error .attributeError
    | some t => pure { f with order := some t.toLower }
  else if n = "ComSignalType" then
    if v ∈ [some "SINT8", some "SINT16", some "SINT32"] then pure { f with isSigned := true }
    else if v ∈ [some "FLOAT32", some "FLOAT64"] then pure { f with isFloat := true }
    else pure f
  else pure f

/-- ecu_extract_loader.py:252-288: the signal, unless something is missing.  A byte order other than
`big_endian` is little. -/
def Found.signal (f : Found) (name : String) : Option Signal := do
  let position ← f.position
  let size ← f.size
  let order ← f.order
  pure { name := name, start := position, length := size
         byteOrder := if order = "big_endian" then .big else .little
         isSigned := f.isSigned, conversion := Conversion.factory 1 0 none f.isFloat }

/-- ecu_extract_loader.py:215-288 `load_signal`.  A missing text of the name is empty. -/
def loadSignal (root : Xml) (ref : String) : Except Err (Option Signal) := do
  match ← findValue root ref with
  | none => pure none
  | some x =>
    let name ← textAt? x "SHORT-NAME"
    let f ← (← entriesOf x "PARAMETER-VALUES").foldlM signalStep {}
    pure (f.signal (name.getD ""))

/-- ecu_extract_loader.py:157-167: the loop over the references to signals. -/
def loadSignals (root : Xml) : List Xml → Except Err (List Signal)
  | [] => .ok []
  | x :: r => do
    let d ← textAt x "DEFINITION-REF"
    if endsWith d "ComIPduSignalRef" then
      let s ← loadSignal root (← textAt x "VALUE-REF")
      let l ← loadSignals root r
      pure (s.toList ++ l)
    else loadSignals root r

/-- ecu_extract_loader.py:100-180 `load_message`. -/
def loadMessage (root : Xml) (strict : Bool) (sort : SortSignals) (x : Xml) : Except Err (Option Message) := do
  let name ← textAt? x "SHORT-NAME"
  let direction ← firstOf "VALUE" "ComIPduDirection" (← entriesOf x "PARAMETER-VALUES")
  match ← firstOf "VALUE-REF" "ComPduIdRef" (← entriesOf x "REFERENCE-VALUES") with
  | none => .error .valueError
  | some ref =>
    let h ←
      if direction = some "SEND" then loadHeader root ref "CanIfTxPduCanId" "CanIfTxPduDlc" "CanIfTxPduCanIdType"
      else if direction = some "RECEIVE" then
        loadHeader root ref "CanIfRxPduCanId" "CanIfRxPduDlc" "CanIfRxPduCanIdType"
      else .error .runtimeError
    match h.frameId, h.isExtended, h.length with
    | some id, some ext, some len =>
      let signals ← loadSignals root (findSteps x [("REFERENCE-VALUES", none), ("ECUC-REFERENCE-VALUE", none)])
      let m ← Message.create id (name.getD "") len signals 0 ext strict sort
      pure (some m)
    | _, _, _ => pure none

/-- ecu_extract_loader.py:83-93: the loop over the containers. -/
def loadMessages (root : Xml) (strict : Bool) (sort : SortSignals) : List Xml → Except Err (List Message)
  | [] => .ok []
  | x :: r => do
    let d ← textAt x "DEFINITION-REF"
    if endsWith d "ComIPdu" then
      let m ← loadMessage root strict sort x
      let l ← loadMessages root strict sort r
      pure (m.toList ++ l)
    else loadMessages root strict sort r

/-- arxml/__init__.py:32-43: the elements that make a file an ECU extract. -/
def collections (root : Xml) : List Xml :=
  findSteps root [("AR-PACKAGES", none), ("AR-PACKAGE", none), ("ELEMENTS", none), ("ECUC-VALUE-COLLECTION", none)]

/-- ecu_extract_loader.py:61-98 `load`: the messages. -/
def load (root : Xml) (strict : Bool) (sort : SortSignals) : Except Err (List Message) :=
  match (collections root).head? with
  | none => .error .attributeError
  | some c => do
    let refs ← (findSteps c [("ECUC-VALUES", none), ("ECUC-MODULE-CONFIGURATION-VALUES-REF-CONDITIONAL", none),
      ("ECUC-MODULE-CONFIGURATION-VALUES-REF", none)]).mapM textOf
    match refs.filter fun t => endsWith t "/Com" with
    | [t] =>
      let p ← packageOf (t ++ "/ComConfig")
      match (findSteps root (comSteps p)).head? with
      | none => .error .typeError
      | some sub => loadMessages root strict sort sub.children
    | _ => .error .valueError

end Cantools.Extract
