import Verif.Model.ArxmlFile

/-!
Nodes, senders and receivers of an AUTOSAR 4 system description: arxml/system_loader.py:289-468 and 519-556, and the
paths of PDUs that 770-785, 951-996, 1043-1058 and 1117-1298 collect.

Left out: the comments of nodes.  References to packages are not followed.
-/

namespace Cantools.ArxmlFile

open Kcd (Xml)
open Regex (Chars)
open ArxmlRef (Pos at? Refs follow createDicts splitSlash joinSlash)
open ArxmlScale (FloatRead)

namespace Loader

variable (L : Loader)

/-! ### Paths of PDUs

`_load_pdu` returns them together with the signals; here they are collected separately. -/

/-- `self._node_to_arxml_path[elem]`. -/
def nodePath (p : Pos) : Except Err Chars := dictGet L.refs.pathOf p

/-- system_loader.py:1171-1189: the paths of an alternative and of the PDUs inside it. -/
def altPaths (inner : Pos → Except Err (List Chars)) (alt : Pos) : Except Err (List Chars) := do
  let pdu ← L.unique alt ["&I-PDU"]
  match ← L.unique alt ["I-PDU-REF"], pdu with
  | some ref, some p => do
    let path ← L.refPath alt ref
    pure (path :: (← inner p))
  | _, _ => .error .attributeError

/-- system_loader.py:1274-1295: the paths of a static part and of the PDUs inside it. -/
def staticPaths (inner : Pos → Except Err (List Chars)) (pdu ref : Pos) : Except Err (List Chars) := do
  let path ← L.refPath pdu ref
  let p ← L.staticPdu pdu ref
  pure (path :: (← inner p))

/-- system_loader.py:1043-1069, 1104-1115, 1117-1298: the paths of the PDUs inside a PDU that is not a container. -/
def pduPaths : (fuel : Nat) → Pos → Except Err (List Chars)
  | 0, _ => .error .recursionError
  | fuel + 1, pdu => do
    let tag := (at? L.root pdu).map Xml.tag
    if tag = some "CONTAINER-I-PDU" then .error .error
    else if tag = some "SECURED-I-PDU" then
      match ← L.unique pdu ["&PAYLOAD", "&I-PDU"] with
      | none => .error .assertionError
      | some p => do
        let inner ← pduPaths fuel p
        let path ← L.nodePath p
        pure (inner ++ [path])
    else if tag = some "MULTIPLEXED-I-PDU" then
      let alts ← L.children pdu ["DYNAMIC-PARTS", "*DYNAMIC-PART", "DYNAMIC-PART-ALTERNATIVES",
        "*DYNAMIC-PART-ALTERNATIVE"]
      let a ← alts.mapM (L.altPaths fun p => pduPaths fuel p)
      let statics ← L.children pdu ["STATIC-PARTS", "*STATIC-PART", "I-PDU-REF"]
      let b ← statics.mapM (L.staticPaths (fun p => pduPaths fuel p) pdu)
      pure (a.flatten ++ b.flatten)
    else pure []

/-- system_loader.py:981-996, 1001: the paths for a contained PDU. -/
def partPaths (fuel : Nat) (pdu : Pos) : Except Err (List Chars) := do
  let inner ← L.pduPaths fuel pdu
  let path ← L.nodePath pdu
  pure (inner ++ [path])

/-- system_loader.py:926-1038: the paths for the PDUs in a container. -/
def containedPaths (fuel : Nat) (pdu : Pos) : Except Err (List (List Chars)) := do
  match ← L.unique pdu ["HEADER-TYPE"] with
  | none => .error .attributeError
  | some h =>
    if L.text? h ≠ some "SHORT-HEADER" then pure []
    else
      let pdus ← L.children pdu ["CONTAINED-PDU-TRIGGERING-REFS", "*&CONTAINED-PDU-TRIGGERING", "&I-PDU"]
      pdus.mapM (L.partPaths fuel)

/-- system_loader.py:921-1115: the paths of the PDUs inside the PDU of a frame, and those for each contained message. -/
def topPaths : (fuel : Nat) → Pos → Except Err (List Chars × List (List Chars))
  | 0, _ => .error .recursionError
  | fuel + 1, pdu =>
    if (at? L.root pdu).map Xml.tag = some "CONTAINER-I-PDU" then do
      let parts ← L.containedPaths fuel pdu
      pure (parts.flatten, parts)
    else do
      pure (← L.pduPaths (fuel + 1) pdu, [])

/-- formats/arxml/message_specifics.py:9-31: `pdu_paths` of a message and of the messages in it. -/
structure FramePaths where
  paths : List (Option Chars)
  parts : List (List (Option Chars))
  deriving DecidableEq, Repr

/-- system_loader.py:755-785: `pdu_paths` of the message of a frame triggering. -/
def framePaths (fuel : Nat) (trig : Pos) : Except Err FramePaths := do
  match ← L.unique trig ["&FRAME"] with
  | none => .error .attributeError
  | some frame =>
    match ← L.framePdu frame with
    | none => pure { paths := [], parts := [] }
    | some pdu =>
      let path ← L.framePduPath frame
      let (inner, parts) ← L.topPaths fuel pdu
      pure { paths := path :: inner.map some, parts := parts.map fun p => p.map some }

/-- system_loader.py:668-716: `pdu_paths` of the messages of a package. -/
def packagePaths (fuel : Nat) (package : Pos) : Except Err (List FramePaths) := do
  let clusters ← L.children package ["ELEMENTS", "*&CAN-CLUSTER"]
  let parts ← clusters.mapM fun c => do
    let trigs ← L.children c ["CAN-CLUSTER-VARIANTS", "*&CAN-CLUSTER-CONDITIONAL", "PHYSICAL-CHANNELS",
      "*&CAN-PHYSICAL-CHANNEL", "FRAME-TRIGGERINGS", "*&CAN-FRAME-TRIGGERING"]
    trigs.mapM (L.framePaths fuel)
  pure parts.flatten

/-- system_loader.py:638-666: `pdu_paths` of all messages. -/
def loadPaths (fuel : Nat) : Except Err (List FramePaths) := do
  let parts ← (subPackages [] L.root).mapM (L.packagePaths fuel)
  pure parts.flatten

/-! ### ECUs -/

/-- What 384-393, 446-455 and 461-468 do for one PDU: the ECU is a sender (or a receiver of the signals) of the
messages with the PDU. -/
structure Talk where
  sends : Bool
  ecu : String
  path : Option Chars
  deriving DecidableEq, Repr

/-- `self._node_to_arxml_path.get(pdu)` for each PDU. -/
def talksOf (sends : Bool) (ecu : String) (pdus : List Pos) : List Talk :=
  pdus.map fun p => { sends := sends, ecu := ecu, path := dictGet? L.refs.pathOf p }

/-- system_loader.py:362-393: a group of PDUs of an ECU. -/
def groupTalks (ecu : String) (group : Pos) : Except Err (List Talk) := do
  match ← L.unique group ["COMMUNICATION-DIRECTION"] with
  | none => .error .attributeError
  | some d =>
    let pdus ← L.children group ["I-SIGNAL-I-PDUS", "*I-SIGNAL-I-PDU-REF-CONDITIONAL", "&I-SIGNAL-I-PDU"]
    if L.text? d = some "IN" then pure (L.talksOf false ecu pdus)
    else if L.text? d = some "OUT" then pure (L.talksOf true ecu pdus)
    else pure []

/-- system_loader.py:338-393 `_load_senders_receivers_of_ecu`. -/
def ecuTalks (ecu : Pos) : Except Err (List Talk) := do
  let name ← L.childText ecu ["SHORT-NAME"]
  let groups ← L.children ecu ["ASSOCIATED-COM-I-PDU-GROUP-REFS", "*&ASSOCIATED-COM-I-PDU-GROUP"]
  let parts ← groups.mapM (L.groupTalks (String.ofList (DecodeCommand.strip name.toList)))
  pure parts.flatten

/-- system_loader.py:417-434: the ECU with the controller of a network management node. -/
def nmEcu (node : Pos) : Except Err (Option Pos) := do
  match ← L.unique node ["CONTROLLER-REF"] with
  | none => pure none
  | some ref => do
    let t ← L.text ref
    follow L.root L.refs node (joinSlash (splitSlash t.toList).dropLast) (some "ECU-INSTANCE") none

/-- system_loader.py:416-468: a network management node. -/
def nmTalks (node : Pos) : Except Err (List Talk) := do
  match ← L.nmEcu node with
  | none => pure []
  | some ecu => do
    let name ← L.childText ecu ["SHORT-NAME"]
    let rx ← L.children node ["RX-NM-PDU-REFS", "*&RX-NM-PDU"]
    let tx ← L.children node ["TX-NM-PDU-REFS", "*&TX-NM-PDU"]
    pure (L.talksOf false name rx ++ L.talksOf true name tx)

/-- system_loader.py:411-416: the network management nodes of a cluster. -/
def clusterTalks (cluster : Pos) : Except Err (List Talk) := do
  let nodes ← L.children cluster ["NM-NODES", "*CAN-NM-NODE"]
  let parts ← nodes.mapM L.nmTalks
  pure parts.flatten

/-- system_loader.py:294-312: one package, without its sub-packages; they have to be in one list. -/
def packageTalks (package : Pos) : Except Err (List Talk) := do
  let ecus ← L.children package ["ELEMENTS", "*ECU-INSTANCE"]
  let a ← ecus.mapM L.ecuTalks
  let clusters ← L.children package ["ELEMENTS", "*NM-CONFIG", "NM-CLUSTERS", "*CAN-NM-CLUSTER"]
  let b ← clusters.mapM L.clusterTalks
  let _ ← L.unique package ["AR-PACKAGES"]
  pure (a.flatten ++ b.flatten)

/-- system_loader.py:289-312 `_load_senders_and_receivers`: what is to be done, in this order.  (Python does it
at once.) -/
def loadTalks : Except Err (List Talk) := do
  let parts ← (subPackages [] L.root).mapM L.packageTalks
  pure parts.flatten

/-- `if name not in l: l.append(name)`. -/
def addName (n : String) (l : List String) : List String := if n ∈ l then l else l ++ [n]

/-- The attributes `autosar.pdu_paths` and `senders` of a message, and the attribute `receivers` of each of its
signals. -/
structure MessageNodes where
  paths : List (Option Chars)
  senders : List String
  receivers : List (List String)
  deriving DecidableEq, Repr

/-- system_loader.py:316-318, 384-393, 451-455, 466-468: one message. -/
def MessageNodes.hear (t : Talk) (m : MessageNodes) : MessageNodes :=
  if t.path ∈ m.paths then
    if t.sends then { m with senders := addName t.ecu m.senders }
    else { m with receivers := m.receivers.map (addName t.ecu) }
  else m

/-- A message of the database and the messages in it. -/
structure Connected where
  loaded : Loaded
  nodes : MessageNodes
  parts : List MessageNodes

/-- system_loader.py:316-330: all messages of a frame. -/
def Connected.hear (t : Talk) (c : Connected) : Connected :=
  { c with nodes := c.nodes.hear t, parts := c.parts.map (MessageNodes.hear t) }

/-- can/message.py:132, can/signal.py:122: nothing is known at first. -/
def newNodes (m : Message) (paths : List (Option Chars)) : MessageNodes :=
  { paths := paths, senders := [], receivers := m.signals.map fun _ => [] }

def connect (l : Loaded) (p : FramePaths) : Connected :=
  { loaded := l, nodes := newNodes l.message p.paths
    parts := List.zipWith (fun q paths => newNodes q.message paths) l.contained p.parts }

/-- can/message.py:417-435 `Message.receivers`, as a list. -/
def Connected.receivers (c : Connected) : List String :=
  c.nodes.receivers.flatten ++ (c.parts.map fun p => p.receivers.flatten).flatten

/-- system_loader.py:519-556 `_load_nodes`: the names of the nodes of a package. -/
def packageNodes (package : Pos) : Except Err (List String) := do
  let ecus ← L.children package ["ELEMENTS", "*ECU-INSTANCE"]
  ecus.mapM fun e => L.childText e ["SHORT-NAME"]

/-- system_loader.py:519-556 `_load_nodes`: the names of all nodes.  Only packages are expected in lists of packages. -/
def loadNodes : Except Err (List String) := do
  let parts ← (subPackages [] L.root).mapM L.packageNodes
  pure parts.flatten

end Loader

/-- system_loader.py:138-184: the names of the nodes, and the messages with their senders and receivers.  (Python
loads the nodes before the messages, and the senders and receivers before the byte order of headers.) -/
def loadConnected (F : FloatRead) (root : Xml) (fuel : Nat) (strict : Bool) (sort : SortSignals) :
    Except Err (List String × List Loader.Connected) := do
  let ms ← loadDatabase F root fuel strict sort
  let refs ← createDicts root
  let L : Loader := { root := root, refs := refs, F := F }
  let nodes ← L.loadNodes
  let paths ← L.loadPaths fuel
  let talks ← L.loadTalks
  pure (nodes, talks.foldl (fun cs t => cs.map (Loader.Connected.hear t)) (List.zipWith Loader.connect ms paths))

end Cantools.ArxmlFile
