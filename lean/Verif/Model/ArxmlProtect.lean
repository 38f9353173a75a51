import Verif.Model.ArxmlNodes
import Verif.Model.EndToEnd

/-!
Buses, and sets of end-to-end protections, of an AUTOSAR 4 system description: arxml/system_loader.py:185-287 and 557-636.

Left out: the comments of buses.
-/

namespace Cantools.ArxmlFile

open Kcd (Xml)
open Regex (Chars)
open ArxmlRef (Pos at? createDicts)
open ArxmlScale (FloatRead)

namespace Loader

variable (L : Loader)

/-! ### Buses -/

/-- can/bus.py:8-25: a bus. -/
structure Bus where
  name : String
  baudrate : Option Int
  fdBaudrate : Option Int
  deriving DecidableEq, Repr

/-- system_loader.py:201-244: the bus of a cluster; `none` if it has no variant.  The version of the protocol is looked
up, and not used. -/
def clusterBus (cluster : Pos) : Except Err (Option Bus) := do
  let name ← L.childText cluster ["SHORT-NAME"]
  let variants ← L.children cluster ["CAN-CLUSTER-VARIANTS", "*CAN-CLUSTER-CONDITIONAL"]
  match variants with
  | [] => pure none
  | variant :: _ => do
    let _ ← L.unique variant ["PROTOCOL-VERSION"]
    let baudrate ← L.optInt variant ["BAUDRATE"]
    let fd ← L.optInt variant ["CAN-FD-BAUDRATE"]
    pure (some { name := name, baudrate := baudrate, fdBaudrate := fd })

/-- system_loader.py:191-244: the buses of a package. -/
def packageBuses (package : Pos) : Except Err (List Bus) := do
  let clusters ← L.children package ["ELEMENTS", "*&CAN-CLUSTER"]
  let buses ← clusters.mapM L.clusterBus
  pure (buses.filterMap id)

/-- system_loader.py:180-287 `_load_buses`. -/
def loadBuses : Except Err (List Bus) := do
  let parts ← (subPackages [] L.root).mapM L.packageBuses
  pure parts.flatten

/-! ### End-to-end protection -/

/-- What 600-620 do for one PDU: the messages with the PDU get these properties. -/
structure Protection where
  path : Option Chars
  category : Option String
  dataIds : List Int
  deriving DecidableEq, Repr

/-- system_loader.py:577-607: an `END-TO-END-PROTECTION`. -/
def protectionsOf (e : Pos) : Except Err (List Protection) := do
  match ← L.unique e ["END-TO-END-PROFILE"] with
  | none => pure []
  | some profile => do
    let category ← L.compareText profile ["CATEGORY"]
    let ids ← (← L.children profile ["DATA-IDS", "*DATA-ID"]).mapM L.numberIn
    let pdus ← L.children e ["END-TO-END-PROTECTION-I-SIGNAL-I-PDUS", "*END-TO-END-PROTECTION-I-SIGNAL-I-PDU", "&I-SIGNAL-I-PDU"]
    pure (pdus.map fun p => { path := dictGet? L.refs.pathOf p, category := category, dataIds := ids })

/-- system_loader.py:563-607: the protections of a package. -/
def packageProtections (package : Pos) : Except Err (List Protection) := do
  let es ← L.children package ["ELEMENTS", "*END-TO-END-PROTECTION-SET", "END-TO-END-PROTECTIONS", "*END-TO-END-PROTECTION"]
  let parts ← es.mapM L.protectionsOf
  pure parts.flatten

/-- system_loader.py:557-636 `_load_e2e_properties`: what is to be done, in this order.  (Python does it at once.) -/
def loadProtections : Except Err (List Protection) := do
  let parts ← (subPackages [] L.root).mapM L.packageProtections
  pure parts.flatten

/-- system_loader.py:609-620: the properties of a message after a protection. -/
def Protection.apply (t : Protection) (paths : List (Option Chars)) (length : Nat) (secoc : Option SecOC)
    (e2e : Option EndToEnd) : Option EndToEnd :=
  if t.path ∈ paths then
    some { category := t.category, dataIds := t.dataIds
           payloadLength := match secoc with
             | some s => s.payloadLength
             | none => length }
  else e2e

/-- system_loader.py:604-620: a protection and all messages of a frame; containers are not protected. -/
def Connected.protect (t : Protection) (c : Connected) : Connected :=
  { c with loaded := { c.loaded with
      e2e := if c.loaded.contained.isEmpty then t.apply c.nodes.paths c.loaded.message.length c.loaded.secoc c.loaded.e2e
        else c.loaded.e2e
      contained := List.zipWith (fun (q : Part) (d : MessageNodes) =>
        { q with e2e := t.apply d.paths q.message.length q.secoc q.e2e }) c.loaded.contained c.parts } }

end Loader

/-- system_loader.py:138-184 `load`: the buses, the names of the nodes, and the messages.  (Python loads the buses first.) -/
def loadProtected (F : FloatRead) (root : Xml) (fuel : Nat) (strict : Bool) (sort : SortSignals) :
    Except Err (List Loader.Bus × List String × List Loader.Connected) := do
  let (nodes, ms) ← loadConnected F root fuel strict sort
  let refs ← createDicts root
  let L : Loader := { root := root, refs := refs, F := F }
  let buses ← L.loadBuses
  let ps ← L.loadProtections
  pure (buses, nodes, ps.foldl (fun cs t => cs.map (Loader.Connected.protect t)) ms)

/-- formats/arxml/message_specifics.py:58-61, end_to_end_properties.py:12-36: the properties, as autosar/end_to_end.py sees
them.  Data ids are not negative. -/
def Loader.EndToEnd.asE2E (e : Loader.EndToEnd) : E2E :=
  { dataIds := some (e.dataIds.map Int.toNat), payloadLength := e.payloadLength }

end Cantools.ArxmlFile
