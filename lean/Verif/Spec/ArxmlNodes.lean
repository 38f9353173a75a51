import Verif.Model.ArxmlNodes
import Verif.Spec.ArxmlFile
import Mathlib.Logic.Relation

/-!
What an AUTOSAR 4 system description says about the ECUs that send and receive PDUs (C62).
-/

namespace Cantools.Spec.SystemFile

open Kcd (Xml)
open ArxmlRef (Pos at?)

/-- The alternatives of a multiplexed PDU. -/
def alternatives : List LocAtom :=
  [elem "DYNAMIC-PARTS", elems "DYNAMIC-PART", elem "DYNAMIC-PART-ALTERNATIVES", elems "DYNAMIC-PART-ALTERNATIVE"]

/-- The references to the static parts of a multiplexed PDU. -/
def staticParts : List LocAtom := [elem "STATIC-PARTS", elems "STATIC-PART", elem "I-PDU-REF"]

/-- The PDUs in a container. -/
def containedPdus : List LocAtom :=
  [elem "CONTAINED-PDU-TRIGGERING-REFS", refs "CONTAINED-PDU-TRIGGERING", ref "I-PDU"]

/-- The PDU at `p` is made of the PDU at `q`, among others. -/
inductive MadeOf (root : Xml) (p : Pos) : Pos → Prop
  | payload {q} (ht : HasTag root p "SECURED-I-PDU") (h : At root p [ref "PAYLOAD", ref "I-PDU"] (some q)) : MadeOf root p q
  | alternative {as a q} (ht : HasTag root p "MULTIPLEXED-I-PDU") (hl : Locate root alternatives [p] as) (ha : a ∈ as)
      (h : At root a [ref "I-PDU"] (some q)) : MadeOf root p q
  | static {rs r q} (ht : HasTag root p "MULTIPLEXED-I-PDU") (hl : Locate root staticParts [p] rs) (hr : r ∈ rs)
      (h : RefLeads root p r q) : MadeOf root p q
  | contained {qs q} (ht : HasTag root p "CONTAINER-I-PDU") (hh : TextAt root p [elem "HEADER-TYPE"] "SHORT-HEADER")
      (hl : Locate root containedPdus [p] qs) (hq : q ∈ qs) : MadeOf root p q

/-- The PDU at `q` is the PDU at `p` or a part of it. -/
def PartOf (root : Xml) (p q : Pos) : Prop := Relation.ReflTransGen (MadeOf root) p q

/-- An ECU, in a package. -/
def EcuAt (root : Xml) (e : Pos) : Prop :=
  ∃ q es, PackageAt root q ∧ Locate root [elem "ELEMENTS", elems "ECU-INSTANCE"] [q] es ∧ e ∈ es

def NameAt (root : Xml) (e : Pos) (n : String) : Prop := TextAt root e [elem "SHORT-NAME"] n

/-- The ECU at `e` has a group with the PDU at `p`, with this direction. -/
def GroupHas (root : Xml) (e : Pos) (direction : String) (p : Pos) : Prop :=
  ∃ gs g ps, Locate root [elem "ASSOCIATED-COM-I-PDU-GROUP-REFS", refs "ASSOCIATED-COM-I-PDU-GROUP"] [e] gs ∧ g ∈ gs ∧
    TextAt root g [elem "COMMUNICATION-DIRECTION"] direction ∧
    Locate root [elem "I-SIGNAL-I-PDUS", elems "I-SIGNAL-I-PDU-REF-CONDITIONAL", ref "I-SIGNAL-I-PDU"] [g] ps ∧ p ∈ ps

/-- A network management node, in a cluster. -/
def NmNodeAt (root : Xml) (m : Pos) : Prop :=
  ∃ q cs c ms, PackageAt root q ∧
    Locate root [elem "ELEMENTS", elems "NM-CONFIG", elem "NM-CLUSTERS", elems "CAN-NM-CLUSTER"] [q] cs ∧ c ∈ cs ∧
    Locate root [elem "NM-NODES", elems "CAN-NM-NODE"] [c] ms ∧ m ∈ ms

/-- The element at `p` has a name. -/
def Named (root : Xml) (p : Pos) : Prop := ∃ x, at? root p = some x ∧ shortName x ≠ []

/-- The element at `r` refers, by an absolute path, to a controller of the ECU at `e`: the ECU is the closest element with a
name around the controller. -/
def ControllerOf (root : Xml) (r e : Pos) : Prop :=
  ∃ x t c, at? root r = some x ∧ x.text = some t ∧ HasPath root c t.toList ∧ HasTag root e "ECU-INSTANCE" ∧
    Named root e ∧ e <+: c ∧ e ≠ c ∧ ∀ q, e <+: q → q <+: c → Named root q → q = e ∨ q = c

/-- The network management node at `m` is the one of the ECU at `e`. -/
def NmNodeOf (root : Xml) (m e : Pos) : Prop := ∃ r, At root m [elem "CONTROLLER-REF"] (some r) ∧ ControllerOf root r e

/-- The ECU with the name `n` sends the PDU at `p`. -/
inductive Sends (root : Xml) (n : String) (p : Pos) : Prop
  | group {e} (he : EcuAt root e) (hn : NameAt root e n) (h : GroupHas root e "OUT" p) : Sends root n p
  | management {m e ps} (hm : NmNodeAt root m) (he : NmNodeOf root m e) (hn : NameAt root e n)
      (h : Locate root [elem "TX-NM-PDU-REFS", refs "TX-NM-PDU"] [m] ps) (hp : p ∈ ps) : Sends root n p

/-- The ECU with the name `n` receives the PDU at `p`. -/
inductive Receives (root : Xml) (n : String) (p : Pos) : Prop
  | group {e} (he : EcuAt root e) (hn : NameAt root e n) (h : GroupHas root e "IN" p) : Receives root n p
  | management {m e ps} (hm : NmNodeAt root m) (he : NmNodeOf root m e) (hn : NameAt root e n)
      (h : Locate root [elem "RX-NM-PDU-REFS", refs "RX-NM-PDU"] [m] ps) (hp : p ∈ ps) : Receives root n p

/-- What the schema guarantees about ECUs and PDUs: names of ECUs consist of letters and the like, PDUs have names,
frames refer to them, controllers belong to ECUs, and reference bases are absolute.  References to ECUs are not among the elements of packages. -/
structure EcusRegular (root : Xml) : Prop where
  plain : ∀ p x, at? root p = some x → x.tag = "ELEMENTS" → ∀ c ∈ x.children, c.tag ≠ "ECU-INSTANCE-REF"
  bases : ∀ q d p, Declares root q d p → d.target.head? = some '/'
  pdus : ∀ p x, at? root p = some x → x.tag ∈ ["I-PDU", "I-SIGNAL-I-PDU", "RX-NM-PDU", "TX-NM-PDU"] → shortName x ≠ []
  frames : ∀ p x, at? root p = some x → x.tag ≠ "PDU"
  names : ∀ e n, EcuAt root e → NameAt root e n → ∀ c ∈ n.toList, 33 ≤ c.toNat ∧ c.toNat < 127
  controllers : ∀ m r, NmNodeAt root m → At root m [elem "CONTROLLER-REF"] (some r) → ∃ e, ControllerOf root r e

/-- The PDU of the frame of a triggering, if it has one. -/
def PduOf (root : Xml) (trig : Pos) (o : Option Pos) : Prop :=
  ∃ f, At root trig [ref "FRAME"] (some f) ∧
    At root f [elem "PDU-TO-FRAME-MAPPINGS", ref "PDU-TO-FRAME-MAPPING", ref "PDU"] o

/-- The names of the ECUs of a package. -/
def PackageEcus (root : Xml) (q : Pos) (ns : List String) : Prop :=
  ∃ es, Locate root [elem "ELEMENTS", elems "ECU-INSTANCE"] [q] es ∧ List.Forall₂ (NameAt root) es ns

/-- The names of all ECUs, in the order of the document. -/
def EcuNames (root : Xml) (ns : List String) : Prop :=
  ∃ qs parts, Packages root qs ∧ List.Forall₂ (PackageEcus root) qs parts ∧ ns = parts.flatten

/-- The names of the ECUs with `P`, each of them once. -/
def NamesAre (l : List String) (P : String → Prop) : Prop := l.Nodup ∧ ∀ n, n ∈ l ↔ P n

end Cantools.Spec.SystemFile
