import Verif.Model.ArxmlProtect
import Verif.Spec.ArxmlNodes

/-!
What an AUTOSAR 4 system description says about buses and end-to-end protection (C66).
-/

namespace Cantools.Spec.SystemFile

open Kcd (Xml)
open ArxmlRef (Pos at?)
open ArxmlScale (FloatRead)

/-- A rate that may be missing. -/
def RateAt (F : FloatRead) (root : Xml) (v : Pos) (tag : String) (o : Option Int) : Prop :=
  OptNumberAt F root v [elem tag] (o.map fun i : Int => (i : Rat))

/-- The cluster at `c` is a bus, or it has no variant.  The rates are those of the first variant. -/
inductive BusSays (F : FloatRead) (root : Xml) (c : Pos) : Option ArxmlFile.Loader.Bus → Prop
  | missing {n} (hn : TextAt root c [elem "SHORT-NAME"] n)
      (h : Locate root [elem "CAN-CLUSTER-VARIANTS", elems "CAN-CLUSTER-CONDITIONAL"] [c] []) : BusSays F root c none
  | bus {b v vs w} (hn : TextAt root c [elem "SHORT-NAME"] b.name)
      (h : Locate root [elem "CAN-CLUSTER-VARIANTS", elems "CAN-CLUSTER-CONDITIONAL"] [c] (v :: vs))
      (hw : At root v [elem "PROTOCOL-VERSION"] w)
      (hb : RateAt F root v "BAUDRATE" b.baudrate) (hf : RateAt F root v "CAN-FD-BAUDRATE" b.fdBaudrate) :
      BusSays F root c (some b)

/-- The buses of the clusters in a package. -/
def PackageBuses (F : FloatRead) (root : Xml) (q : Pos) (l : List ArxmlFile.Loader.Bus) : Prop :=
  ∃ cs os, Locate root [elem "ELEMENTS", refs "CAN-CLUSTER"] [q] cs ∧ List.Forall₂ (BusSays F root) cs os ∧ l = os.filterMap id

/-- The buses, in the order of the document. -/
def Buses (F : FloatRead) (root : Xml) (l : List ArxmlFile.Loader.Bus) : Prop :=
  ∃ qs parts, Packages root qs ∧ List.Forall₂ (PackageBuses F root) qs parts ∧ l = parts.flatten

/-- A PDU that is protected: its position, the profile and the data ids. -/
structure ProtectedPdu where
  pdu : Pos
  category : Option String
  dataIds : List Int

/-- The PDUs of the `END-TO-END-PROTECTION` at `e`. -/
inductive E2eSetSays (F : FloatRead) (root : Xml) (e : Pos) : List ProtectedPdu → Prop
  | noProfile (h : At root e [elem "END-TO-END-PROFILE"] none) : E2eSetSays F root e []
  | profile {f c ds ids pdus} (h : At root e [elem "END-TO-END-PROFILE"] (some f)) (hc : OptTextAt root f [elem "CATEGORY"] c)
      (hd : Locate root [elem "DATA-IDS", elems "DATA-ID"] [f] ds)
      (hi : List.Forall₂ (fun p (i : Int) => NumberIn F root p i) ds ids)
      (hp : Locate root [elem "END-TO-END-PROTECTION-I-SIGNAL-I-PDUS", elems "END-TO-END-PROTECTION-I-SIGNAL-I-PDU",
        ref "I-SIGNAL-I-PDU"] [e] pdus) :
      E2eSetSays F root e (pdus.map fun p => { pdu := p, category := c, dataIds := ids })

/-- The protected PDUs of a package. -/
def PackageProtections (F : FloatRead) (root : Xml) (q : Pos) (l : List ProtectedPdu) : Prop :=
  ∃ es parts, Locate root [elem "ELEMENTS", elems "END-TO-END-PROTECTION-SET", elem "END-TO-END-PROTECTIONS",
      elems "END-TO-END-PROTECTION"] [q] es ∧ List.Forall₂ (E2eSetSays F root) es parts ∧ l = parts.flatten

/-- The protected PDUs, in the order of the document. -/
def Protections (F : FloatRead) (root : Xml) (l : List ProtectedPdu) : Prop :=
  ∃ qs parts, Packages root qs ∧ List.Forall₂ (PackageProtections F root) qs parts ∧ l = parts.flatten

/-- The last protection of the PDU at `p` or of a part of it. -/
inductive LastFor (root : Xml) (p : Pos) (l : List ProtectedPdu) : Option ProtectedPdu → Prop
  | none (h : ∀ x ∈ l, ¬ PartOf root p x.pdu) : LastFor root p l none
  | some {a x b} (hl : l = a ++ x :: b) (hx : PartOf root p x.pdu) (hb : ∀ y ∈ b, ¬ PartOf root p y.pdu) :
      LastFor root p l (some x)

/-- The properties that a protection gives to a message with this length, which is secured or not. -/
def ProtectedPdu.properties (x : ProtectedPdu) (length : Nat) (secoc : Option ArxmlFile.Loader.SecOC) : ArxmlFile.Loader.EndToEnd :=
  { category := x.category, dataIds := x.dataIds, payloadLength := (secoc.map (·.payloadLength)).getD length }

end Cantools.Spec.SystemFile
