import Verif.Props.ArxmlNodes
import Verif.Props.ArxmlContainerDoc

/-
C62: a document that meets the hypotheses, and what is false.
-/

namespace Cantools
open Kcd (Xml)
open ArxmlRef (Pos Refs at? createDicts)
open ArxmlScale (FloatRead)
open ArxmlFile
open Loader (Talk MessageNodes Connected)
open Spec Spec.SystemFile

namespace ArxmlFile.NodesExample

theorem toList_inj {α : Type} {a b : α} (h : (some a).toList = [b]) : a = b := (List.cons.inj h).1

open ArxmlRef.Example (leaf all_of_entries)
open ArxmlFile.Example (node named link triggering frame pdu F refsOf write el)

def alternative (pdu code initial : String) : Xml :=
  node "DYNAMIC-PART-ALTERNATIVE"
    [leaf "INITIAL-DYNAMIC-PART" initial, link "I-PDU-REF" "I-SIGNAL-I-PDU" pdu, leaf "SELECTOR-FIELD-CODE" code]

/-- A PDU for an alternative: the selector and a signal. -/
def choice (name signal : String) : Xml :=
  named "I-SIGNAL-I-PDU" name [node "I-SIGNAL-TO-PDU-MAPPINGS"
    [named "I-SIGNAL-TO-I-PDU-MAPPING" "m1" [link "I-SIGNAL-REF" "I-SIGNAL" "/P/Which", leaf "START-POSITION" "0"],
     named "I-SIGNAL-TO-I-PDU-MAPPING" "m2" [link "I-SIGNAL-REF" "I-SIGNAL" signal, leaf "START-POSITION" "8"]], leaf "LENGTH" "2"]

def member (pdu : String) : Xml := node "I-SIGNAL-I-PDU-REF-CONDITIONAL" [link "I-SIGNAL-I-PDU-REF" "I-SIGNAL-I-PDU" pdu]

/-- The frame `F1` has the alternatives `A` and `B`.  The ECU `Front` sends both of them, `Rear` receives `A`.  The frame
`F2` is for network management; `Front` sends it.  `F3` contains `Door`, which `Rear` receives.  `F4` has no PDU. -/
def doc : Xml :=
  node "AUTOSAR" [node "AR-PACKAGES" [named "AR-PACKAGE" "P" [node "ELEMENTS"
    [named "CAN-CLUSTER" "Bus" [node "CAN-CLUSTER-VARIANTS" [node "CAN-CLUSTER-CONDITIONAL" [node "PHYSICAL-CHANNELS"
      [named "CAN-PHYSICAL-CHANNEL" "ch" [node "FRAME-TRIGGERINGS" [triggering "t1" "/P/F1" "19", triggering "t2" "/P/F2" "17",
        triggering "t3" "/P/F3" "18", triggering "t4" "/P/F4" "16"]]]]]],
     frame "F1" "/P/Mux" "MULTIPLEXED-I-PDU" "0",
     frame "F2" "/P/Nm" "NM-PDU" "0",
     named "MULTIPLEXED-I-PDU" "Mux"
      [leaf "SELECTOR-FIELD-LENGTH" "8", leaf "SELECTOR-FIELD-START-POSITION" "0",
       node "DYNAMIC-PARTS" [node "DYNAMIC-PART" [node "DYNAMIC-PART-ALTERNATIVES" [alternative "/P/A" "1" "true", alternative "/P/B" "2" "false"]]],
       leaf "LENGTH" "2"],
     choice "A" "/P/Left",
     choice "B" "/P/Right",
     named "I-SIGNAL" "Left" [leaf "LENGTH" "8"],
     named "I-SIGNAL" "Right" [leaf "LENGTH" "8"],
     named "ECU-INSTANCE" "Front" [node "ASSOCIATED-COM-I-PDU-GROUP-REFS"
      [link "ASSOCIATED-COM-I-PDU-GROUP-REF" "I-SIGNAL-I-PDU-GROUP" "/P/Out"],
      node "COMM-CONTROLLERS" [named "CAN-COMMUNICATION-CONTROLLER" "C" []]],
     named "ECU-INSTANCE" "Rear" [node "ASSOCIATED-COM-I-PDU-GROUP-REFS"
      [link "ASSOCIATED-COM-I-PDU-GROUP-REF" "I-SIGNAL-I-PDU-GROUP" "/P/In"]],
     named "I-SIGNAL-I-PDU-GROUP" "Out" [leaf "COMMUNICATION-DIRECTION" "OUT", node "I-SIGNAL-I-PDUS" [member "/P/A", member "/P/B"]],
     named "I-SIGNAL-I-PDU-GROUP" "In" [leaf "COMMUNICATION-DIRECTION" "IN", node "I-SIGNAL-I-PDUS" [member "/P/A", member "/P/Door"]],
     named "NM-CONFIG" "Nms" [node "NM-CLUSTERS" [named "CAN-NM-CLUSTER" "k" [node "NM-NODES" [named "CAN-NM-NODE" "n"
      [link "CONTROLLER-REF" "CAN-COMMUNICATION-CONTROLLER" "/P/Front/C",
       node "TX-NM-PDU-REFS" [link "TX-NM-PDU-REF" "NM-PDU" "/P/Nm"]]]]]],
     named "NM-PDU" "Nm" [leaf "LENGTH" "2"],
     named "I-SIGNAL" "Which" [leaf "LENGTH" "8"],
     frame "F3" "/P/Box" "CONTAINER-I-PDU" "0",
     named "CONTAINER-I-PDU" "Box" [leaf "LENGTH" "2", leaf "HEADER-TYPE" "SHORT-HEADER", node "CONTAINED-PDU-TRIGGERING-REFS"
      [link "CONTAINED-PDU-TRIGGERING-REF" "PDU-TRIGGERING" "/P/T"]],
     named "PDU-TRIGGERING" "T" [link "I-PDU-REF" "I-SIGNAL-I-PDU" "/P/Door"],
     ContainerExample.part "Door" "/P/Left" "17",
     named "CAN-FRAME" "F4" [leaf "FRAME-LENGTH" "2"]]]]]

/-- The dictionaries for the references of the document. -/
def docRefs : Refs :=
  { refsOf doc with nodeAt :=
    [(['/', 'P'], [0, 0]),
     (['/', 'P', '/', 'B', 'u', 's'], [0, 0, 1, 0]),
     (['/', 'P', '/', 'B', 'u', 's', '/', 'c', 'h'], [0, 0, 1, 0, 1, 0, 0, 0]),
     (['/', 'P', '/', 'B', 'u', 's', '/', 'c', 'h', '/', 't', '1'], [0, 0, 1, 0, 1, 0, 0, 0, 1, 0]),
     (['/', 'P', '/', 'B', 'u', 's', '/', 'c', 'h', '/', 't', '2'], [0, 0, 1, 0, 1, 0, 0, 0, 1, 1]),
     (['/', 'P', '/', 'B', 'u', 's', '/', 'c', 'h', '/', 't', '3'], [0, 0, 1, 0, 1, 0, 0, 0, 1, 2]),
     (['/', 'P', '/', 'B', 'u', 's', '/', 'c', 'h', '/', 't', '4'], [0, 0, 1, 0, 1, 0, 0, 0, 1, 3]),
     (['/', 'P', '/', 'F', '1'], [0, 0, 1, 1]),
     (['/', 'P', '/', 'F', '1', '/', 'm'], [0, 0, 1, 1, 2, 0]),
     (['/', 'P', '/', 'F', '2'], [0, 0, 1, 2]),
     (['/', 'P', '/', 'F', '2', '/', 'm'], [0, 0, 1, 2, 2, 0]),
     (['/', 'P', '/', 'M', 'u', 'x'], [0, 0, 1, 3]),
     (['/', 'P', '/', 'A'], [0, 0, 1, 4]),
     (['/', 'P', '/', 'A', '/', 'm', '1'], [0, 0, 1, 4, 1, 0]),
     (['/', 'P', '/', 'A', '/', 'm', '2'], [0, 0, 1, 4, 1, 1]),
     (['/', 'P', '/', 'B'], [0, 0, 1, 5]),
     (['/', 'P', '/', 'B', '/', 'm', '1'], [0, 0, 1, 5, 1, 0]),
     (['/', 'P', '/', 'B', '/', 'm', '2'], [0, 0, 1, 5, 1, 1]),
     (['/', 'P', '/', 'L', 'e', 'f', 't'], [0, 0, 1, 6]),
     (['/', 'P', '/', 'R', 'i', 'g', 'h', 't'], [0, 0, 1, 7]),
     (['/', 'P', '/', 'F', 'r', 'o', 'n', 't'], [0, 0, 1, 8]),
     (['/', 'P', '/', 'F', 'r', 'o', 'n', 't', '/', 'C'], [0, 0, 1, 8, 2, 0]),
     (['/', 'P', '/', 'R', 'e', 'a', 'r'], [0, 0, 1, 9]),
     (['/', 'P', '/', 'O', 'u', 't'], [0, 0, 1, 10]),
     (['/', 'P', '/', 'I', 'n'], [0, 0, 1, 11]),
     (['/', 'P', '/', 'N', 'm', 's'], [0, 0, 1, 12]),
     (['/', 'P', '/', 'N', 'm', 's', '/', 'k'], [0, 0, 1, 12, 1, 0]),
     (['/', 'P', '/', 'N', 'm', 's', '/', 'k', '/', 'n'], [0, 0, 1, 12, 1, 0, 1, 0]),
     (['/', 'P', '/', 'N', 'm'], [0, 0, 1, 13]),
     (['/', 'P', '/', 'W', 'h', 'i', 'c', 'h'], [0, 0, 1, 14]),
     (['/', 'P', '/', 'F', '3'], [0, 0, 1, 15]),
     (['/', 'P', '/', 'F', '3', '/', 'm'], [0, 0, 1, 15, 2, 0]),
     (['/', 'P', '/', 'B', 'o', 'x'], [0, 0, 1, 16]),
     (['/', 'P', '/', 'T'], [0, 0, 1, 17]),
     (['/', 'P', '/', 'D', 'o', 'o', 'r'], [0, 0, 1, 18]),
     (['/', 'P', '/', 'D', 'o', 'o', 'r', '/', 'm'], [0, 0, 1, 18, 1, 0]),
     (['/', 'P', '/', 'F', '4'], [0, 0, 1, 19])] }

theorem doc_ok : createDicts doc = .ok docRefs := by
  have h : (match createDicts doc with | .ok r => r.nodeAt == docRefs.nodeAt | .error _ => false) = true := by decide +kernel
  have e : docRefs = { refsOf doc with nodeAt := docRefs.nodeAt } := rfl
  rw [e]
  generalize docRefs.nodeAt = x at h
  unfold refsOf
  cases hc : createDicts doc with
  | error e => rw [hc] at h; cases h
  | ok r =>
    rw [hc] at h
    rw [← LawfulBEq.eq_of_beq h]

theorem doc_regular : Regular doc := by
  refine ⟨?_, ?_, ?_⟩
  · apply all_of_entries
    have : ∀ e ∈ ArxmlRef.entries doc, ∀ c ∈ kids e.elem "SHORT-NAME",
        (c.text.any fun t => !t.toList.contains '/') = true := by decide +kernel
    intro e he c hc
    have := this e he c hc
    rw [Option.any_eq_true] at this
    obtain ⟨t, h1, h2⟩ := this
    exact ⟨t, h1, by simpa using h2⟩
  · apply all_of_entries
    have h1 : ∀ e ∈ ArxmlRef.entries doc, e.elem.tag = "AR-PACKAGE" → shortName e.elem ≠ [] ∧
      ∀ e' ∈ ArxmlRef.entries doc, e'.pos <+: e.pos → shortName e'.elem ≠ [] → e'.elem.tag = "AR-PACKAGE" := by
      decide +kernel
    intro e he ht
    refine ⟨(h1 e he ht).1, ?_⟩
    intro q y hq hy
    exact (h1 e he ht).2 ⟨q, y, ArxmlRef.textTo doc q, ArxmlRef.pkgTo doc q⟩ (ArxmlRef.mem_entries.2 ⟨hy, rfl, rfl⟩) hq
  · apply all_of_entries
    have h1 : ∀ e ∈ ArxmlRef.entries doc, e.elem.tag ≠ "REFERENCE-BASE" := by decide +kernel
    exact fun e he ht => absurd ht (h1 e he)

theorem doc_plain : NoStray doc := by
  have h : ∀ e ∈ ArxmlRef.entries doc, ∀ t ∈ plainTags, e.elem.tag ≠ t ++ "-REF" := by decide +kernel
  unfold NoStray
  apply all_of_entries (P := fun _ x => ∀ t ∈ plainTags, x.tag ≠ t ++ "-REF")
  exact h

def locates (bs : Pos) (loc : List LocAtom) (l : List Pos) : Bool :=
  okAtoms (loc.map write) loc && decide (ArxmlRef.getChildren doc (docRefs) [bs] (loc.map write) = .ok l)

theorem located {b : Pos} {loc : List LocAtom} {l : List Pos} (h : locates b loc l = true) : Locate doc loc [b] l := by
  unfold locates at h
  rw [Bool.and_eq_true, decide_eq_true_iff] at h
  obtain ⟨h1, h2⟩ := okAtoms_says h.1
  exact (C53_children_partial doc_regular doc_ok h1 _ _ (ArxmlRef.noStrayAt_of fun a ha hf p x hx => doc_plain p x hx _ (h2 a ha hf))).1 h.2

theorem texts {b p : Pos} {loc : List LocAtom} {t : String} (h : locates b loc [p] = true)
    (ht : ((at? doc p).bind Xml.text) = some t) : TextAt doc b loc t := by
  obtain ⟨x, h1, h2⟩ := Option.bind_eq_some_iff.1 ht
  exact ⟨p, x, located h, h1, h2⟩

/-- The controller of the network management node belongs to `Front`. -/
theorem controller : ControllerOf doc (el 12 [1, 0, 1, 0, 1]) (el 8 []) := by
  refine ⟨_, "/P/Front/C", el 8 [2, 0], rfl, rfl, ⟨_, rfl, by decide +kernel, by decide +kernel⟩, ⟨_, rfl, rfl⟩,
    ⟨_, rfl, by decide +kernel⟩, by decide, by decide, ?_⟩
  rintro q ⟨s, rfl⟩ ⟨t, h⟩ ⟨x, hx, hn⟩
  have e : s ++ t = [2, 0] := by
    rw [List.append_assoc] at h
    exact List.append_cancel_left (as := el 8 []) h
  match s, t, e with
  | [], _, _ => exact .inl (List.append_nil _)
  | [a], _, e =>
    obtain rfl : a = 2 := (List.cons.inj e).1
    obtain rfl := Option.some.inj hx
    exact absurd (by decide +kernel) hn
  | [a, b], _, e =>
    obtain rfl : a = 2 := (List.cons.inj e).1
    obtain rfl : b = 0 := (List.cons.inj (List.cons.inj e).2).1
    exact .inr rfl
  | a :: b :: c :: s, _, e => cases (List.cons.inj (List.cons.inj e).2).2

theorem doc_ecus : EcusRegular doc where
  plain := by
    have h : ∀ e ∈ ArxmlRef.entries doc, e.elem.tag = "ELEMENTS" → ∀ c ∈ e.elem.children, c.tag ≠ "ECU-INSTANCE-REF" := by decide +kernel
    exact all_of_entries (P := fun _ x => x.tag = "ELEMENTS" → ∀ c ∈ x.children, c.tag ≠ "ECU-INSTANCE-REF") h
  bases := by
    have h : ∀ e ∈ ArxmlRef.entries doc, e.elem.tag ≠ "REFERENCE-BASE" := by decide +kernel
    rintro q d p ⟨⟨x, hx, ht, -⟩, -⟩
    exact absurd ht (all_of_entries (P := fun _ x => x.tag ≠ "REFERENCE-BASE") h p x hx)
  pdus := by
    have h : ∀ e ∈ ArxmlRef.entries doc, e.elem.tag ∈ ["I-PDU", "I-SIGNAL-I-PDU", "RX-NM-PDU", "TX-NM-PDU"] → shortName e.elem ≠ [] := by
      decide +kernel
    exact all_of_entries (P := fun _ x => x.tag ∈ ["I-PDU", "I-SIGNAL-I-PDU", "RX-NM-PDU", "TX-NM-PDU"] → shortName x ≠ []) h
  frames := by
    have h : ∀ e ∈ ArxmlRef.entries doc, e.elem.tag ≠ "PDU" := by decide +kernel
    exact all_of_entries (P := fun _ x => x.tag ≠ "PDU") h
  names := by
    have h : ∀ e ∈ ArxmlRef.entries doc, e.elem.tag = "SHORT-NAME" → ∀ c ∈ (e.elem.text.getD "").toList, 33 ≤ c.toNat ∧ c.toNat < 127 := by
      decide +kernel
    rintro e n - ⟨p, x, h1, h2, h3⟩
    obtain ⟨x', hx', ht⟩ := locate_tag (as := []) h1 rfl p (by simp)
    have := all_of_entries (P := fun _ x => x.tag = "SHORT-NAME" → ∀ c ∈ (x.text.getD "").toList, 33 ≤ c.toNat ∧ c.toNat < 127) h p x' hx' ht
    rw [h2] at hx'
    rw [← Option.some.inj hx', h3] at this
    exact this
  controllers := by
    have h : ∀ e ∈ ArxmlRef.entries doc, e.elem.tag = "CONTROLLER-REF" → e.pos = el 12 [1, 0, 1, 0, 1] := by decide +kernel
    rintro m r - h1
    obtain ⟨x, hx, ht⟩ := locate_tag (as := []) h1 rfl r (by simp)
    rw [all_of_entries (P := fun p x => x.tag = "CONTROLLER-REF" → p = el 12 [1, 0, 1, 0, 1]) h r x hx ht]
    exact ⟨_, controller⟩

/-- The positions of the triggerings. -/
def trig (i : Nat) : Pos := el 0 [1, 0, 0, 0, 1, i]

def trigs : List (String × Pos) := [("Bus", trig 0), ("Bus", trig 1), ("Bus", trig 2), ("Bus", trig 3)]

theorem doc_triggerings : Triggerings doc trigs :=
  ⟨[[0, 0]], [trigs], packages_exist doc,
    .cons ⟨[el 0 []], [trigs], located (by decide +kernel),
      .cons ⟨"Bus", [trig 0, trig 1, trig 2, trig 3], texts (p := el 0 [0]) (by decide +kernel) (by decide +kernel),
        located (by decide +kernel), rfl⟩ .nil, rfl⟩ .nil, rfl⟩

/-- The PDUs of the frames. -/
theorem mux_pdu : PduOf doc (trig 0) (some (el 3 [])) := ⟨el 1 [], located (by decide +kernel), located (by decide +kernel)⟩
theorem nm_pdu : PduOf doc (trig 1) (some (el 13 [])) := ⟨el 2 [], located (by decide +kernel), located (by decide +kernel)⟩

abbrev load : Except Err (List String × List Connected) := loadConnected F doc 3 true .default

def nodes : List String := match load with | .ok (ns, _) => ns | .error _ => []
def messages : List Connected := match load with | .ok (_, cs) => cs | .error _ => []

theorem load_is_ok : (match load with | .ok _ => true | .error _ => false) = true := by decide +kernel

theorem loaded : load = .ok (nodes, messages) := by
  have h := load_is_ok
  unfold nodes messages
  cases e : load with
  | error e' => rw [e] at h; cases h
  | ok p => rfl

/-- What the loader makes of the document. -/
theorem messages_are :
    (load.map fun (ns, cs) => (ns, cs.map fun c => (c.loaded.message.signals.map Signal.name, c.nodes.senders, c.nodes.receivers))) =
      .ok (["Front", "Rear"], [(["F1_selector1", "Left", "Right"], ["Front"], [["Rear"], ["Rear"], ["Rear"]]), ([], ["Front"], []),
        ([], [], []), ([], [], [])]) := by decide +kernel

theorem first : ∃ c, messages[0]? = some c ∧ c.loaded.message.signals.map Signal.name = ["F1_selector1", "Left", "Right"] ∧
    c.nodes.senders = ["Front"] ∧ c.nodes.receivers = [["Rear"], ["Rear"], ["Rear"]] := by
  have h := messages_are
  rw [loaded] at h
  obtain ⟨-, h⟩ := Prod.mk.inj (Except.ok.inj h)
  have h := congrArg (·[0]?) h
  rw [List.getElem?_map] at h
  obtain ⟨c, h1, h2⟩ := Option.map_eq_some_iff.1 h
  obtain ⟨h2, h3⟩ := Prod.mk.inj h2
  obtain ⟨h3, h4⟩ := Prod.mk.inj h3
  exact ⟨c, h1, h2, h3, h4⟩

theorem message {k : Nat} (hk : k < 4) : ∃ c, messages[k]? = some c := by
  have h := congrArg (fun x : Except Err _ => (match x with | .ok (_, l) => l.length | .error _ => 0)) messages_are
  rw [loaded] at h
  have h : (messages.map _).length = 4 := h
  rw [List.length_map] at h
  exact ⟨messages[k]'(by omega), List.getElem?_eq_getElem _⟩

theorem package : PackageAt doc [0, 0] := .here ⟨rfl, rfl, by simp⟩ rfl rfl

theorem ecu_at {e : Pos} (h : e ∈ [el 8 [], el 9 []]) : EcuAt doc e :=
  ⟨[0, 0], [el 8 [], el 9 []], package, (ecus_iff (F := F) doc_regular doc_ok doc_plain doc_ecus).1 (by decide +kernel), h⟩

theorem ecus_at (e : Pos) (h : HasTag doc e "ECU-INSTANCE") : EcuAt doc e := by
  have h' : ∀ e ∈ ArxmlRef.entries doc, e.elem.tag = "ECU-INSTANCE" → e.pos ∈ [el 8 [], el 9 []] := by decide +kernel
  obtain ⟨x, hx, ht⟩ := h
  exact ecu_at (all_of_entries (P := fun p x => x.tag = "ECU-INSTANCE" → p ∈ [el 8 [], el 9 []]) h' e x hx ht)

/-- `Rear` receives `A`. -/
theorem rear_receives : Receives doc "Rear" (el 4 []) :=
  .group (ecu_at (e := el 9 []) (by simp)) (texts (p := el 9 [0]) (by decide +kernel) (by decide +kernel))
    ⟨[el 11 []], el 11 [], [el 4 [], el 18 []], located (by decide +kernel), by simp,
      texts (p := el 11 [1]) (by decide +kernel) (by decide +kernel), located (by decide +kernel), by simp⟩

/-- `Front` sends the PDU for network management. -/
theorem front_sends : Sends doc "Front" (el 13 []) :=
  .management (m := el 12 [1, 0, 1, 0]) (e := el 8 []) (ps := [el 13 []])
    ⟨[0, 0], [el 12 [1, 0]], el 12 [1, 0], [el 12 [1, 0, 1, 0]], package, located (by decide +kernel), by simp,
      located (by decide +kernel), by simp⟩
    ⟨el 12 [1, 0, 1, 0, 1], located (by decide +kernel), controller⟩
    (texts (p := el 8 [0]) (by decide +kernel) (by decide +kernel)) (located (by decide +kernel)) (by simp)

/-- `A` is a part of the multiplexed PDU. -/
theorem mux_made : PartOf doc (el 3 []) (el 4 []) :=
  .single (.alternative (as := [el 3 [3, 0, 0, 0], el 3 [3, 0, 0, 1]]) (a := el 3 [3, 0, 0, 0]) ⟨_, rfl, rfl⟩
    (located (by decide +kernel)) (by simp) (located (by decide +kernel)))

/-- `Rear` receives no other PDU. -/
theorem rear_only {q : Pos} (h : Receives doc "Rear" q) : q = el 4 [] ∨ q = el 18 [] := by
  have h1 : (Loader.mk doc docRefs F).loadTalks = .ok
      [⟨true, "Front", some "/P/A".toList⟩, ⟨true, "Front", some "/P/B".toList⟩, ⟨false, "Rear", some "/P/A".toList⟩,
       ⟨false, "Rear", some "/P/Door".toList⟩, ⟨true, "Front", some "/P/Nm".toList⟩] := by decide +kernel
  have h2 := (loadTalks_says doc_regular doc_ok doc_plain doc_ecus h1 ⟨false, "Rear", some (pathText (namesTo doc q))⟩).2 ⟨q, h, rfl⟩
  have hn : Named doc q := does_named doc_ecus (s := false) h
  have key : ∀ {i : Nat} {t : String}, Named doc (el i []) → pathText (namesTo doc (el i [])) = t.toList →
      pathText (namesTo doc q) = t.toList → q = el i [] := fun a b c => same_path doc_regular doc_ok doc_plain hn a (c.trans b.symm)
  simp only [List.mem_cons, List.not_mem_nil, or_false, Talk.mk.injEq, Bool.false_eq_true, false_and, false_or, true_and,
    Option.some.injEq] at h2
  rcases h2 with h2 | h2
  · exact .inl (key ⟨_, rfl, by decide +kernel⟩ (by decide +kernel) h2)
  · exact .inr (key ⟨_, rfl, by decide +kernel⟩ (by decide +kernel) h2)

/-- Neither `A` nor `Door` has the signal `Right`. -/
theorem no_right {q m s : Pos} {ms : List Pos} (hq : q = el 4 [] ∨ q = el 18 [])
    (h1 : Locate doc [elem "I-SIGNAL-TO-PDU-MAPPINGS", refs "I-SIGNAL-TO-I-PDU-MAPPING"] [q] ms) (hm : m ∈ ms)
    (h2 : At doc m [ref "I-SIGNAL"] (some s)) : ¬ NameAt doc s "Right" := by
  have hs : s = el 6 [] ∨ s = el 14 [] := by
    rcases hq with rfl | rfl
    · obtain rfl := locate_unique doc_regular doc_ok doc_plain F (strs := ["I-SIGNAL-TO-PDU-MAPPINGS", "*&I-SIGNAL-TO-I-PDU-MAPPING"])
        (by decide +kernel) h1 (located (l := [el 4 [1, 0], el 4 [1, 1]]) (by decide +kernel))
      simp only [List.mem_cons, List.not_mem_nil, or_false] at hm
      rcases hm with rfl | rfl
      · exact .inr ((toList_inj (locate_unique doc_regular doc_ok doc_plain F (strs := ["&I-SIGNAL"]) (by decide +kernel) h2
          (located (l := [el 14 []]) (by decide +kernel)))))
      · exact .inl ((toList_inj (locate_unique doc_regular doc_ok doc_plain F (strs := ["&I-SIGNAL"]) (by decide +kernel) h2
          (located (l := [el 6 []]) (by decide +kernel)))))
    · obtain rfl := locate_unique doc_regular doc_ok doc_plain F (strs := ["I-SIGNAL-TO-PDU-MAPPINGS", "*&I-SIGNAL-TO-I-PDU-MAPPING"])
        (by decide +kernel) h1 (located (l := [el 18 [1, 0]]) (by decide +kernel))
      obtain rfl := List.mem_singleton.1 hm
      exact .inl ((toList_inj (locate_unique doc_regular doc_ok doc_plain F (strs := ["&I-SIGNAL"]) (by decide +kernel) h2
        (located (l := [el 6 []]) (by decide +kernel)))))
  rintro ⟨p, x, h3, h4, h5⟩
  have key : ∀ {i : Nat}, s = el i [] → locates (el i []) [elem "SHORT-NAME"] [el i [0]] = true →
      ((at? doc (el i [0])).bind Xml.text) ≠ some "Right" → False := by
    rintro i rfl k1 k2
    obtain rfl := toList_inj (locate_unique doc_regular doc_ok doc_plain F (strs := ["SHORT-NAME"]) (by decide +kernel) h3 (located k1))
    exact k2 (by rw [h4]; exact h5)
  rcases hs with hs | hs
  · exact key hs (by decide +kernel) (by decide +kernel)
  · exact key hs (by decide +kernel) (by decide +kernel)

end ArxmlFile.NodesExample

open ArxmlFile.NodesExample
open ArxmlFile.Example (F el)

/-! ### The hypotheses of C62 can be met -/

example : loadDatabase F doc 3 true .default = .ok (messages.map (·.loaded)) ∧ messages.length = 4 :=
  C62_messages doc_regular doc_plain doc_triggerings loaded

example : ∃ c, messages[0]? = some c ∧ NamesAre c.nodes.senders (fun n => ∃ q, PartOf doc (el 3 []) q ∧ Sends doc n q) ∧
    c.nodes.senders = ["Front"] := by
  obtain ⟨c, hc, -, h, -⟩ := first
  exact ⟨c, hc, (C62_nodes_partial doc_regular doc_plain doc_ecus doc_triggerings loaded (k := 0) rfl hc mux_pdu).1, h⟩

/-- `Rear` is a receiver of each signal of the first message. -/
example : ∃ c, messages[0]? = some c ∧ c.nodes.receivers.length = 3 ∧ ∀ l ∈ c.nodes.receivers, "Rear" ∈ l := by
  obtain ⟨c, hc, h1, -⟩ := first
  obtain ⟨-, h2, h3⟩ := C62_nodes_partial doc_regular doc_plain doc_ecus doc_triggerings loaded (k := 0) rfl hc mux_pdu
  refine ⟨c, hc, ?_, fun l hl => ((h3 l hl).2 "Rear").2 ⟨_, mux_made, rear_receives⟩⟩
  rw [h2]
  simpa using congrArg List.length h1

/-- `Front` is a sender of the second message. -/
example : ∃ c, messages[1]? = some c ∧ "Front" ∈ c.nodes.senders := by
  obtain ⟨c, hc⟩ := message (k := 1) (by decide)
  exact ⟨c, hc, ((C62_nodes_partial doc_regular doc_plain doc_ecus doc_triggerings loaded (k := 1) rfl hc nm_pdu).1.2 _).2
    ⟨_, .refl, front_sends⟩⟩

example : ∃ c, messages[3]? = some c ∧ c.nodes.senders = [] := by
  obtain ⟨c, hc⟩ := message (k := 3) (by decide)
  exact ⟨c, hc, (C62_without_pdu doc_regular doc_plain doc_ecus doc_triggerings loaded (k := 3) rfl hc
    ⟨el 19 [], located (by decide +kernel), located (by decide +kernel)⟩).1⟩

example : ∃ c, messages[2]? = some c ∧ c.parts.length = 1 := by
  obtain ⟨c, hc⟩ := message (k := 2) (by decide)
  exact ⟨c, hc, (C62_parts_partial doc_regular doc_plain doc_ecus doc_triggerings loaded (k := 2) rfl hc (p := el 16 [])
    ⟨el 15 [], located (by decide +kernel), located (by decide +kernel)⟩ ⟨_, rfl, rfl⟩
    (texts (p := el 16 [2]) (by decide +kernel) (by decide +kernel)) (qs := [el 18 []]) (located (by decide +kernel))).1⟩

example : EcuNames doc nodes := C62_ecus doc_regular doc_plain doc_ecus doc_triggerings loaded

example : ∃ c, messages[0]? = some c ∧ ∀ n ∈ c.nodes.senders, n ∈ nodes := by
  obtain ⟨c, hc, -⟩ := first
  exact ⟨c, hc, (C62_known doc_regular doc_plain doc_ecus doc_triggerings loaded ecus_at (k := 0) rfl hc).1⟩

example : ∃ c, messages[0]? = some c ∧ "Rear" ∈ c.receivers := by
  obtain ⟨c, hc, h, -⟩ := first
  refine ⟨c, hc, (C62_receivers doc_regular doc_plain doc_ecus doc_triggerings loaded (k := 0) rfl hc mux_pdu "Rear").2 ?_
    ⟨_, mux_made, rear_receives⟩⟩
  intro e
  rw [e] at h
  cases h

/-! ### What is false -/

/-- A signal can have a receiver that does not receive any PDU with this signal. -/
theorem C62_alternative_fails : ¬ ∀ (F : FloatRead) (root : Xml) (trigs : List (String × Pos)) (fuel : Nat) (ns : List String)
    (cs : List Connected) (c : Connected), Regular root → NoStray root → EcusRegular root → Triggerings root trigs →
    loadConnected F root fuel true .default = .ok (ns, cs) → c ∈ cs →
    ∀ (k : Nat) (s : Signal) (l : List String) (n : String), c.loaded.message.signals[k]? = some s → c.nodes.receivers[k]? = some l → n ∈ l →
      ∃ q ms m p, Receives root n q ∧ Locate root [elem "I-SIGNAL-TO-PDU-MAPPINGS", refs "I-SIGNAL-TO-I-PDU-MAPPING"] [q] ms ∧ m ∈ ms ∧
        At root m [ref "I-SIGNAL"] (some p) ∧ NameAt root p s.name := by
  intro h
  obtain ⟨c, hc, h1, -, h3⟩ := first
  have h1 := congrArg (·[2]?) h1
  rw [List.getElem?_map] at h1
  obtain ⟨s, h4, h5⟩ := Option.map_eq_some_iff.1 h1
  obtain ⟨q, ms, m, p, k1, k2, k3, k4, k5⟩ := h F doc trigs 3 nodes messages c doc_regular doc_plain doc_ecus doc_triggerings loaded
    (List.mem_of_getElem? hc) 2 s ["Rear"] "Rear" h4 (by rw [h3]; rfl) (by simp)
  rw [h5] at k5
  exact no_right (rear_only k1) k2 k3 k4 k5

end Cantools
