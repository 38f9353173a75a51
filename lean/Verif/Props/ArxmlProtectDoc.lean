import Verif.Props.ArxmlProtect
import Verif.Props.ArxmlNodesDoc

/-
C66: a document that meets the hypotheses, and what is false.
-/

namespace Cantools
open Kcd (Xml)
open ArxmlRef (Pos Refs at? createDicts)
open ArxmlScale (FloatRead)
open ArxmlFile
open Loader (Bus Protection MessageNodes Connected)
open Spec Spec.SystemFile

namespace ArxmlFile.ProtectExample

open ArxmlRef.Example (leaf all_of_entries)
open ArxmlFile.Example (node named link F refsOf write el n17 n18 n200 n4)

/-- The frame `F1` of 8 bytes has the PDU `P1` of 4 bytes, which has two protections.  `F2` contains `Door`, which has one.
`F3` has no PDU, and the cluster `Idle` has no variant. -/
def doc : Xml :=
  node "AUTOSAR" [node "AR-PACKAGES" [named "AR-PACKAGE" "P" [node "ELEMENTS" [named "CAN-CLUSTER" "Bus" [node "CAN-CLUSTER-VARIANTS" [node "CAN-CLUSTER-CONDITIONAL" [leaf "BAUDRATE" "200",
         node "PHYSICAL-CHANNELS" [named "CAN-PHYSICAL-CHANNEL" "ch" [node "FRAME-TRIGGERINGS" [named "CAN-FRAME-TRIGGERING" "t1" [link "FRAME-REF" "CAN-FRAME" "/P/F1", leaf "CAN-ADDRESSING-MODE" "EXTENDED", leaf "IDENTIFIER" "17"],
            named "CAN-FRAME-TRIGGERING" "t2" [link "FRAME-REF" "CAN-FRAME" "/P/F2", leaf "CAN-ADDRESSING-MODE" "EXTENDED", leaf "IDENTIFIER" "18"],
            named "CAN-FRAME-TRIGGERING" "t3" [link "FRAME-REF" "CAN-FRAME" "/P/F3", leaf "CAN-ADDRESSING-MODE" "EXTENDED", leaf "IDENTIFIER" "19"]]]]]]],
      named "CAN-CLUSTER" "Idle" [],
      named "CAN-FRAME" "F1" [leaf "FRAME-LENGTH" "8",
       node "PDU-TO-FRAME-MAPPINGS" [named "PDU-TO-FRAME-MAPPING" "m" [link "PDU-REF" "I-SIGNAL-I-PDU" "/P/P1", leaf "START-POSITION" "0"]]],
      named "I-SIGNAL-I-PDU" "P1" [node "I-SIGNAL-TO-PDU-MAPPINGS" [named "I-SIGNAL-TO-I-PDU-MAPPING" "m" [link "I-SIGNAL-REF" "I-SIGNAL" "/P/Sig", leaf "START-POSITION" "16"]],
       leaf "LENGTH" "4"],
      named "I-SIGNAL" "Sig" [leaf "LENGTH" "8"],
      named "CAN-FRAME" "F2" [leaf "FRAME-LENGTH" "8",
       node "PDU-TO-FRAME-MAPPINGS" [named "PDU-TO-FRAME-MAPPING" "m" [link "PDU-REF" "CONTAINER-I-PDU" "/P/Box", leaf "START-POSITION" "0"]]],
      named "CONTAINER-I-PDU" "Box" [leaf "LENGTH" "8",
       leaf "HEADER-TYPE" "SHORT-HEADER",
       node "CONTAINED-PDU-TRIGGERING-REFS" [link "CONTAINED-PDU-TRIGGERING-REF" "PDU-TRIGGERING" "/P/T"]],
      named "PDU-TRIGGERING" "T" [link "I-PDU-REF" "I-SIGNAL-I-PDU" "/P/Door"],
      named "I-SIGNAL-I-PDU" "Door" [node "I-SIGNAL-TO-PDU-MAPPINGS" [named "I-SIGNAL-TO-I-PDU-MAPPING" "m" [link "I-SIGNAL-REF" "I-SIGNAL" "/P/Sig", leaf "START-POSITION" "0"]],
       leaf "LENGTH" "4",
       node "CONTAINED-I-PDU-PROPS" [leaf "HEADER-ID-SHORT-HEADER" "17"]],
      named "CAN-FRAME" "F3" [leaf "FRAME-LENGTH" "2"],
      named "END-TO-END-PROTECTION-SET" "Set" [node "END-TO-END-PROTECTIONS" [named "END-TO-END-PROTECTION" "e1" [node "END-TO-END-PROFILE" [leaf "CATEGORY" "PROFILE_05",
          node "DATA-IDS" [leaf "DATA-ID" "17"]],
         node "END-TO-END-PROTECTION-I-SIGNAL-I-PDUS" [node "END-TO-END-PROTECTION-I-SIGNAL-I-PDU" [link "I-SIGNAL-I-PDU-REF" "I-SIGNAL-I-PDU" "/P/P1"]]],
        named "END-TO-END-PROTECTION" "e2" [node "END-TO-END-PROFILE" [leaf "CATEGORY" "PROFILE_05",
          node "DATA-IDS" [leaf "DATA-ID" "18"]],
         node "END-TO-END-PROTECTION-I-SIGNAL-I-PDUS" [node "END-TO-END-PROTECTION-I-SIGNAL-I-PDU" [link "I-SIGNAL-I-PDU-REF" "I-SIGNAL-I-PDU" "/P/P1"],
          node "END-TO-END-PROTECTION-I-SIGNAL-I-PDU" [link "I-SIGNAL-I-PDU-REF" "I-SIGNAL-I-PDU" "/P/Door"]]],
        named "END-TO-END-PROTECTION" "e3" [node "END-TO-END-PROTECTION-I-SIGNAL-I-PDUS" [node "END-TO-END-PROTECTION-I-SIGNAL-I-PDU" [link "I-SIGNAL-I-PDU-REF" "I-SIGNAL-I-PDU" "/P/Door"]]]]]]]]]

/-- The dictionaries for the references of the document. -/
def docRefs : Refs :=
  { refsOf doc with nodeAt :=
    [(['/', 'P'], [0, 0]),
     (['/', 'P', '/', 'B', 'u', 's'], [0, 0, 1, 0]),
     (['/', 'P', '/', 'B', 'u', 's', '/', 'c', 'h'], [0, 0, 1, 0, 1, 0, 1, 0]),
     (['/', 'P', '/', 'B', 'u', 's', '/', 'c', 'h', '/', 't', '1'], [0, 0, 1, 0, 1, 0, 1, 0, 1, 0]),
     (['/', 'P', '/', 'B', 'u', 's', '/', 'c', 'h', '/', 't', '2'], [0, 0, 1, 0, 1, 0, 1, 0, 1, 1]),
     (['/', 'P', '/', 'B', 'u', 's', '/', 'c', 'h', '/', 't', '3'], [0, 0, 1, 0, 1, 0, 1, 0, 1, 2]),
     (['/', 'P', '/', 'I', 'd', 'l', 'e'], [0, 0, 1, 1]),
     (['/', 'P', '/', 'F', '1'], [0, 0, 1, 2]),
     (['/', 'P', '/', 'F', '1', '/', 'm'], [0, 0, 1, 2, 2, 0]),
     (['/', 'P', '/', 'P', '1'], [0, 0, 1, 3]),
     (['/', 'P', '/', 'P', '1', '/', 'm'], [0, 0, 1, 3, 1, 0]),
     (['/', 'P', '/', 'S', 'i', 'g'], [0, 0, 1, 4]),
     (['/', 'P', '/', 'F', '2'], [0, 0, 1, 5]),
     (['/', 'P', '/', 'F', '2', '/', 'm'], [0, 0, 1, 5, 2, 0]),
     (['/', 'P', '/', 'B', 'o', 'x'], [0, 0, 1, 6]),
     (['/', 'P', '/', 'T'], [0, 0, 1, 7]),
     (['/', 'P', '/', 'D', 'o', 'o', 'r'], [0, 0, 1, 8]),
     (['/', 'P', '/', 'D', 'o', 'o', 'r', '/', 'm'], [0, 0, 1, 8, 1, 0]),
     (['/', 'P', '/', 'F', '3'], [0, 0, 1, 9]),
     (['/', 'P', '/', 'S', 'e', 't'], [0, 0, 1, 10]),
     (['/', 'P', '/', 'S', 'e', 't', '/', 'e', '1'], [0, 0, 1, 10, 1, 0]),
     (['/', 'P', '/', 'S', 'e', 't', '/', 'e', '2'], [0, 0, 1, 10, 1, 1]),
     (['/', 'P', '/', 'S', 'e', 't', '/', 'e', '3'], [0, 0, 1, 10, 1, 2])] }

theorem doc_ok : createDicts doc = .ok docRefs := by
  have h : (match createDicts doc with | .ok r => r.nodeAt == docRefs.nodeAt | .error _ => false) = true := by decide +kernel
  have e : docRefs = { refsOf doc with nodeAt := docRefs.nodeAt } := rfl
  rw [e]
  generalize docRefs.nodeAt = x at h
  unfold refsOf
  cases hc : createDicts doc with
  | error e => rw [hc] at h; cases h
  | ok r =>
    rw [hc] at h
    rw [← LawfulBEq.eq_of_beq h]

theorem doc_regular : Regular doc := by
  refine ⟨?_, ?_, ?_⟩
  · apply all_of_entries
    have : ∀ e ∈ ArxmlRef.entries doc, ∀ c ∈ kids e.elem "SHORT-NAME",
        (c.text.any fun t => !t.toList.contains '/') = true := by decide +kernel
    intro e he c hc
    have := this e he c hc
    rw [Option.any_eq_true] at this
    obtain ⟨t, h1, h2⟩ := this
    exact ⟨t, h1, by simpa using h2⟩
  · apply all_of_entries
    have h1 : ∀ e ∈ ArxmlRef.entries doc, e.elem.tag = "AR-PACKAGE" → shortName e.elem ≠ [] ∧
      ∀ e' ∈ ArxmlRef.entries doc, e'.pos <+: e.pos → shortName e'.elem ≠ [] → e'.elem.tag = "AR-PACKAGE" := by
      decide +kernel
    intro e he ht
    refine ⟨(h1 e he ht).1, ?_⟩
    intro q y hq hy
    exact (h1 e he ht).2 ⟨q, y, ArxmlRef.textTo doc q, ArxmlRef.pkgTo doc q⟩ (ArxmlRef.mem_entries.2 ⟨hy, rfl, rfl⟩) hq
  · apply all_of_entries
    have h1 : ∀ e ∈ ArxmlRef.entries doc, e.elem.tag ≠ "REFERENCE-BASE" := by decide +kernel
    exact fun e he ht => absurd ht (h1 e he)

theorem doc_plain : NoStray doc := by
  have h : ∀ e ∈ ArxmlRef.entries doc, ∀ t ∈ plainTags, e.elem.tag ≠ t ++ "-REF" := by decide +kernel
  unfold NoStray
  apply all_of_entries (P := fun _ x => ∀ t ∈ plainTags, x.tag ≠ t ++ "-REF")
  exact h

def locates (bs : Pos) (loc : List LocAtom) (l : List Pos) : Bool :=
  okAtoms (loc.map write) loc && decide (ArxmlRef.getChildren doc (docRefs) [bs] (loc.map write) = .ok l)

theorem located {b : Pos} {loc : List LocAtom} {l : List Pos} (h : locates b loc l = true) : Locate doc loc [b] l := by
  unfold locates at h
  rw [Bool.and_eq_true, decide_eq_true_iff] at h
  obtain ⟨h1, h2⟩ := okAtoms_says h.1
  exact (C53_children_partial doc_regular doc_ok h1 _ _ (ArxmlRef.noStrayAt_of fun a ha hf p x hx => doc_plain p x hx _ (h2 a ha hf))).1 h.2

theorem texts {b p : Pos} {loc : List LocAtom} {t : String} (h : locates b loc [p] = true)
    (ht : ((at? doc p).bind Xml.text) = some t) : TextAt doc b loc t := by
  obtain ⟨x, h1, h2⟩ := Option.bind_eq_some_iff.1 ht
  exact ⟨p, x, located h, h1, h2⟩

theorem doc_ecus : EcusRegular doc where
  plain := by
    have h : ∀ e ∈ ArxmlRef.entries doc, e.elem.tag = "ELEMENTS" → ∀ c ∈ e.elem.children, c.tag ≠ "ECU-INSTANCE-REF" := by decide +kernel
    exact all_of_entries (P := fun _ x => x.tag = "ELEMENTS" → ∀ c ∈ x.children, c.tag ≠ "ECU-INSTANCE-REF") h
  bases := by
    have h : ∀ e ∈ ArxmlRef.entries doc, e.elem.tag ≠ "REFERENCE-BASE" := by decide +kernel
    rintro q d p ⟨⟨x, hx, ht, -⟩, -⟩
    exact absurd ht (all_of_entries (P := fun _ x => x.tag ≠ "REFERENCE-BASE") h p x hx)
  pdus := by
    have h : ∀ e ∈ ArxmlRef.entries doc, e.elem.tag ∈ ["I-PDU", "I-SIGNAL-I-PDU", "RX-NM-PDU", "TX-NM-PDU"] → shortName e.elem ≠ [] := by
      decide +kernel
    exact all_of_entries (P := fun _ x => x.tag ∈ ["I-PDU", "I-SIGNAL-I-PDU", "RX-NM-PDU", "TX-NM-PDU"] → shortName x ≠ []) h
  frames := by
    have h : ∀ e ∈ ArxmlRef.entries doc, e.elem.tag ≠ "PDU" := by decide +kernel
    exact all_of_entries (P := fun _ x => x.tag ≠ "PDU") h
  names := by
    have h : ∀ e ∈ ArxmlRef.entries doc, e.elem.tag = "SHORT-NAME" → ∀ c ∈ (e.elem.text.getD "").toList, 33 ≤ c.toNat ∧ c.toNat < 127 := by
      decide +kernel
    rintro e n - ⟨p, x, h1, h2, h3⟩
    obtain ⟨x', hx', ht⟩ := locate_tag (as := []) h1 rfl p (by simp)
    have := all_of_entries (P := fun _ x => x.tag = "SHORT-NAME" → ∀ c ∈ (x.text.getD "").toList, 33 ≤ c.toNat ∧ c.toNat < 127) h p x' hx' ht
    rw [h2] at hx'
    rw [← Option.some.inj hx', h3] at this
    exact this
  controllers := by
    have h : ∀ e ∈ ArxmlRef.entries doc, e.elem.tag ≠ "CONTROLLER-REF" := by decide +kernel
    rintro m r - h1
    obtain ⟨x, hx, ht⟩ := locate_tag (as := []) h1 rfl r (by simp)
    exact absurd ht (all_of_entries (P := fun _ x => x.tag ≠ "CONTROLLER-REF") h r x hx)

/-- The positions of the triggerings. -/
def trig (i : Nat) : Pos := el 0 [1, 0, 1, 0, 1, i]

def trigs : List (String × Pos) := [("Bus", trig 0), ("Bus", trig 1), ("Bus", trig 2)]

theorem doc_triggerings : Triggerings doc trigs :=
  ⟨[[0, 0]], [trigs], packages_exist doc,
    .cons ⟨[el 0 [], el 1 []], [trigs, []], located (by decide +kernel),
      .cons ⟨"Bus", [trig 0, trig 1, trig 2], texts (p := el 0 [0]) (by decide +kernel) (by decide +kernel),
        located (by decide +kernel), rfl⟩
      (.cons ⟨"Idle", [], texts (p := el 1 [0]) (by decide +kernel) (by decide +kernel), located (by decide +kernel), rfl⟩ .nil),
      rfl⟩ .nil, rfl⟩

def bus : Bus := { name := "Bus", baudrate := some 200, fdBaudrate := none }

theorem doc_buses : Buses F doc [bus] :=
  ⟨[[0, 0]], [[bus]], packages_exist doc,
    .cons ⟨[el 0 [], el 1 []], [some bus, none], located (by decide +kernel),
      .cons (.bus (v := el 0 [1, 0]) (vs := []) (w := none) (texts (p := el 0 [0]) (by decide +kernel) (by decide +kernel))
          (located (by decide +kernel)) (located (by decide +kernel))
          ⟨"200", texts (p := el 0 [1, 0, 0]) (by decide +kernel) (by decide +kernel), by exact_mod_cast n200⟩
          (located (by decide +kernel)))
        (.cons (.missing (n := "Idle") (texts (p := el 1 [0]) (by decide +kernel) (by decide +kernel)) (located (by decide +kernel))) .nil),
      rfl⟩ .nil, rfl⟩

def first : ProtectedPdu := { pdu := el 3 [], category := some "PROFILE_05", dataIds := [17] }
def second : ProtectedPdu := { pdu := el 3 [], category := some "PROFILE_05", dataIds := [18] }
def third : ProtectedPdu := { pdu := el 8 [], category := some "PROFILE_05", dataIds := [18] }

theorem doc_protections : Protections F doc [first, second, third] :=
  ⟨[[0, 0]], [[first, second, third]], packages_exist doc,
    .cons ⟨[el 10 [1, 0], el 10 [1, 1], el 10 [1, 2]], [[first], [second, third], []], located (by decide +kernel),
      .cons (.profile (f := el 10 [1, 0, 1]) (c := some "PROFILE_05") (ds := [el 10 [1, 0, 1, 1, 0]]) (ids := [17]) (pdus := [el 3 []])
          (located (by decide +kernel)) (texts (p := el 10 [1, 0, 1, 0]) (by decide +kernel) (by decide +kernel))
          (located (by decide +kernel)) (.cons ⟨_, "17", rfl, rfl, by exact_mod_cast n17⟩ .nil) (located (by decide +kernel)))
        (.cons (.profile (f := el 10 [1, 1, 1]) (c := some "PROFILE_05") (ds := [el 10 [1, 1, 1, 1, 0]]) (ids := [18])
            (pdus := [el 3 [], el 8 []])
            (located (by decide +kernel)) (texts (p := el 10 [1, 1, 1, 0]) (by decide +kernel) (by decide +kernel))
            (located (by decide +kernel)) (.cons ⟨_, "18", rfl, rfl, by exact_mod_cast n18⟩ .nil) (located (by decide +kernel)))
          (.cons (.noProfile (located (by decide +kernel))) .nil)), rfl⟩ .nil, rfl⟩

/-- `P1` and `Door` are not made of other PDUs. -/
theorem plain_pdu {p q : Pos} (h : HasTag doc p "I-SIGNAL-I-PDU") (hq : PartOf doc p q) : q = p := by
  rcases Relation.ReflTransGen.cases_head_iff.1 hq with h' | ⟨m, hm, -⟩
  · exact h'.symm
  · rcases madeOf_tag hm with h' | h' | h'
    · exact absurd (hasTag_unique h (tag_of h')) (by decide)
    · exact absurd (hasTag_unique h (tag_of h')) (by decide)
    · exact absurd (hasTag_unique h (tag_of h')) (by decide)

theorem last_first : LastFor doc (el 3 []) [first, second, third] (some second) := by
  refine .some (a := [first]) (b := [third]) rfl .refl ?_
  intro y hy h
  obtain rfl := List.mem_singleton.1 hy
  exact absurd (plain_pdu ⟨_, rfl, rfl⟩ h) (by decide)

theorem last_door : LastFor doc (el 8 []) [first, second, third] (some third) :=
  .some (a := [first, second]) (b := []) rfl .refl (fun _ h => by cases h)

theorem pdu_one : PduOf doc (trig 0) (some (el 3 [])) := ⟨el 2 [], located (by decide +kernel), located (by decide +kernel)⟩
theorem pdu_two : PduOf doc (trig 1) (some (el 6 [])) := ⟨el 5 [], located (by decide +kernel), located (by decide +kernel)⟩
theorem pdu_three : PduOf doc (trig 2) none := ⟨el 9 [], located (by decide +kernel), located (by decide +kernel)⟩

abbrev load : Except Err (List String × List Connected) := loadConnected F doc 3 true .default

def nodes : List String := match load with | .ok (ns, _) => ns | .error _ => []
def before : List Connected := match load with | .ok (_, cs) => cs | .error _ => []

theorem load_is_ok : (match load with | .ok _ => true | .error _ => false) = true := by decide +kernel

theorem loaded : load = .ok (nodes, before) := by
  have h := load_is_ok
  unfold nodes before
  cases e : load with
  | error e' => rw [e] at h; cases h
  | ok p => rfl

/-- The lengths of the messages, and how many messages they contain. -/
theorem before_are : (load.map fun (_, cs) => cs.map fun c => (c.loaded.message.length, c.loaded.contained.length, c.loaded.secoc)) =
    .ok [(8, 0, none), (8, 1, none), (2, 0, none)] := by decide +kernel

theorem before_at {k n m : Nat} (h : [(8, 0, none), (8, 1, none), (2, 0, (none : Option Loader.SecOC))][k]? = some (n, m, none)) :
    ∃ c, before[k]? = some c ∧ c.loaded.message.length = n ∧ c.loaded.contained.length = m ∧ c.loaded.secoc = none := by
  have h' := before_are
  rw [loaded] at h'
  rw [← Except.ok.inj h', List.getElem?_map] at h
  obtain ⟨c, h1, h2⟩ := Option.map_eq_some_iff.1 h
  obtain ⟨h2, h3⟩ := Prod.mk.inj h2
  obtain ⟨h3, h4⟩ := Prod.mk.inj h3
  exact ⟨c, h1, h2, h3, h4⟩

/-- The document is loaded. -/
theorem after : ∃ cs, loadProtected F doc 3 true .default = .ok ([bus], nodes, cs) ∧ cs.length = before.length :=
  C66_loads doc_regular doc_plain loaded doc_buses doc_protections

end ArxmlFile.ProtectExample

open ArxmlFile.ProtectExample
open ArxmlFile.Example (F el n4)

/-! ### The hypotheses of C66 can be met -/

example : ∃ cs, loadProtected F doc 3 true .default = .ok ([bus], nodes, cs) ∧ cs.length = before.length :=
  C66_loads doc_regular doc_plain loaded doc_buses doc_protections

/-- The first message has the data id of the second protection. -/
theorem protected_one : ∃ cs c c', loadProtected F doc 3 true .default = .ok ([bus], nodes, cs) ∧ before[0]? = some c ∧ cs[0]? = some c' ∧
    c.loaded.contained = [] ∧ c.loaded.secoc = none ∧ c.loaded.message.length = 8 ∧
    c'.loaded.e2e = some { category := some "PROFILE_05", dataIds := [18], payloadLength := 8 } := by
  obtain ⟨cs, h, hlen⟩ := after
  obtain ⟨c, hc, h1, h2, h3⟩ := before_at (k := 0) (n := 8) (m := 0) rfl
  have hk : 0 < cs.length := by
    rw [hlen]
    exact (List.getElem?_eq_some_iff.1 hc).1
  have h2 := List.length_eq_zero_iff.1 h2
  refine ⟨cs, c, _, h, hc, List.getElem?_eq_getElem hk, h2, h3, h1, ?_⟩
  rw [C66_messages doc_regular doc_plain doc_ecus doc_triggerings loaded doc_protections h (k := 0) rfl hc (List.getElem?_eq_getElem hk)
    pdu_one h2 last_first, h1, h3]
  rfl

/-- A payload of the first message is protected with this data id. -/
example : ∃ cs c', loadProtected F doc 3 true .default = .ok ([bus], nodes, cs) ∧ cs[0]? = some c' ∧
    ∃ out, applyProfile5 [0, 0, 1, 2, 3, 4, 5, 6] (.dataId 18) = some out ∧
      applyProfile5 [0, 0, 1, 2, 3, 4, 5, 6] (.msg (c'.loaded.e2e.map Loader.EndToEnd.asE2E)) = some out ∧
      checkProfile5 out (.msg (c'.loaded.e2e.map Loader.EndToEnd.asE2E)) = some true := by
  obtain ⟨cs, c, c', h, hc, hc', h1, h2, h3, -⟩ := protected_one
  refine ⟨cs, c', h, hc', C66_profile5 doc_regular doc_plain doc_ecus doc_triggerings loaded doc_protections h (k := 0) rfl hc hc'
    pdu_one h1 last_first (i := 18) rfl ?_ (by decide)⟩
  rw [h2, h3]
  rfl

/-- The container is not protected, but `Door` is. -/
example : ∃ cs c c', loadProtected F doc 3 true .default = .ok ([bus], nodes, cs) ∧ before[1]? = some c ∧ cs[1]? = some c' ∧
    c'.loaded.e2e = c.loaded.e2e ∧ ∃ d d', c.loaded.contained[0]? = some d ∧ c'.loaded.contained[0]? = some d' ∧
      d'.e2e = some (third.properties d.message.length d.secoc) := by
  obtain ⟨cs, h, hlen⟩ := after
  obtain ⟨c, hc, h1, h2, h3⟩ := before_at (k := 1) (n := 8) (m := 1) rfl
  have hk : 1 < cs.length := by
    rw [hlen]
    exact (List.getElem?_eq_some_iff.1 hc).1
  have hc' := List.getElem?_eq_getElem hk
  obtain ⟨-, -, hrest⟩ := C66_rest doc_regular doc_plain doc_triggerings loaded doc_protections h
  have hl := congrArg List.length (hrest hc hc').2.2.2
  rw [List.length_map, List.length_map] at hl
  refine ⟨cs, c, _, h, hc, hc', ?_, _, _, List.getElem?_eq_getElem (by omega), List.getElem?_eq_getElem (by omega), ?_⟩
  · exact C66_others doc_regular doc_plain doc_ecus doc_triggerings loaded doc_protections h (k := 1) rfl hc hc'
      (.inr fun e => by rw [e] at h2; cases h2)
  · exact C66_parts doc_regular doc_plain doc_ecus doc_triggerings loaded doc_protections h (k := 1) rfl hc hc' pdu_two ⟨_, rfl, rfl⟩
      (texts (p := el 6 [2]) (by decide +kernel) (by decide +kernel)) (qs := [el 8 []]) (located (by decide +kernel)) (j := 0) rfl
      (List.getElem?_eq_getElem (by omega)) (List.getElem?_eq_getElem (by omega)) last_door

example : ∃ cs c c', loadProtected F doc 3 true .default = .ok ([bus], nodes, cs) ∧ before[2]? = some c ∧ cs[2]? = some c' ∧
    c'.loaded.e2e = c.loaded.e2e := by
  obtain ⟨cs, h, hlen⟩ := after
  obtain ⟨c, hc, -⟩ := before_at (k := 2) (n := 2) (m := 0) rfl
  have hk : 2 < cs.length := by
    rw [hlen]
    exact (List.getElem?_eq_some_iff.1 hc).1
  have hc' := List.getElem?_eq_getElem hk
  exact ⟨cs, c, _, h, hc, hc', C66_others doc_regular doc_plain doc_ecus doc_triggerings loaded doc_protections h (k := 2) rfl hc hc'
    (.inl pdu_three)⟩

example : ∃ cs, loadProtected F doc 3 true .default = .ok ([bus], nodes, cs) ∧ ∀ c ∈ cs, c.loaded.bus = "Bus" := by
  obtain ⟨cs, h, -⟩ := after
  refine ⟨cs, h, fun c hc => ?_⟩
  obtain ⟨b, hb, e⟩ := (C66_known doc_regular doc_plain doc_triggerings doc_buses doc_protections h).2 c hc
  obtain rfl := List.mem_singleton.1 hb
  exact e.symm

/-! ### What is false -/

/-- The bytes that are protected are not those of the protected PDU: they are those of the whole message. -/
theorem C66_length_fails : ¬ ∀ (F : FloatRead) (root : Xml) (trigs : List (String × Pos)) (fuel : Nat) (bs : List Bus) (ns : List String)
    (cs : List Connected) (ps : List ProtectedPdu) (k : Nat) (trig : String × Pos) (c : Connected) (p : Pos) (x : ProtectedPdu) (n : Nat)
    (e : Loader.EndToEnd), Regular root → NoStray root → EcusRegular root → Triggerings root trigs → Buses F root bs →
    Protections F root ps → loadProtected F root fuel true .default = .ok (bs, ns, cs) → trigs[k]? = some trig → cs[k]? = some c →
    c.loaded.contained = [] → PduOf root trig.2 (some p) → LastFor root p ps (some x) → NumberAt F root x.pdu [elem "LENGTH"] n →
    c.loaded.e2e = some e → e.payloadLength = n := by
  intro h
  obtain ⟨cs, c, c', h1, hc, hc', h2, -, -, h5⟩ := protected_one
  obtain ⟨-, -, hrest⟩ := C66_rest doc_regular doc_plain doc_triggerings loaded doc_protections h1
  have hl := congrArg List.length (hrest hc hc').2.2.2
  rw [List.length_map, List.length_map, h2] at hl
  have := h F doc trigs 3 [bus] nodes cs _ 0 _ c' _ second 4 _ doc_regular doc_plain doc_ecus doc_triggerings doc_buses doc_protections h1
    rfl hc' (List.length_eq_zero_iff.1 hl) pdu_one last_first
    ⟨"4", texts (p := el 3 [2]) (by decide +kernel) (by decide +kernel), n4⟩ h5
  revert this
  decide

end Cantools
