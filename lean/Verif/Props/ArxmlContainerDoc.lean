import Verif.Props.ArxmlContainer
import Verif.Props.ArxmlFileDoc

/-
C61: documents that meet the hypotheses, and what is false.
-/

namespace Cantools
open Kcd (Xml)
open ArxmlRef (Pos Refs at? createDicts)
open ArxmlScale (FloatRead)
open ArxmlFile
open Spec Spec.SystemFile

namespace ArxmlFile.ContainerExample
open ArxmlRef.Example (leaf all_of_entries)
open ArxmlFile.Example (node named link triggering pdu F refsOf write digits n0 n1 n2 n4 n8 n12 n17 n18 el)

def part (name signal id : String) : Xml :=
  named "I-SIGNAL-I-PDU" name [node "I-SIGNAL-TO-PDU-MAPPINGS"
    [named "I-SIGNAL-TO-I-PDU-MAPPING" "m" [link "I-SIGNAL-REF" "I-SIGNAL" signal, leaf "START-POSITION" "0"]], leaf "LENGTH" "1",
    node "CONTAINED-I-PDU-PROPS" [leaf "HEADER-ID-SHORT-HEADER" id]]

/-- A container frame of 12 bytes with the messages `Door` and `Light`.  Its headers are big endian or not. -/
def doc (big : Bool) : Xml :=
  node "AUTOSAR" [node "AR-PACKAGES" [named "AR-PACKAGE" "P" [node "ELEMENTS"
    [named "CAN-CLUSTER" "Bus" [node "CAN-CLUSTER-VARIANTS" [node "CAN-CLUSTER-CONDITIONAL" [node "PHYSICAL-CHANNELS"
      [named "CAN-PHYSICAL-CHANNEL" "ch" [node "FRAME-TRIGGERINGS" [triggering "t1" "/P/F" "19"]]]]]],
     named "CAN-FRAME" "F" [leaf "FRAME-LENGTH" "12", node "PDU-TO-FRAME-MAPPINGS"
      [named "PDU-TO-FRAME-MAPPING" "m" [link "PDU-REF" "CONTAINER-I-PDU" "/P/Box", leaf "START-POSITION" "0"]]],
     named "CONTAINER-I-PDU" "Box" [leaf "LENGTH" "12", leaf "HEADER-TYPE" "SHORT-HEADER", node "CONTAINED-PDU-TRIGGERING-REFS"
      [link "CONTAINED-PDU-TRIGGERING-REF" "PDU-TRIGGERING" "/P/T1", link "CONTAINED-PDU-TRIGGERING-REF" "PDU-TRIGGERING" "/P/T2"]],
     named "PDU-TRIGGERING" "T1" [link "I-PDU-REF" "I-SIGNAL-I-PDU" "/P/Door"],
     named "PDU-TRIGGERING" "T2" [link "I-PDU-REF" "I-SIGNAL-I-PDU" "/P/Light"],
     part "Door" "/P/Open" "17",
     part "Light" "/P/Lux" "18",
     named "I-SIGNAL" "Open" [leaf "LENGTH" "8"],
     named "I-SIGNAL" "Lux" [leaf "LENGTH" "8"],
     named "SYSTEM" "S" [leaf "CONTAINER-I-PDU-HEADER-BYTE-ORDER"
      (if big then "MOST-SIGNIFICANT-BYTE-FIRST" else "MOST-SIGNIFICANT-BYTE-LAST")]]]]]

/-- The dictionaries for the references of the document. -/
def docRefs (big : Bool) : Refs :=
  { refsOf (doc big) with nodeAt :=
    [(['/', 'P'], [0, 0]),
     (['/', 'P', '/', 'B', 'u', 's'], [0, 0, 1, 0]),
     (['/', 'P', '/', 'B', 'u', 's', '/', 'c', 'h'], [0, 0, 1, 0, 1, 0, 0, 0]),
     (['/', 'P', '/', 'B', 'u', 's', '/', 'c', 'h', '/', 't', '1'], [0, 0, 1, 0, 1, 0, 0, 0, 1, 0]),
     (['/', 'P', '/', 'F'], [0, 0, 1, 1]),
     (['/', 'P', '/', 'F', '/', 'm'], [0, 0, 1, 1, 2, 0]),
     (['/', 'P', '/', 'B', 'o', 'x'], [0, 0, 1, 2]),
     (['/', 'P', '/', 'T', '1'], [0, 0, 1, 3]),
     (['/', 'P', '/', 'T', '2'], [0, 0, 1, 4]),
     (['/', 'P', '/', 'D', 'o', 'o', 'r'], [0, 0, 1, 5]),
     (['/', 'P', '/', 'D', 'o', 'o', 'r', '/', 'm'], [0, 0, 1, 5, 1, 0]),
     (['/', 'P', '/', 'L', 'i', 'g', 'h', 't'], [0, 0, 1, 6]),
     (['/', 'P', '/', 'L', 'i', 'g', 'h', 't', '/', 'm'], [0, 0, 1, 6, 1, 0]),
     (['/', 'P', '/', 'O', 'p', 'e', 'n'], [0, 0, 1, 7]),
     (['/', 'P', '/', 'L', 'u', 'x'], [0, 0, 1, 8]),
     (['/', 'P', '/', 'S'], [0, 0, 1, 9])] }

theorem doc_ok (big : Bool) : createDicts (doc big) = .ok (docRefs big) := by
  have h : ∀ big, (match createDicts (doc big) with | .ok r => r.nodeAt == (docRefs big).nodeAt | .error _ => false) = true := by
    decide +kernel
  have h := h big
  have e : docRefs big = { refsOf (doc big) with nodeAt := (docRefs big).nodeAt } := rfl
  rw [e]
  generalize (docRefs big).nodeAt = x at h
  unfold refsOf
  cases hc : createDicts (doc big) with
  | error e => rw [hc] at h; cases h
  | ok r =>
    rw [hc] at h
    rw [← LawfulBEq.eq_of_beq h]

theorem doc_regular (big : Bool) : Regular (doc big) := by
  refine ⟨?_, ?_, ?_⟩
  · apply all_of_entries
    have : ∀ big, ∀ e ∈ ArxmlRef.entries (doc big), ∀ c ∈ kids e.elem "SHORT-NAME",
        (c.text.any fun t => !t.toList.contains '/') = true := by decide +kernel
    intro e he c hc
    have := this big e he c hc
    rw [Option.any_eq_true] at this
    obtain ⟨t, h1, h2⟩ := this
    exact ⟨t, h1, by simpa using h2⟩
  · apply all_of_entries
    have h1 : ∀ big, ∀ e ∈ ArxmlRef.entries (doc big), e.elem.tag = "AR-PACKAGE" → shortName e.elem ≠ [] ∧
      ∀ e' ∈ ArxmlRef.entries (doc big), e'.pos <+: e.pos → shortName e'.elem ≠ [] → e'.elem.tag = "AR-PACKAGE" := by
      decide +kernel
    intro e he ht
    refine ⟨(h1 big e he ht).1, ?_⟩
    intro q y hq hy
    exact (h1 big e he ht).2 ⟨q, y, ArxmlRef.textTo (doc big) q, ArxmlRef.pkgTo (doc big) q⟩
      (ArxmlRef.mem_entries.2 ⟨hy, rfl, rfl⟩) hq
  · apply all_of_entries
    have h1 : ∀ big, ∀ e ∈ ArxmlRef.entries (doc big), e.elem.tag ≠ "REFERENCE-BASE" := by decide +kernel
    exact fun e he ht => absurd ht (h1 big e he)

theorem doc_plain (big : Bool) : NoStray (doc big) := by
  have h : ∀ big, ∀ e ∈ ArxmlRef.entries (doc big), ∀ t ∈ plainTags, e.elem.tag ≠ t ++ "-REF" := by decide +kernel
  unfold NoStray
  apply all_of_entries (P := fun _ x => ∀ t ∈ plainTags, x.tag ≠ t ++ "-REF")
  exact h big

def locates (big : Bool) (bs : Pos) (loc : List LocAtom) (l : List Pos) : Bool :=
  okAtoms (loc.map write) loc && decide (ArxmlRef.getChildren (doc big) (docRefs big) [bs] (loc.map write) = .ok l)

variable {big : Bool}

theorem located {b : Pos} {loc : List LocAtom} {l : List Pos} (h : ∀ big, locates big b loc l = true) : Locate (doc big) loc [b] l := by
  have h := h big
  unfold locates at h
  rw [Bool.and_eq_true, decide_eq_true_iff] at h
  obtain ⟨h1, h2⟩ := okAtoms_says h.1
  exact (C53_children_partial (doc_regular big) (doc_ok big) h1 _ _ (ArxmlRef.noStrayAt_of fun a ha hf p x hx => doc_plain big p x hx _ (h2 a ha hf))).1 h.2

theorem texts {b p : Pos} {loc : List LocAtom} {t : String} (h : ∀ big, locates big b loc [p] = true)
    (ht : ∀ big, ((at? (doc big) p).bind Xml.text) = some t) : TextAt (doc big) b loc t := by
  obtain ⟨x, h1, h2⟩ := Option.bind_eq_some_iff.1 (ht big)
  exact ⟨p, x, located h, h1, h2⟩

theorem leads {b r p : Pos} {x y : Xml} {t : String} (hb : at? (doc big) b = some y) (h1 : at? (doc big) r = some x) (h2 : x.text = some t)
    (h : ArxmlRef.follow (doc big) (docRefs big) b t.toList (x.attr? "DEST") ((x.attr? "BASE").map String.toList) = .ok (some p)) :
    RefLeads (doc big) b r p :=
  ⟨x, t, h1, h2, ((C53_follow (doc_regular big) (doc_ok big) hb _ _ _).1 p).1 h⟩

def signal (name : String) : SignalContent :=
  { name := name, start := 0, length := 8, order := .little, isSigned := false, isFloat := false
    scales := none, unit := none, initial := none, invalid := none }

theorem open_says : SignalSays F (doc big) (el 5 [1, 0]) (el 7 []) none (signal "Open") where
  signal := located (by decide +kernel)
  system := located (by decide +kernel)
  isSignal := nofun
  name := texts (p := el 7 [0]) (by decide +kernel) (by decide +kernel)
  leaf := ⟨none, located (by decide +kernel), nofun⟩
  start := ⟨"0", texts (p := el 5 [1, 0, 2]) (by decide +kernel) (by decide +kernel), n0⟩
  length := ⟨"8", texts (p := el 7 [1]) (by decide +kernel) (by decide +kernel), n8⟩
  order := .inl ⟨located (by decide +kernel), rfl⟩
  type := .default (located (by decide +kernel))
  scales := .none
  float := nofun
  initial := .none (located (by decide +kernel)) (located (by decide +kernel))
  invalid := located (by decide +kernel)

theorem lux_says : SignalSays F (doc big) (el 6 [1, 0]) (el 8 []) none (signal "Lux") where
  signal := located (by decide +kernel)
  system := located (by decide +kernel)
  isSignal := nofun
  name := texts (p := el 8 [0]) (by decide +kernel) (by decide +kernel)
  leaf := ⟨none, located (by decide +kernel), nofun⟩
  start := ⟨"0", texts (p := el 6 [1, 0, 2]) (by decide +kernel) (by decide +kernel), n0⟩
  length := ⟨"8", texts (p := el 8 [1]) (by decide +kernel) (by decide +kernel), n8⟩
  order := .inl ⟨located (by decide +kernel), rfl⟩
  type := .default (located (by decide +kernel))
  scales := .none
  float := nofun
  initial := .none (located (by decide +kernel)) (located (by decide +kernel))
  invalid := located (by decide +kernel)

def door : PartContent := { headerId := 17, name := "Door", length := 1, pdu := .plain [signal "Open"], pattern := 255 }
def light : PartContent := { headerId := 18, name := "Light", length := 1, pdu := .plain [signal "Lux"], pattern := 255 }

theorem door_says : PartSays F (doc big) (el 5 []) door where
  name := texts (p := el 5 [0]) (by decide +kernel) (by decide +kernel)
  length := ⟨"1", texts (p := el 5 [2]) (by decide +kernel) (by decide +kernel), n1⟩
  headerId := ⟨"17", texts (p := el 5 [3, 0]) (by decide +kernel) (by decide +kernel), n17⟩
  pdu := by
    rw [door, PduSays]
    exact ⟨⟨"I-SIGNAL-I-PDU", ⟨_, rfl, rfl⟩, by decide, by decide, by decide⟩, [el 5 [1, 0]], [], located (by decide +kernel),
      located (by decide +kernel), .signal open_says .nil⟩
  pattern := .inr ⟨located (by decide +kernel), rfl⟩
  protection := .plain ⟨_, rfl, rfl⟩ (by decide) (.noGroup (located (by decide +kernel)))

theorem light_says : PartSays F (doc big) (el 6 []) light where
  name := texts (p := el 6 [0]) (by decide +kernel) (by decide +kernel)
  length := ⟨"1", texts (p := el 6 [2]) (by decide +kernel) (by decide +kernel), n1⟩
  headerId := ⟨"18", texts (p := el 6 [3, 0]) (by decide +kernel) (by decide +kernel), n18⟩
  pdu := by
    rw [light, PduSays]
    exact ⟨⟨"I-SIGNAL-I-PDU", ⟨_, rfl, rfl⟩, by decide, by decide, by decide⟩, [el 6 [1, 0]], [], located (by decide +kernel),
      located (by decide +kernel), .signal lux_says .nil⟩
  pattern := .inr ⟨located (by decide +kernel), rfl⟩
  protection := .plain ⟨_, rfl, rfl⟩ (by decide) (.noGroup (located (by decide +kernel)))

def trig : Pos := el 0 [1, 0, 0, 0, 1, 0]

def frame : FrameContent :=
  { bus := "Bus", frameId := 19, isExtended := true, isFd := false, name := "F", length := 12, pdu := some (.plain [], 255)
    contained := [door, light] }

theorem doc_says : Describes F (doc big) [("Bus", trig)] [frame] where
  regular := doc_regular big
  accepted := (C53_accepted (doc_regular big)).1.1 ⟨_, doc_ok big⟩
  plain := doc_plain big
  packages := ⟨_, List.mem_singleton.2 rfl, rfl⟩
  triggerings :=
    ⟨[[0, 0]], [[("Bus", trig)]], packages_exist (doc big),
      .cons ⟨[el 0 []], [[("Bus", trig)]], located (by decide +kernel),
        .cons ⟨"Bus", [trig], texts (p := el 0 [0]) (by decide +kernel) (by decide +kernel),
          located (by decide +kernel), rfl⟩ .nil, rfl⟩ .nil, rfl⟩
  frames :=
    .cons ⟨rfl, el 1 [], located (by decide +kernel),
      ⟨"19", texts (p := trig ++ [3]) (by decide +kernel) (by decide +kernel), by exact_mod_cast Example.n19⟩,
      ⟨some "EXTENDED", texts (p := trig ++ [2]) (by decide +kernel) (by decide +kernel), by decide⟩,
      ⟨none, none, located (by decide +kernel), located (by decide +kernel), by decide⟩,
      texts (p := el 1 [0]) (by decide +kernel) (by decide +kernel),
      ⟨"12", texts (p := el 1 [1]) (by decide +kernel) (by decide +kernel), n12⟩,
      .container (p := el 2 []) (r := el 1 [2, 0, 1]) (located (by decide +kernel)) (located (by decide +kernel))
        (by cases big <;> exact leads rfl rfl rfl (by decide +kernel)) ⟨_, rfl, rfl⟩
        (.short (ps := [el 5 [], el 6 []]) (texts (p := el 2 [2]) (by decide +kernel) (by decide +kernel)) (located (by decide +kernel))
          (.cons door_says (.cons light_says .nil)))
        (.inr ⟨located (by decide +kernel), rfl⟩),
      .pdu (p := el 2 []) (n := 12) (located (by decide +kernel)) ⟨"12", texts (p := el 2 [1]) (by decide +kernel) (by decide +kernel), n12⟩
        (.plain ⟨_, rfl, rfl⟩ (by decide) (.noGroup (located (by decide +kernel))))⟩ .nil

theorem listed {q : Pos} (h : ListedAt (doc big) q) : q = [0, 0] := by
  have hx : ∀ {l : Xml} {i : Nat}, FirstChild (doc big) "AR-PACKAGES" i l → i = 0 ∧ l.children.length = 1 := by
    rintro l i ⟨h1, -, -⟩
    cases i with
    | zero => obtain rfl := Option.some.inj h1; exact ⟨rfl, rfl⟩
    | succ i => cases h1
  cases h with
  | here hl hy =>
    obtain ⟨rfl, e⟩ := hx hl
    have := (List.getElem?_eq_some_iff.1 hy).1
    rename_i j
    obtain rfl : j = 0 := by omega
    rfl
  | @inside _ l y i j s hl hy h =>
    obtain ⟨rfl, e⟩ := hx hl
    obtain rfl := Option.some.inj hl.1
    have := (List.getElem?_eq_some_iff.1 hy).1
    obtain rfl : j = 0 := by omega
    obtain rfl := Option.some.inj hy
    exfalso
    have hno : ∀ {es : List Xml} {l : Xml} {i : Nat}, ¬ FirstChild (named "AR-PACKAGE" "P" [node "ELEMENTS" es]) "AR-PACKAGES" i l := by
      rintro es l i ⟨h1, h2, -⟩
      match i, h1 with
      | 0, h1 => obtain rfl := Option.some.inj h1; exact absurd h2 (by show "SHORT-NAME" ≠ _; decide)
      | 1, h1 => obtain rfl := Option.some.inj h1; exact absurd h2 (by show "ELEMENTS" ≠ _; decide)
    cases h with
    | here hl hy => exact hno hl
    | inside hl hy => exact hno hl

theorem order_says : HeadersSay (doc big) big where
  systems q hq := by
    obtain rfl := listed hq
    refine ⟨some (el 9 []), located (by decide +kernel), fun s hs => .inr ?_⟩
    obtain rfl := Option.some.inj hs
    cases big with
    | false => exact ⟨"MOST-SIGNIFICANT-BYTE-LAST", ⟨el 9 [1], _, located (by decide +kernel), rfl, rfl⟩, by decide⟩
    | true => exact ⟨"MOST-SIGNIFICANT-BYTE-FIRST", ⟨el 9 [1], _, located (by decide +kernel), rfl, rfl⟩, by decide⟩
  default h := by
    have h1 := unique_ok (F := F) (doc_regular big) (doc_ok big) (doc_plain big) (strs := ["ELEMENTS", "SYSTEM"]) (by decide +kernel)
      (h [0, 0] (.here (i := 0) (j := 0) ⟨rfl, rfl, by simp⟩ rfl))
    have h2 := unique_ok (F := F) (doc_regular big) (doc_ok big) (doc_plain big) (strs := ["ELEMENTS", "SYSTEM"])
      (loc := [elem "ELEMENTS", elem "SYSTEM"]) (by decide +kernel) (o := some (el 9 [])) (located (b := [0, 0]) (by decide +kernel))
    cases h1.symm.trans h2

theorem shallow : ∀ d ∈ [frame], d.depth ≤ 2 := by decide +kernel

def load' (big : Bool) : Except Err (List Loader.Loaded) := do
  let frames ← (Loader.mk (doc big) (docRefs big) F).loadFrames 2
  frames.mapM (Loader.makeMessage true .default)

def msgs (big : Bool) : List Loader.Loaded := (match load' big with | .ok ms => ms | .error _ => []).map (Loader.setOrder big)

theorem loaded : loadDatabase F (doc big) 2 true .default = .ok (msgs big) := by
  rw [database_eq doc_says order_says]
  unfold load
  have e : (createDicts (doc big) >>= fun refs =>
      ({ root := doc big, refs := refs, F := F } : Loader).loadFrames 2 >>= fun frames => frames.mapM (Loader.makeMessage true .default)) =
      load' big := Cdd.bind_of_ok (doc_ok big)
  rw [e]
  have : ∀ big, (match load' big with | .ok _ => true | .error _ => false) = true := by decide +kernel
  have := this big
  unfold msgs
  cases h : load' big with
  | error e => rw [h] at this; cases this
  | ok r => rfl

theorem at0 : PduAtByte F (doc big) trig 0 :=
  ⟨el 1 [], located (by decide +kernel), "0", texts (p := el 1 [2, 0, 2]) (by decide +kernel) (by decide +kernel), n0⟩

theorem msg : ∃ l, (msgs big)[0]? = some l := by
  have h : ∀ big, (msgs big).length = 1 := by decide +kernel
  have h := h big
  revert h
  generalize msgs big = ms
  intro h
  exact ⟨ms[0]'(by omega), List.getElem?_eq_getElem _⟩

end ArxmlFile.ContainerExample

open ArxmlFile.ContainerExample

/-- The messages of the document, and the order of the headers. -/
example : List.Forall₂ MessageIs [frame] (msgs false) ∧ ∀ l ∈ msgs false, l.contained ≠ [] → l.container.headerBig = false :=
  C61_messages_partial doc_says shallow order_says loaded

example : (msgs false).map (·.contained.map (·.message.name)) = [["Door", "Light"]] := by decide +kernel

/-- What is decoded from a container with a light message that has no bytes, a door and two more bytes. -/
example : ∃ l r, (msgs true)[0]? = some l ∧
    decodeContainer Example.fo l.container [0, 0, 18, 0, 0, 0, 17, 1, 5, 9, 9] true true false false = .ok r ∧
    List.Forall₂ (EntryShows Example.fo [door, light]) [(18, []), (17, [5])] r := by
  obtain ⟨l, hl⟩ := msg (big := true)
  obtain ⟨r, h1, h2⟩ := C61_decode_partial (fo := Example.fo) doc_says shallow order_says loaded (trig := ("Bus", ContainerExample.trig)) rfl rfl hl
    (by decide) rfl (by decide +kernel) (by decide +kernel)
    (by
      intro p hp
      rcases List.mem_cons.1 hp with rfl | hp
      · exact ⟨[signal "Open"], rfl, by decide +kernel⟩
      · obtain rfl := List.mem_singleton.1 hp
        exact ⟨[signal "Lux"], rfl, by decide +kernel⟩)
    at0 rfl (data := [0, 0, 18, 0, 0, 0, 17, 1, 5, 9, 9]) (by decide) (es := [(18, []), (17, [5])]) (by decide) (rest := [9, 9]) (by decide)
    (by decide +kernel)
  exact ⟨l, r, hl, h1, h2⟩

/-- The messages in this container. -/
theorem example_values : (msgs true)[0]?.map (fun l => l.container.contained.map fun p => (decode Example.fo p.msg [5] true true false false).toOption) =
    some [some [("Open", .num 5)], some [("Lux", .num 5)]] := by
  decide +kernel

theorem example_parts : (msgs true)[0]?.map (fun l => l.container.contained.map fun p =>
      decide (p.msg.signals.map (·.name)).Nodup && p.msg.signals.all fun q => ((table q).map (·.2.toStr)).isEmpty) =
    some [true, true] := by decide +kernel

open Classical in
/-- The door according to its PDU. -/
example : ∃ l x, (msgs true)[0]? = some l ∧ l.container.contained[0]? = some x ∧ x.headerId = some 17 ∧
    ∃ r v, decode Example.fo x.msg [5] true true false false = .ok r ∧ dictGet? r "Open" = some v := by
  obtain ⟨l, hl⟩ := msg (big := true)
  have h := example_parts
  have k3 := example_values
  rw [hl] at h k3
  have h := Option.some.inj h
  have k3 := Option.some.inj k3
  dsimp only at h k3
  cases hc : l.container.contained with
  | nil => rw [hc] at h; cases h
  | cons x t =>
    rw [hc, List.map_cons] at h k3
    have k3 := (List.cons.inj k3).1
    obtain ⟨k1, k2⟩ := Bool.and_eq_true_iff.1 (List.cons.inj h).1
    obtain ⟨e, -, -⟩ := C61_part_partial (fo := Example.fo) (i := 0) doc_says shallow order_says loaded rfl hl (p := door) rfl
      (by simp [door, PduContent.Tidy]) (x := x) (by rw [hc]; rfl) (of_decide_eq_true k1)
      (fun q hq _ => by
        have := List.all_eq_true.1 k2 q hq
        rw [List.isEmpty_iff.1 this]
        exact List.nodup_nil) (data := [5]) rfl
      (chosen := fun field code => decide (ReadsAs field [5] code)) (fun _ _ => decide_eq_true_iff)
    refine ⟨l, x, hl, by rw [hc]; rfl, e, ?_⟩
    cases hr : decode Example.fo x.msg [5] true true false false with
    | error e => rw [hr] at k3; cases k3
    | ok r =>
      rw [hr] at k3
      obtain rfl := Option.some.inj k3
      exact ⟨_, .num 5, rfl, rfl⟩

theorem example_ids : (msgs true)[0]?.map (fun l => (l.contained.map (·.headerId), l.message.length)) = some ([17, 18], 12) ∧
    (msgs false)[0]?.map (fun l => (l.contained.map (·.headerId), l.message.length)) = some ([17, 18], 12) := by
  constructor <;> decide +kernel

/-- Two entries that were encoded. -/
example : ∃ l data es, (msgs true)[0]? = some l ∧
    encodeContainer Example.fo l.container [(.name "Light", .signals [("Lux", .num 7)]), (.id 3, .raw [1, 2])] true true true = .ok data ∧
    unpackContainer l.container data false = .ok es ∧ es.map (·.2) = [[7], [1, 2]] := by
  obtain ⟨l, hl⟩ := msg (big := true)
  have h : (msgs true)[0]?.map (fun l => (encodeContainer Example.fo l.container
      [(.name "Light", .signals [("Lux", .num 7)]), (.id 3, .raw [1, 2])] true true true).toOption) =
      some (some [0, 0, 18, 1, 7, 0, 0, 3, 2, 1, 2]) := by decide +kernel
  have hb : (msgs true)[0]?.map (fun l => l.contained.map fun p =>
      (encode Example.fo p.message [("Lux", .num 7)] true true false).toOption) = some [none, some [7]] := by decide +kernel
  rw [hl] at h hb
  have h := Option.some.inj h
  dsimp only at h
  cases he : encodeContainer Example.fo l.container
      [(.name "Light", .signals [("Lux", .num 7)]), (.id 3, .raw [1, 2])] true true true with
  | error e => rw [he] at h; cases h
  | ok data =>
    rw [he] at h
    obtain rfl := Option.some.inj h
    obtain ⟨es, h1, h2⟩ := C61_round_trip_partial doc_says shallow order_says rfl loaded (k := 0) rfl hl (by decide) (by decide +kernel)
      (by decide +kernel) he (by decide)
    refine ⟨l, _, es, hl, he, h1, ?_⟩
    match es, h2 with
    | [a, b], .cons h2 (.cons h3 .nil) =>
      obtain ⟨m, e, hm⟩ := h2.2
      have h4 := h2.1
      rw [e] at h4
      obtain ⟨q, hq, rfl⟩ := List.mem_map.1 h4.1
      have hb := Option.some.inj hb
      have : (encode Example.fo q.message [("Lux", .num 7)] true true false).toOption ∈ [none, some [7]] := hb ▸ List.mem_map_of_mem hq
      dsimp only at hm
      rw [hm] at this
      have e1 : a.2 = [7] := by simpa [Except.toOption] using this
      have e2 : b.2 = [1, 2] := h3.2
      rw [List.map_cons, List.map_cons, e1, e2]
      rfl

/-- C61 is false for documents that specify little endian headers: cantools encodes such headers, but it decodes all headers as
big endian ones, so contained messages are not recognised. -/
theorem C61_little_endian_fails : ∃ (F : FloatRead) (fo : FloatOps) (root : Xml) (trigs : List (String × Pos))
    (ds : List FrameContent) (ms : List Loader.Loaded) (d : FrameContent) (l : Loader.Loaded) (data : Bytes) (r : List DecodedEntry),
    Describes F root trigs ds ∧ HeadersSay root false ∧ loadDatabase F root 2 true .default = .ok ms ∧
    ds[0]? = some d ∧ ms[0]? = some l ∧ (d.contained.map (·.headerId)).Nodup ∧ (d.contained.map (·.name)).Nodup ∧
    data = entriesBytes false [(17, [5])] ∧ data.length ≤ d.length ∧
    encodeContainer fo l.container [(.id 17, .raw [5])] true true true = .ok data ∧
    decodeContainer fo l.container data true true false false = .ok r ∧
    ¬ List.Forall₂ (EntryShows fo d.contained) [(17, [5])] r := by
  obtain ⟨l, hl⟩ := msg (big := false)
  have h : (msgs false)[0]?.map (fun l => (encodeContainer Example.fo l.container [(.id 17, .raw [5])] true true true).toOption) =
      some (some [17, 0, 0, 1, 5]) := by decide +kernel
  have hi := example_ids.2
  rw [hl] at h hi
  obtain ⟨i1, i2⟩ := Prod.mk.inj (Option.some.inj hi)
  have hmi := forall₂_at (C61_messages_partial doc_says shallow order_says loaded).1 (k := 0) rfl hl
  have hu : Unambiguous l.container :=
    unambiguous_of (d := frame) (hmi.contained.imp fun p q hq => ⟨hq.headerId, hq.name⟩) (by decide +kernel) (by decide +kernel)
  have hun : unpackContainer l.container [17, 0, 0, 1, 5] false = .ok [(.inr 0x110000, [5])] := by
    refine (C18_unpack_iff _ hu _ _ _).2 ⟨by show 5 ≤ l.message.length; rw [i2]; decide, ?_⟩
    refine Consists.entry (id := 0x110000) (payload := [5]) (rest := []) (by decide) (by decide) ⟨rfl, fun m hm e => ?_⟩
      (.done (by decide))
    obtain ⟨q, hq, rfl⟩ := List.mem_map.1 hm
    have : q.headerId ∈ [17, 18] := i1 ▸ List.mem_map_of_mem hq
    rw [Option.some.inj e] at this
    exact absurd this (by decide)
  refine ⟨Example.F, Cantools.Example.fo, doc false, _, _, msgs false, frame, l, [17, 0, 0, 1, 5], [(.inr 0x110000, .inl [5])], doc_says, order_says, loaded, rfl, hl,
    by decide +kernel, by decide +kernel, by decide, by decide, ?_, (Cdd.bind_of_ok hun).trans rfl, ?_⟩
  · have h := Option.some.inj h
    dsimp only at h
    cases he : encodeContainer Example.fo l.container [(.id 17, .raw [5])] true true true with
    | error e => rw [he] at h; cases h
    | ok data => rw [he] at h; rw [Option.some.inj h]
  · rintro (_ | ⟨h, -⟩)
    have hid : ∀ e x, EntryShows Cantools.Example.fo frame.contained e x → ∀ n b, x = (.inr n, b) → n = e.1 := by
      intro e x h n b hx
      cases h with
      | unknown => cases hx; rfl
      | length => cases hx
      | part => cases hx
    exact absurd (hid _ _ h _ _ rfl) (by decide)

end Cantools
