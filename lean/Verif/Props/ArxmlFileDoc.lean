import Verif.Props.ArxmlFile

/-
C54: a document that meets the hypotheses, and what is false.
-/

namespace Cantools
open Kcd (Xml)
open ArxmlRef (Pos Refs at? createDicts)
open ArxmlScale (FloatRead)
open ArxmlFile
open Spec Spec.SystemFile

/-! ### A document -/

namespace ArxmlFile.Example
open ArxmlRef.Example (leaf all_of_entries)

def node (tag : String) (children : List Xml) : Xml := .elem tag [] none children
def named (tag name : String) (children : List Xml) : Xml := .elem tag [] none (leaf "SHORT-NAME" name :: children)
def link (tag dest path : String) : Xml := .elem tag [("DEST", dest)] (some path) []

def triggering (name frame id : String) : Xml :=
  named "CAN-FRAME-TRIGGERING" name [link "FRAME-REF" "CAN-FRAME" frame, leaf "CAN-ADDRESSING-MODE" "EXTENDED", leaf "IDENTIFIER" id]

def frame (name pdu dest offset : String) : Xml :=
  named "CAN-FRAME" name [leaf "FRAME-LENGTH" "2", node "PDU-TO-FRAME-MAPPINGS"
    [named "PDU-TO-FRAME-MAPPING" "m" [link "PDU-REF" dest pdu, leaf "START-POSITION" offset]]]

def pdu (name signal start : String) : Xml :=
  named "I-SIGNAL-I-PDU" name [node "I-SIGNAL-TO-PDU-MAPPINGS"
    [named "I-SIGNAL-TO-I-PDU-MAPPING" "m" [link "I-SIGNAL-REF" "I-SIGNAL" signal, leaf "START-POSITION" start]], leaf "LENGTH" "2"]

/-- Four frames: `F1` with a temperature in byte 1, `F2` with a level whose PDU begins at byte 1,
`F3` that has the temperature if byte 0 is 1, and the secured `F4` with the temperature in byte 1, four
bits of freshness value and twelve bits of authenticator.  The signals `Odd` and `Bad` are in no frame. -/
def doc : Xml :=
  node "AUTOSAR" [node "AR-PACKAGES" [named "AR-PACKAGE" "P" [node "ELEMENTS"
    [named "CAN-CLUSTER" "Bus" [node "CAN-CLUSTER-VARIANTS" [node "CAN-CLUSTER-CONDITIONAL" [node "PHYSICAL-CHANNELS"
      [named "CAN-PHYSICAL-CHANNEL" "ch" [node "FRAME-TRIGGERINGS"
        [triggering "t1" "/P/F1" "17", triggering "t2" "/P/F2" "18", triggering "t3" "/P/F3" "19",
         triggering "t4" "/P/F4" "8"]]]]]],
     frame "F1" "/P/Pdu1" "I-SIGNAL-I-PDU" "0",
     frame "F2" "/P/Pdu2" "I-SIGNAL-I-PDU" "8",
     frame "F3" "/P/Mux" "MULTIPLEXED-I-PDU" "0",
     pdu "Pdu1" "/P/Temp" "8",
     pdu "Pdu2" "/P/Level" "0",
     pdu "Pdu3" "/P/Odd" "0",
     named "MULTIPLEXED-I-PDU" "Mux"
      [leaf "SELECTOR-FIELD-LENGTH" "8", leaf "SELECTOR-FIELD-START-POSITION" "0",
       node "DYNAMIC-PARTS" [node "DYNAMIC-PART" [node "DYNAMIC-PART-ALTERNATIVES" [node "DYNAMIC-PART-ALTERNATIVE"
        [leaf "INITIAL-DYNAMIC-PART" "true", link "I-PDU-REF" "I-SIGNAL-I-PDU" "/P/Pdu4", leaf "SELECTOR-FIELD-CODE" "1"]]]], leaf "LENGTH" "2"],
     named "I-SIGNAL" "Temp" [leaf "LENGTH" "8", link "SYSTEM-SIGNAL-REF" "SYSTEM-SIGNAL" "/P/Sys"],
     named "SYSTEM-SIGNAL" "Sys" [node "PHYSICAL-PROPS" [node "SW-DATA-DEF-PROPS-VARIANTS"
      [node "SW-DATA-DEF-PROPS-CONDITIONAL" [link "COMPU-METHOD-REF" "COMPU-METHOD" "/P/Half"]]]],
     named "COMPU-METHOD" "Half"
      [leaf "CATEGORY" "LINEAR", link "UNIT-REF" "UNIT" "/P/Degree", node "COMPU-INTERNAL-TO-PHYS" [node "COMPU-SCALES"
        [node "COMPU-SCALE" [leaf "LOWER-LIMIT" "0", leaf "UPPER-LIMIT" "200", node "COMPU-RATIONAL-COEFFS"
          [node "COMPU-NUMERATOR" [leaf "V" "-41", leaf "V" "1"], node "COMPU-DENOMINATOR" [leaf "V" "2"]]]]]],
     named "UNIT" "Degree" [leaf "DISPLAY-NAME" "°C"],
     named "I-SIGNAL" "Level" [leaf "LENGTH" "8", node "INIT-VALUE" [node "NUMERICAL-VALUE-SPECIFICATION" [leaf "VALUE" "empty"]]],
     named "I-SIGNAL" "Odd" [leaf "LENGTH" "8", link "SYSTEM-SIGNAL-REF" "SYSTEM-SIGNAL" "/P/Sys",
      node "NETWORK-REPRESENTATION-PROPS" [node "SW-DATA-DEF-PROPS-VARIANTS" [node "SW-DATA-DEF-PROPS-CONDITIONAL"
        [link "BASE-TYPE-REF" "SW-BASE-TYPE" "/P/Magnitude"]]]],
     named "SW-BASE-TYPE" "Magnitude" [leaf "BASE-TYPE-ENCODING" "SM"],
     named "I-SIGNAL-I-PDU" "Pdu4" [node "I-SIGNAL-TO-PDU-MAPPINGS"
      [named "I-SIGNAL-TO-I-PDU-MAPPING" "m1" [link "I-SIGNAL-REF" "I-SIGNAL" "/P/Level", leaf "START-POSITION" "0"],
       named "I-SIGNAL-TO-I-PDU-MAPPING" "m2" [link "I-SIGNAL-REF" "I-SIGNAL" "/P/Temp", leaf "START-POSITION" "8"]]],
     pdu "Pdu5" "/P/Bad" "0",
     named "I-SIGNAL" "Bad" [leaf "LENGTH" "8", node "NETWORK-REPRESENTATION-PROPS" [node "SW-DATA-DEF-PROPS-VARIANTS"
      [node "SW-DATA-DEF-PROPS-CONDITIONAL" [link "BASE-TYPE-REF" "SW-BASE-TYPE" "/P/Bare"]]]],
     named "SW-BASE-TYPE" "Bare" [],
     named "CAN-FRAME" "F4" [leaf "FRAME-LENGTH" "4", node "PDU-TO-FRAME-MAPPINGS"
      [named "PDU-TO-FRAME-MAPPING" "m" [link "PDU-REF" "SECURED-I-PDU" "/P/Sec", leaf "START-POSITION" "0"]]],
     named "SECURED-I-PDU" "Sec"
      [leaf "LENGTH" "4", link "AUTHENTICATION-PROPS-REF" "SECURE-COMMUNICATION-AUTHENTICATION-PROPS" "/P/Cmac",
       link "FRESHNESS-PROPS-REF" "SECURE-COMMUNICATION-FRESHNESS-PROPS" "/P/Count",
       link "PAYLOAD-REF" "PDU-TRIGGERING" "/P/Trig", node "SECURE-COMMUNICATION-PROPS" [leaf "DATA-ID" "19"]],
     named "SECURE-COMMUNICATION-AUTHENTICATION-PROPS" "Cmac" [leaf "AUTH-INFO-TX-LENGTH" "12"],
     named "SECURE-COMMUNICATION-FRESHNESS-PROPS" "Count" [leaf "FRESHNESS-VALUE-LENGTH" "8", leaf "FRESHNESS-VALUE-TX-LENGTH" "4"],
     named "PDU-TRIGGERING" "Trig" [link "I-PDU-REF" "I-SIGNAL-I-PDU" "/P/Pdu6"],
     named "I-SIGNAL-I-PDU" "Pdu6" [node "I-SIGNAL-TO-PDU-MAPPINGS"
      [named "I-SIGNAL-TO-I-PDU-MAPPING" "m1" [link "I-SIGNAL-REF" "I-SIGNAL" "/P/Temp", leaf "START-POSITION" "8"],
       named "I-SIGNAL-TO-I-PDU-MAPPING" "m2" [link "I-SIGNAL-GROUP-REF" "I-SIGNAL-GROUP" "/P/Group"]], leaf "LENGTH" "2"],
     named "I-SIGNAL-GROUP" "Group" [node "TRANSFORMATION-I-SIGNAL-PROPSS" [node "END-TO-END-TRANSFORMATION-I-SIGNAL-PROPS"
      [node "END-TO-END-TRANSFORMATION-I-SIGNAL-PROPS-VARIANTS" [node "END-TO-END-TRANSFORMATION-I-SIGNAL-PROPS-CONDITIONAL"
        [link "TRANSFORMER-REF" "TRANSFORMATION-TECHNOLOGY" "/P/Tech", node "DATA-IDS" [leaf "DATA-ID" "17", leaf "DATA-ID" "18"]]]]]],
     named "TRANSFORMATION-TECHNOLOGY" "Tech" [node "TRANSFORMATION-DESCRIPTIONS"
      [node "END-TO-END-TRANSFORMATION-DESCRIPTION" [leaf "PROFILE-NAME" "PROFILE_05"]]]]]]]

/-- The numbers in this document need no `float`. -/
def F : FloatRead := { float := fun _ => none, fromHex := fun _ => none }

def refsOf (root : Xml) : Refs := match createDicts root with | .ok r => r | .error _ => {}

/-- The dictionaries for the references of the document. -/
def docRefs : Refs :=
  { refsOf doc with nodeAt :=
    [(['/', 'P'], [0, 0]),
     (['/', 'P', '/', 'B', 'u', 's'], [0, 0, 1, 0]),
     (['/', 'P', '/', 'B', 'u', 's', '/', 'c', 'h'], [0, 0, 1, 0, 1, 0, 0, 0]),
     (['/', 'P', '/', 'B', 'u', 's', '/', 'c', 'h', '/', 't', '1'], [0, 0, 1, 0, 1, 0, 0, 0, 1, 0]),
     (['/', 'P', '/', 'B', 'u', 's', '/', 'c', 'h', '/', 't', '2'], [0, 0, 1, 0, 1, 0, 0, 0, 1, 1]),
     (['/', 'P', '/', 'B', 'u', 's', '/', 'c', 'h', '/', 't', '3'], [0, 0, 1, 0, 1, 0, 0, 0, 1, 2]),
     (['/', 'P', '/', 'B', 'u', 's', '/', 'c', 'h', '/', 't', '4'], [0, 0, 1, 0, 1, 0, 0, 0, 1, 3]),
     (['/', 'P', '/', 'F', '1'], [0, 0, 1, 1]),
     (['/', 'P', '/', 'F', '1', '/', 'm'], [0, 0, 1, 1, 2, 0]),
     (['/', 'P', '/', 'F', '2'], [0, 0, 1, 2]),
     (['/', 'P', '/', 'F', '2', '/', 'm'], [0, 0, 1, 2, 2, 0]),
     (['/', 'P', '/', 'F', '3'], [0, 0, 1, 3]),
     (['/', 'P', '/', 'F', '3', '/', 'm'], [0, 0, 1, 3, 2, 0]),
     (['/', 'P', '/', 'P', 'd', 'u', '1'], [0, 0, 1, 4]),
     (['/', 'P', '/', 'P', 'd', 'u', '1', '/', 'm'], [0, 0, 1, 4, 1, 0]),
     (['/', 'P', '/', 'P', 'd', 'u', '2'], [0, 0, 1, 5]),
     (['/', 'P', '/', 'P', 'd', 'u', '2', '/', 'm'], [0, 0, 1, 5, 1, 0]),
     (['/', 'P', '/', 'P', 'd', 'u', '3'], [0, 0, 1, 6]),
     (['/', 'P', '/', 'P', 'd', 'u', '3', '/', 'm'], [0, 0, 1, 6, 1, 0]),
     (['/', 'P', '/', 'M', 'u', 'x'], [0, 0, 1, 7]),
     (['/', 'P', '/', 'T', 'e', 'm', 'p'], [0, 0, 1, 8]),
     (['/', 'P', '/', 'S', 'y', 's'], [0, 0, 1, 9]),
     (['/', 'P', '/', 'H', 'a', 'l', 'f'], [0, 0, 1, 10]),
     (['/', 'P', '/', 'D', 'e', 'g', 'r', 'e', 'e'], [0, 0, 1, 11]),
     (['/', 'P', '/', 'L', 'e', 'v', 'e', 'l'], [0, 0, 1, 12]),
     (['/', 'P', '/', 'O', 'd', 'd'], [0, 0, 1, 13]),
     (['/', 'P', '/', 'M', 'a', 'g', 'n', 'i', 't', 'u', 'd', 'e'], [0, 0, 1, 14]),
     (['/', 'P', '/', 'P', 'd', 'u', '4'], [0, 0, 1, 15]),
     (['/', 'P', '/', 'P', 'd', 'u', '4', '/', 'm', '1'], [0, 0, 1, 15, 1, 0]),
     (['/', 'P', '/', 'P', 'd', 'u', '4', '/', 'm', '2'], [0, 0, 1, 15, 1, 1]),
     (['/', 'P', '/', 'P', 'd', 'u', '5'], [0, 0, 1, 16]),
     (['/', 'P', '/', 'P', 'd', 'u', '5', '/', 'm'], [0, 0, 1, 16, 1, 0]),
     (['/', 'P', '/', 'B', 'a', 'd'], [0, 0, 1, 17]),
     (['/', 'P', '/', 'B', 'a', 'r', 'e'], [0, 0, 1, 18]),
     (['/', 'P', '/', 'F', '4'], [0, 0, 1, 19]),
     (['/', 'P', '/', 'F', '4', '/', 'm'], [0, 0, 1, 19, 2, 0]),
     (['/', 'P', '/', 'S', 'e', 'c'], [0, 0, 1, 20]),
     (['/', 'P', '/', 'C', 'm', 'a', 'c'], [0, 0, 1, 21]),
     (['/', 'P', '/', 'C', 'o', 'u', 'n', 't'], [0, 0, 1, 22]),
     (['/', 'P', '/', 'T', 'r', 'i', 'g'], [0, 0, 1, 23]),
     (['/', 'P', '/', 'P', 'd', 'u', '6'], [0, 0, 1, 24]),
     (['/', 'P', '/', 'P', 'd', 'u', '6', '/', 'm', '1'], [0, 0, 1, 24, 1, 0]),
     (['/', 'P', '/', 'P', 'd', 'u', '6', '/', 'm', '2'], [0, 0, 1, 24, 1, 1]),
     (['/', 'P', '/', 'G', 'r', 'o', 'u', 'p'], [0, 0, 1, 25]),
     (['/', 'P', '/', 'T', 'e', 'c', 'h'], [0, 0, 1, 26])] }

theorem doc_ok : createDicts doc = .ok docRefs := by
  have h : (match createDicts doc with | .ok r => r.nodeAt == docRefs.nodeAt | .error _ => false) = true := by decide +kernel
  have e : docRefs = { refsOf doc with nodeAt := docRefs.nodeAt } := rfl
  rw [e]
  generalize docRefs.nodeAt = x at h
  unfold refsOf
  cases hc : createDicts doc with
  | error e => rw [hc] at h; cases h
  | ok r =>
    rw [hc] at h
    rw [← LawfulBEq.eq_of_beq h]

theorem doc_regular : Regular doc := by
  refine ⟨?_, ?_, ?_⟩
  · apply all_of_entries
    have : ∀ e ∈ ArxmlRef.entries doc, ∀ c ∈ kids e.elem "SHORT-NAME",
        (c.text.any fun t => !t.toList.contains '/') = true := by decide +kernel
    intro e he c hc
    have := this e he c hc
    rw [Option.any_eq_true] at this
    obtain ⟨t, h1, h2⟩ := this
    exact ⟨t, h1, by simpa using h2⟩
  · apply all_of_entries
    have h1 : ∀ e ∈ ArxmlRef.entries doc, e.elem.tag = "AR-PACKAGE" → shortName e.elem ≠ [] ∧
      ∀ e' ∈ ArxmlRef.entries doc, e'.pos <+: e.pos → shortName e'.elem ≠ [] → e'.elem.tag = "AR-PACKAGE" := by
      decide +kernel
    intro e he ht
    refine ⟨(h1 e he ht).1, ?_⟩
    intro q y hq hy
    exact (h1 e he ht).2 ⟨q, y, ArxmlRef.textTo doc q, ArxmlRef.pkgTo doc q⟩ (ArxmlRef.mem_entries.2 ⟨hy, rfl, rfl⟩) hq
  · apply all_of_entries
    have h1 : ∀ e ∈ ArxmlRef.entries doc, e.elem.tag ≠ "REFERENCE-BASE" := by decide +kernel
    exact fun e he ht => absurd ht (h1 e he)

theorem doc_plain : NoStray doc := by
  have h : ∀ e ∈ ArxmlRef.entries doc, ∀ t ∈ plainTags, e.elem.tag ≠ t ++ "-REF" := by decide +kernel
  unfold NoStray
  apply all_of_entries (P := fun _ x => ∀ t ∈ plainTags, x.tag ≠ t ++ "-REF")
  exact h

def write (a : LocAtom) : String := (if a.many then "*" else "") ++ (if a.refs then "&" else "") ++ a.tag

def locates (bs : Pos) (loc : List LocAtom) (l : List Pos) : Bool :=
  okAtoms (loc.map write) loc && decide (ArxmlRef.getChildren doc (docRefs) [bs] (loc.map write) = .ok l)

theorem located {b : Pos} {loc : List LocAtom} {l : List Pos} (h : locates b loc l = true) : Locate doc loc [b] l := by
  unfold locates at h
  rw [Bool.and_eq_true, decide_eq_true_iff] at h
  obtain ⟨h1, h2⟩ := okAtoms_says h.1
  exact (C53_children_partial doc_regular doc_ok h1 _ _ (ArxmlRef.noStrayAt_of fun a ha hf p x hx => doc_plain p x hx _ (h2 a ha hf))).1 h.2

theorem texts {b p : Pos} {loc : List LocAtom} {t : String} (h : locates b loc [p] = true)
    (ht : ((at? doc p).bind Xml.text) = some t) : TextAt doc b loc t := by
  obtain ⟨x, h1, h2⟩ := Option.bind_eq_some_iff.1 ht
  exact ⟨p, x, located h, h1, h2⟩

theorem digits {d : Nat} {ds : List Nat} {t : String} (hd : 0 < d) (hds : ∀ x ∈ d :: ds, x < 10)
    (ht : t.toList = digitText (d :: ds)) (hf : ∀ c ∈ t.toList, c.toLower ≠ '.' ∧ c.toLower ≠ 'e' ∧ c.toLower ≠ '+' ∧ c.toLower ≠ '-' ∧ c.toLower = c) :
    PlainNumber F t.toList ((Nat.ofDigits 10 (d :: ds).reverse : Nat) : Int) := by
  refine ArxmlScaleExample.plain (a := []) (w := t.toList) (b := []) ?_ (by simp) (by simp) (fun c hc => ⟨(hf c hc).1, (hf c hc).2.1⟩)
    (.inl fun c hc => ⟨(hf c hc).2.2.1, (hf c hc).2.2.2.1⟩)
  have e : t.toList.map Char.toLower = t.toList := by
    conv_rhs => rw [← List.map_id t.toList]
    exact List.map_congr_left fun c hc => (hf c hc).2.2.2.2
  rw [e, ht]
  exact .decimal .none hd hds

theorem n0 : PlainNumber F "0".toList ((0 : Nat) : Rat) := by
  have := ArxmlScaleExample.plain (F := F) (a := []) (w := "0".toList) (b := []) (t := "0".toList) (.zero .none) rfl (by decide) (by decide)
    (by decide)
  exact_mod_cast this

theorem n41 : PlainNumber F "-41".toList (-41) := by
  have := ArxmlScaleExample.plain (F := F) (a := []) (w := "-41".toList) (b := []) (t := "-41".toList)
    (.decimal .minus (d := 4) (ds := [1]) (by decide) (by decide)) rfl (by decide) (by decide) (by decide)
  exact_mod_cast this

theorem n1 : PlainNumber F "1".toList ((1 : Nat) : Rat) := digits (d := 1) (ds := []) (by decide) (by decide) rfl (by decide)
theorem n2 : PlainNumber F "2".toList ((2 : Nat) : Rat) := digits (d := 2) (ds := []) (by decide) (by decide) rfl (by decide)
theorem n4 : PlainNumber F "4".toList ((4 : Nat) : Rat) := digits (d := 4) (ds := []) (by decide) (by decide) rfl (by decide)
theorem n8 : PlainNumber F "8".toList ((8 : Nat) : Rat) := digits (d := 8) (ds := []) (by decide) (by decide) rfl (by decide)
theorem n12 : PlainNumber F "12".toList ((12 : Nat) : Rat) := digits (d := 1) (ds := [2]) (by decide) (by decide) rfl (by decide)
theorem n17 : PlainNumber F "17".toList ((17 : Nat) : Rat) := digits (d := 1) (ds := [7]) (by decide) (by decide) rfl (by decide)
theorem n18 : PlainNumber F "18".toList ((18 : Nat) : Rat) := digits (d := 1) (ds := [8]) (by decide) (by decide) rfl (by decide)
theorem n19 : PlainNumber F "19".toList ((19 : Nat) : Rat) := digits (d := 1) (ds := [9]) (by decide) (by decide) rfl (by decide)
theorem n200 : PlainNumber F "200".toList ((200 : Nat) : Rat) :=
  digits (d := 2) (ds := [0, 0]) (by decide) (by decide) rfl (by decide)

/-- The position of an element of the package. -/
def el (i : Nat) (p : Pos) : Pos := [0, 0, 1, i] ++ p

def half : ScaleContent := { lower := some 0, upper := some 200, body := .linear (-41) 1 2 }

theorem half_increasing : Increasing half := by
  refine ⟨-41, 1, 2, rfl, by norm_num, ?_⟩
  intro l u hl hu
  obtain rfl := Option.some.inj hl
  obtain rfl := Option.some.inj hu
  norm_num

theorem half_says : MethodSays F doc (el 10 []) (some (.linear, [half])) := by
  refine .scales (t := "LINEAR") (ps := [el 10 [3, 0, 0]]) (texts (p := el 10 [1]) (by decide +kernel) (by decide +kernel)) .linear
    (located (by decide +kernel)) (.cons ?_ .nil) ⟨?_, by simp, by simp⟩ ⟨by simp, ?_⟩
  · refine .rational (c := el 10 [3, 0, 0, 2]) (p0 := el 10 [3, 0, 0, 2, 0, 0]) (p1 := el 10 [3, 0, 0, 2, 0, 1])
      (pd := el 10 [3, 0, 0, 2, 1, 0]) ?_ ?_ (located (by decide +kernel)) (located (by decide +kernel))
      (located (by decide +kernel)) (located (by decide +kernel)) ⟨_, _, rfl, rfl, n41⟩ ⟨_, _, rfl, rfl, ?_⟩
      ⟨_, _, rfl, rfl, ?_⟩ (by norm_num)
    · exact ⟨"0", texts (p := el 10 [3, 0, 0, 0]) (by decide +kernel) (by decide +kernel), by exact_mod_cast n0⟩
    · exact ⟨"200", texts (p := el 10 [3, 0, 0, 1]) (by decide +kernel) (by decide +kernel), by exact_mod_cast n200⟩
    · exact_mod_cast n1
    · exact_mod_cast n2
  · exact fun c hc => by obtain rfl := List.mem_singleton.1 hc; exact .inr half_increasing
  · exact fun c hc => by obtain rfl := List.mem_singleton.1 hc; exact half_increasing

def temp : SignalContent :=
  { name := "Temp", start := 8, length := 8, order := .little, isSigned := false, isFloat := false
    scales := some (.linear, [half]), unit := some "°C", initial := none, invalid := none }

def level : SignalContent :=
  { name := "Level", start := 0, length := 8, order := .little, isSigned := false, isFloat := false
    scales := none, unit := none, initial := none, invalid := none }

theorem temp_says {m : Pos} (h1 : locates m [ref "I-SIGNAL"] [el 8 []] = true)
    (h2 : locates m [elem "START-POSITION"] [m ++ [2]] = true) (h3 : ((at? doc (m ++ [2])).bind Xml.text) = some "8")
    (h4 : locates m [elem "PACKING-BYTE-ORDER"] [] = true) : SignalSays F doc m (el 8 []) (some (el 9 [])) temp where
  signal := located h1
  system := located (by decide +kernel)
  isSignal := by rintro s x ⟨⟩ h; rw [← Option.some.inj h]; rfl
  name := texts (p := el 8 [0]) (by decide +kernel) (by decide +kernel)
  leaf := ⟨some (el 9 [0]), located (by decide +kernel), by rintro p x ⟨⟩ h; rw [← Option.some.inj h]; rfl⟩
  start := ⟨"8", texts h2 h3, n8⟩
  length := ⟨"8", texts (p := el 8 [1]) (by decide +kernel) (by decide +kernel), n8⟩
  order := .inl ⟨located h4, rfl⟩
  type := .default (located (by decide +kernel))
  scales := .method (c := el 10 []) (located (by decide +kernel)) half_says
    (.inl ⟨"°C", .inr ⟨located (by decide +kernel), _, rfl,
      texts (p := el 11 [1]) (by decide +kernel) (by decide +kernel)⟩, by decide⟩)
  float := nofun
  initial := .none (located (by decide +kernel)) (located (by decide +kernel))
  invalid := located (by decide +kernel)

theorem level_says {m : Pos} (h1 : locates m [ref "I-SIGNAL"] [el 12 []] = true)
    (h2 : locates m [elem "START-POSITION"] [m ++ [2]] = true) (h3 : ((at? doc (m ++ [2])).bind Xml.text) = some "0")
    (h4 : locates m [elem "PACKING-BYTE-ORDER"] [] = true) : SignalSays F doc m (el 12 []) none level where
  signal := located h1
  system := located (by decide +kernel)
  isSignal := nofun
  name := texts (p := el 12 [0]) (by decide +kernel) (by decide +kernel)
  leaf := ⟨none, located (by decide +kernel), nofun⟩
  start := ⟨"0", texts h2 h3, n0⟩
  length := ⟨"8", texts (p := el 12 [1]) (by decide +kernel) (by decide +kernel), n8⟩
  order := .inl ⟨located h4, rfl⟩
  type := .default (located (by decide +kernel))
  scales := .none
  float := nofun
  initial := .word (t := "empty") ⟨by decide +kernel, by decide +kernel, ⟨by decide +kernel, by decide +kernel⟩, rfl⟩
    (texts (p := el 12 [2, 0, 0]) (by decide +kernel) (by decide +kernel))
  invalid := located (by decide +kernel)

theorem pdu1_says : PduSays F doc (.plain [temp]) (el 4 []) := by
  rw [PduSays]
  exact ⟨⟨"I-SIGNAL-I-PDU", ⟨_, rfl, rfl⟩, by decide, by decide, by decide⟩, [el 4 [1, 0]], [], located (by decide +kernel),
    located (by decide +kernel), .signal (temp_says (by decide +kernel) (by decide +kernel) (by decide +kernel) (by decide +kernel)) .nil⟩

theorem pdu2_says : PduSays F doc (.plain [level]) (el 5 []) := by
  rw [PduSays]
  exact ⟨⟨"I-SIGNAL-I-PDU", ⟨_, rfl, rfl⟩, by decide, by decide, by decide⟩, [el 5 [1, 0]], [], located (by decide +kernel),
    located (by decide +kernel), .signal (level_says (by decide +kernel) (by decide +kernel) (by decide +kernel) (by decide +kernel)) .nil⟩

theorem pdu4_says : PduSays F doc (.plain [level, temp]) (el 15 []) := by
  rw [PduSays]
  exact ⟨⟨"I-SIGNAL-I-PDU", ⟨_, rfl, rfl⟩, by decide, by decide, by decide⟩, [el 15 [1, 0], el 15 [1, 1]], [],
    located (by decide +kernel), located (by decide +kernel),
    .signal (level_says (by decide +kernel) (by decide +kernel) (by decide +kernel) (by decide +kernel))
      (.signal (temp_says (by decide +kernel) (by decide +kernel) (by decide +kernel) (by decide +kernel)) .nil)⟩

theorem leads {b r p : Pos} {x y : Xml} {t : String} (hb : at? doc b = some y) (h1 : at? doc r = some x) (h2 : x.text = some t)
    (h : ArxmlRef.follow doc docRefs b t.toList (x.attr? "DEST") ((x.attr? "BASE").map String.toList) = .ok (some p)) :
    RefLeads doc b r p :=
  ⟨x, t, h1, h2, ((C53_follow doc_regular doc_ok hb _ _ _).1 p).1 h⟩

def mux : PduContent := .multiplexed [] 0 8 .little (.cons 1 true (.plain [level, temp]) .nil) .nil

theorem mux_says : PduSays F doc mux (el 7 []) := by
  rw [mux, PduSays]
  refine ⟨⟨_, rfl, rfl⟩, ⟨[], [], located (by decide +kernel), located (by decide +kernel), .nil⟩,
    ⟨"0", texts (p := el 7 [2]) (by decide +kernel) (by decide +kernel), n0⟩,
    ⟨"8", texts (p := el 7 [1]) (by decide +kernel) (by decide +kernel), n8⟩, .inl ⟨located (by decide +kernel), rfl⟩,
    ⟨[el 7 [3, 0, 0, 0]], located (by decide +kernel), ?_⟩, [], located (by decide +kernel), by rw [StaticsSay]⟩
  rw [AltsSay]
  refine ⟨_, _, rfl, ⟨el 15 [], ⟨⟨"1", texts (p := el 7 [3, 0, 0, 0, 2]) (by decide +kernel) (by decide +kernel), by exact_mod_cast n1⟩,
    ⟨el 7 [3, 0, 0, 0, 1], located (by decide +kernel), leads rfl rfl rfl (by decide +kernel)⟩, located (by decide +kernel),
    .inl ⟨rfl, texts (p := el 7 [3, 0, 0, 0, 0]) (by decide +kernel) (by decide +kernel)⟩⟩, pdu4_says⟩, by rw [AltsSay]⟩

theorem sec_says : PduSays F doc (.secured (.plain [temp])) (el 20 []) := by
  rw [PduSays]
  refine ⟨⟨_, rfl, rfl⟩, el 24 [], located (by decide +kernel), ?_⟩
  rw [PduSays]
  exact ⟨⟨"I-SIGNAL-I-PDU", ⟨_, rfl, rfl⟩, by decide, by decide, by decide⟩, [el 24 [1, 0], el 24 [1, 1]], [], located (by decide +kernel),
    located (by decide +kernel), .signal (temp_says (by decide +kernel) (by decide +kernel) (by decide +kernel) (by decide +kernel))
      (.group (.inl (located (by decide +kernel))) .nil)⟩

def secoc : Loader.SecOC :=
  { authAlgorithm := some "Cmac", freshnessAlgorithm := some "Count", payloadLength := 2, dataId := some 19
    freshnessBits := some 8, freshnessTxBits := some 4, authTxBits := some 12 }

def e2e : Loader.EndToEnd := { category := some "PROFILE_05", dataIds := [17, 18], payloadLength := 2 }

theorem secoc_says : SecuredSays F doc (el 20 []) (el 24 []) secoc where
  payload := located (by decide +kernel)
  payloadLength := ⟨"2", texts (p := el 24 [2]) (by decide +kernel) (by decide +kernel), n2⟩
  authAlgorithm := texts (p := el 21 [0]) (by decide +kernel) (by decide +kernel)
  freshnessAlgorithm := texts (p := el 22 [0]) (by decide +kernel) (by decide +kernel)
  dataId := ⟨"19", texts (p := el 20 [5, 0]) (by decide +kernel) (by decide +kernel), by exact_mod_cast n19⟩
  authTxBits := ⟨"12", texts (p := el 21 [1]) (by decide +kernel) (by decide +kernel), by exact_mod_cast n12⟩
  freshnessBits := ⟨"8", texts (p := el 22 [1]) (by decide +kernel) (by decide +kernel), by exact_mod_cast n8⟩
  freshnessTxBits := ⟨"4", texts (p := el 22 [2]) (by decide +kernel) (by decide +kernel), by exact_mod_cast n4⟩

theorem e2e_says : GroupE2eSays F doc (el 24 []) (some e2e) :=
  .protection (gs := []) (g := el 25 []) (t := el 25 [1, 0, 0, 0]) (ps := [el 25 [1, 0, 0, 0, 1, 0], el 25 [1, 0, 0, 0, 1, 1]])
    (located (by decide +kernel)) (located (by decide +kernel))
    (texts (p := el 26 [1, 0, 0]) (by decide +kernel) (by decide +kernel)) (located (by decide +kernel))
    (.cons ⟨_, _, rfl, rfl, by exact_mod_cast n17⟩ (.cons ⟨_, _, rfl, rfl, by exact_mod_cast n18⟩ .nil))
    ⟨"2", texts (p := el 24 [2]) (by decide +kernel) (by decide +kernel), n2⟩

/-- The positions of the triggerings. -/
def trig (i : Nat) : Pos := el 0 [1, 0, 0, 0, 1, i]

def content (id : Int) (name : String) (c : PduContent) : FrameContent :=
  { bus := "Bus", frameId := id, isExtended := true, isFd := false, name := name, length := 2, pdu := some (c, 255) }

def trigs : List (String × Pos) := [("Bus", trig 0), ("Bus", trig 1), ("Bus", trig 2), ("Bus", trig 3)]

def frames : List FrameContent := [content 17 "F1" (.plain [temp]), content 18 "F2" (.plain [level]), content 19 "F3" mux,
  { content 8 "F4" (.secured (.plain [temp])) with length := 4, secoc := some secoc, e2e := some e2e }]

theorem doc_says : Describes F doc trigs frames where
  regular := doc_regular
  accepted := (C53_accepted doc_regular).1.1 ⟨_, doc_ok⟩
  plain := doc_plain
  packages := ⟨_, List.mem_singleton.2 rfl, rfl⟩
  triggerings :=
    ⟨[[0, 0]], [trigs], packages_exist doc,
      .cons ⟨[el 0 []], [trigs], located (by decide +kernel),
        .cons ⟨"Bus", [trig 0, trig 1, trig 2, trig 3], texts (p := el 0 [0]) (by decide +kernel) (by decide +kernel),
          located (by decide +kernel), rfl⟩ .nil, rfl⟩ .nil, rfl⟩
  frames :=
    .cons ⟨rfl, el 1 [], located (by decide +kernel),
      ⟨"17", texts (p := trig 0 ++ [3]) (by decide +kernel) (by decide +kernel), by exact_mod_cast n17⟩,
      ⟨some "EXTENDED", texts (p := trig 0 ++ [2]) (by decide +kernel) (by decide +kernel), by decide⟩,
      ⟨none, none, located (by decide +kernel), located (by decide +kernel), by decide⟩,
      texts (p := el 1 [0]) (by decide +kernel) (by decide +kernel),
      ⟨"2", texts (p := el 1 [1]) (by decide +kernel) (by decide +kernel), n2⟩,
      .pdu (p := el 4 []) (r := el 1 [2, 0, 1]) (located (by decide +kernel)) (located (by decide +kernel))
        (leads rfl rfl rfl (by decide +kernel)) pdu1_says (.inr ⟨located (by decide +kernel), rfl⟩),
      .pdu (p := el 4 []) (n := 2) (located (by decide +kernel)) ⟨"2", texts (p := el 4 [2]) (by decide +kernel) (by decide +kernel), n2⟩
        (.plain ⟨_, rfl, rfl⟩ (by decide) (.noGroup (located (by decide +kernel))))⟩
    (.cons ⟨rfl, el 2 [], located (by decide +kernel),
      ⟨"18", texts (p := trig 1 ++ [3]) (by decide +kernel) (by decide +kernel), by exact_mod_cast n18⟩,
      ⟨some "EXTENDED", texts (p := trig 1 ++ [2]) (by decide +kernel) (by decide +kernel), by decide⟩,
      ⟨none, none, located (by decide +kernel), located (by decide +kernel), by decide⟩,
      texts (p := el 2 [0]) (by decide +kernel) (by decide +kernel),
      ⟨"2", texts (p := el 2 [1]) (by decide +kernel) (by decide +kernel), n2⟩,
      .pdu (p := el 5 []) (r := el 2 [2, 0, 1]) (located (by decide +kernel)) (located (by decide +kernel))
        (leads rfl rfl rfl (by decide +kernel)) pdu2_says (.inr ⟨located (by decide +kernel), rfl⟩),
      .pdu (p := el 5 []) (n := 2) (located (by decide +kernel)) ⟨"2", texts (p := el 5 [2]) (by decide +kernel) (by decide +kernel), n2⟩
        (.plain ⟨_, rfl, rfl⟩ (by decide) (.noGroup (located (by decide +kernel))))⟩
    (.cons ⟨rfl, el 3 [], located (by decide +kernel),
      ⟨"19", texts (p := trig 2 ++ [3]) (by decide +kernel) (by decide +kernel), by exact_mod_cast n19⟩,
      ⟨some "EXTENDED", texts (p := trig 2 ++ [2]) (by decide +kernel) (by decide +kernel), by decide⟩,
      ⟨none, none, located (by decide +kernel), located (by decide +kernel), by decide⟩,
      texts (p := el 3 [0]) (by decide +kernel) (by decide +kernel),
      ⟨"2", texts (p := el 3 [1]) (by decide +kernel) (by decide +kernel), n2⟩,
      .pdu (p := el 7 []) (r := el 3 [2, 0, 1]) (located (by decide +kernel)) (located (by decide +kernel))
        (leads rfl rfl rfl (by decide +kernel)) mux_says (.inr ⟨located (by decide +kernel), rfl⟩),
      .pdu (p := el 7 []) (n := 2) (located (by decide +kernel)) ⟨"2", texts (p := el 7 [4]) (by decide +kernel) (by decide +kernel), n2⟩
        (.plain ⟨_, rfl, rfl⟩ (by decide) (.noGroup (located (by decide +kernel))))⟩
    (.cons ⟨rfl, el 19 [], located (by decide +kernel),
      ⟨"8", texts (p := trig 3 ++ [3]) (by decide +kernel) (by decide +kernel), by exact_mod_cast n8⟩,
      ⟨some "EXTENDED", texts (p := trig 3 ++ [2]) (by decide +kernel) (by decide +kernel), by decide⟩,
      ⟨none, none, located (by decide +kernel), located (by decide +kernel), by decide⟩,
      texts (p := el 19 [0]) (by decide +kernel) (by decide +kernel),
      ⟨"4", texts (p := el 19 [1]) (by decide +kernel) (by decide +kernel), n4⟩,
      .pdu (p := el 20 []) (r := el 19 [2, 0, 1]) (located (by decide +kernel)) (located (by decide +kernel))
        (leads rfl rfl rfl (by decide +kernel)) sec_says (.inr ⟨located (by decide +kernel), rfl⟩),
      .pdu (p := el 20 []) (n := 4) (located (by decide +kernel)) ⟨"4", texts (p := el 20 [1]) (by decide +kernel) (by decide +kernel), n4⟩
        (.payload ⟨_, rfl, rfl⟩ secoc_says (.noGroup (located (by decide +kernel))) e2e_says)⟩ .nil)))

theorem shallow : ∀ d ∈ frames, d.depth ≤ 2 := by decide +kernel

def load' : Except Err (List Loader.Loaded) := do
  let frames ← (Loader.mk doc docRefs F).loadFrames 2
  frames.mapM (Loader.makeMessage true .default)

def msgs : List Loader.Loaded := match load' with | .ok ms => ms | .error _ => []

theorem loaded : load F doc 2 true .default = .ok msgs := by
  refine (Cdd.bind_of_ok doc_ok).trans ?_
  have : (match load' with | .ok _ => true | .error _ => false) = true := by decide +kernel
  show load' = _
  unfold msgs
  cases h : load' with
  | error e => rw [h] at this; cases this
  | ok r => rfl

theorem at0 : PduAtByte F doc (trig 0) 0 :=
  ⟨el 1 [], located (by decide +kernel), "0", texts (p := el 1 [2, 0, 2]) (by decide +kernel) (by decide +kernel), n0⟩
theorem at1 : PduAtByte F doc (trig 1) 1 :=
  ⟨el 2 [], located (by decide +kernel), "8", texts (p := el 2 [2, 0, 2]) (by decide +kernel) (by decide +kernel), n8⟩
theorem at2 : PduAtByte F doc (trig 2) 0 :=
  ⟨el 3 [], located (by decide +kernel), "0", texts (p := el 3 [2, 0, 2]) (by decide +kernel) (by decide +kernel), n0⟩

theorem at3 : PduAtByte F doc (trig 3) 0 :=
  ⟨el 19 [], located (by decide +kernel), "0", texts (p := el 19 [2, 0, 2]) (by decide +kernel) (by decide +kernel), n0⟩

theorem msg (k : Nat) (hk : k < 4) : ∃ l, msgs[k]? = some l := by
  have h : msgs.length = 4 := by decide +kernel
  revert h
  generalize msgs = ms
  intro h
  exact ⟨ms[k]'(by omega), List.getElem?_eq_getElem _⟩

end ArxmlFile.Example

open ArxmlFile.Example

/-- The messages of the document. -/
example : List.Forall₂ MessageIs frames msgs := C54_messages_partial doc_says shallow loaded

/-- What is decoded from the frame `F1`: the temperature. -/
example : ∃ l r v, msgs[0]? = some l ∧ decode Example.fo l.message [7, 100] true true false false = .ok r ∧
    r.map (·.1) = ["Temp"] ∧ dictGet? r "Temp" = some v ∧ v = .num (59 / 2) := by
  obtain ⟨l, hl⟩ := msg 0 (by decide)
  obtain ⟨r, h1, h2, h3, h4⟩ := C54_decode_plain_partial (fo := Example.fo) doc_says shallow loaded (trig := ("Bus", trig 0)) rfl rfl hl rfl rfl rfl
    (by decide) at0 rfl (data := [7, 100]) rfl
  obtain ⟨raw, v, k1, k2, k3⟩ := h4.1 temp (by simp)
  have hk : r.map (·.1) = ["Temp"] := by
    have hm : ∀ n, n ∈ r.map (·.1) ↔ n = "Temp" := fun n => (h3 n).trans (by simp [temp, content, FrameContent.trailer, trailerIn])
    cases hr : r.map (·.1) with
    | nil => exact absurd ((hm "Temp").2 rfl) (by rw [hr]; simp)
    | cons a t =>
      rw [hr] at hm h2
      obtain rfl := (hm a).1 (by simp)
      cases t with
      | nil => rfl
      | cons b t =>
        obtain rfl := (hm b).1 (by simp)
        simp at h2
  refine ⟨l, r, v, hl, h1, hk, k2, ?_⟩
  have hraw : raw = 100 := by
    unfold RawIn at k1
    rw [if_neg (by decide)] at k1
    obtain ⟨i, rfl, hi⟩ := k1
    have : ReadsAs (fieldOf temp) [7, 100] 100 := by
      refine ⟨?_, by decide +kernel⟩
      unfold InRange
      rw [if_neg (by decide)]
      decide +kernel
    rw [readsAs_unique (s := fieldOf temp) (by decide) hi this]
    rfl
  rw [k3.linear _ rfl half (by simp) _ _ _ rfl, hraw]
  norm_num

/-- The secured frame `F4`: the temperature, the freshness value and the authenticator. -/
example : (msgs[3]?.map fun l => ((decode Example.fo l.message [7, 100, 0x5a, 0xbc] true true false false).toOption, l.secoc, l.e2e)) =
    some (some [("Temp", .num (59 / 2)), ("F4_Freshness", .num 5), ("F4_Authenticator", .num 0xabc)], some secoc, some e2e) := by
  decide +kernel

example : ∃ l r i, msgs[3]? = some l ∧ decode Example.fo l.message [7, 100, 0x5a, 0xbc] true true false false = .ok r ∧
    ReadsAs (wireField "F4_Freshness" 16 4) [7, 100, 0x5a, 0xbc] i ∧ dictGet? r "F4_Freshness" = some (.num i) := by
  obtain ⟨l, hl⟩ := msg 3 (by decide)
  obtain ⟨r, h1, h2, h3, h4⟩ := C54_decode_plain_partial (fo := Example.fo) doc_says shallow loaded (trig := ("Bus", trig 3)) rfl rfl hl rfl rfl rfl
    (by decide) at3 rfl (data := [7, 100, 0x5a, 0xbc]) rfl
  obtain ⟨i, k1, k2⟩ := h4.2 (wireField "F4_Freshness" 16 4) (by decide +kernel)
  exact ⟨l, r, i, hl, h1, k1, k2⟩

open Classical in
/-- The frame `F3` is decoded according to its tree of PDUs. -/
example : ∃ l, msgs[2]? = some l ∧ ∃ pdu, PduIs mux pdu := by
  obtain ⟨l, hl⟩ := msg 2 (by decide)
  have hn : (msgs[2]?.map fun l => (decide (l.message.signals.map (·.name)).Nodup,
      l.message.signals.all fun q => ((table q).map (·.2.toStr)).isEmpty)) = some (true, true) := by decide +kernel
  rw [hl] at hn
  obtain ⟨h1, h2⟩ := Prod.mk.inj (Option.some.inj hn)
  obtain ⟨pdu, h, -⟩ := C54_decode_partial (fo := Example.fo) doc_says shallow loaded (trig := ("Bus", trig 2)) rfl rfl hl rfl rfl
    (by simp [mux, PduContent.Tidy, AltContents.Tidy, PduContents.Tidy, AltContents.selectors, PduContent.selectors])
    (of_decide_eq_true h1)
    (fun q hq _ => by
      have := List.all_eq_true.1 h2 q hq
      rw [List.isEmpty_iff.1 this]
      exact List.nodup_nil) at2 rfl (data := [1, 100]) rfl
    (chosen := fun field code => decide (ReadsAs field [1, 100] code)) (fun _ _ => decide_eq_true_iff)
  exact ⟨l, hl, pdu, h⟩

/-- The values of this frame, and of one without alternative. -/
example : (msgs[2]?.map fun l => (decode Example.fo l.message [1, 100] true true false false).toOption) =
      some (some [("F3_selector1", .num 1), ("Temp", .num (59 / 2))]) ∧
    (msgs[2]?.map fun l => (decode Example.fo l.message [2, 100] true true false false).toOption) = some none := by
  constructor <;> decide +kernel

/-- C54 is false for PDUs that do not begin at the beginning of the frame: their place is ignored, so
the signals are read from the wrong bytes. -/
theorem C54_offset_ignored : ∃ (F : FloatRead) (fo : FloatOps) (root : Xml) (trigs : List (String × Pos))
    (ds : List FrameContent) (ms : List Loader.Loaded) (trig : String × Pos) (d : FrameContent) (l : Loader.Loaded)
    (c : PduContent) (n : Int) (s : SignalContent) (data : Bytes) (r : List (String × Value)) (raw : Rat) (v : Value),
    Describes F root trigs ds ∧ load F root 2 true .default = .ok ms ∧
    trigs[1]? = some trig ∧ ds[1]? = some d ∧ ms[1]? = some l ∧ d.pdu = some (c, n) ∧ c.signals? = some [s] ∧
    PduAtByte F root trig.2 1 ∧ data.length = d.length ∧ decode fo l.message data true true false false = .ok r ∧
    RawIn fo (fieldOf s) (data.drop 1) raw ∧ dictGet? r s.name = some v ∧ ¬ Shows s raw v := by
  obtain ⟨l, hl⟩ := msg 1 (by decide)
  have h : (msgs[1]?.map fun l => ((decode Example.fo l.message [7, 9] true true false false).toOption.bind fun r =>
      dictGet? r "Level")) = some (some (.num 7)) := by decide +kernel
  rw [hl] at h
  cases hr : decode Example.fo l.message [7, 9] true true false false with
  | error e => rw [Option.map_some, hr] at h; cases h
  | ok r =>
    rw [Option.map_some, hr] at h
    refine ⟨F, Example.fo, doc, trigs, frames, msgs, ("Bus", trig 1), content 18 "F2" (.plain [level]), l, .plain [level], 255, level,
      [7, 9], r, 9, .num 7, doc_says, loaded, rfl, rfl, hl, rfl, rfl, at1, rfl, hr, ?_, Option.some.inj h, fun hs => ?_⟩
    · unfold RawIn
      rw [if_neg (by decide)]
      refine ⟨9, rfl, ?_, by decide +kernel⟩
      unfold InRange
      rw [if_neg (by decide)]
      decide +kernel
    · have := Value.num.inj (hs.plain rfl)
      norm_num at this

/-- C54: signals in one's complement or with sign and magnitude are read like those in two's complement.
Here the bits of a sign and a magnitude of 1 are read as -127. -/
theorem C54_encoding_fails : ∃ (root : Xml) (r : Refs) (F : FloatRead) (m i b : Pos) (info : Loader.SignalInfo),
    Regular root ∧ createDicts root = .ok r ∧ NoStray root ∧ At root m [ref "I-SIGNAL"] (some i) ∧
    At root i baseType (some b) ∧ TextAt root b [ref "BASE-TYPE-ENCODING"] "SM" ∧
    (Loader.mk root r F).loadSignal m = .ok (some info) ∧ info.signal.start = 0 ∧ info.signal.length = 8 ∧
    ReadsAs info.signal [0x81] (-127) := by
  have h : (((Loader.mk doc docRefs F).loadSignal (el 6 [1, 0])).toOption.bind id).any (fun info =>
      info.signal.start = 0 ∧ info.signal.length = 8 ∧ info.signal.isSigned = true ∧ info.signal.byteOrder = .little) = true := by decide +kernel
  rw [Option.any_eq_true] at h
  obtain ⟨info, h1, h2⟩ := h
  simp only [decide_eq_true_eq] at h2
  obtain ⟨h2, h3, h4, h5⟩ := h2
  refine ⟨doc, docRefs, F, el 6 [1, 0], el 13 [], el 14 [], info, doc_regular, doc_ok, doc_plain, located (by decide +kernel),
    located (by decide +kernel), texts (p := el 14 [1]) (by decide +kernel) (by decide +kernel), ?_, h2, h3, ?_, ?_⟩
  · cases hx : (Loader.mk doc docRefs F).loadSignal (el 6 [1, 0]) with
    | error e => rw [hx] at h1; cases h1
    | ok o => rw [hx] at h1; exact congrArg Except.ok h1
  · unfold InRange
    rw [h4, h3]
    decide
  · rw [h3]
    unfold bitPos
    rw [h5, h2]
    dsimp only
    decide +kernel

/-- C54: the name of the system signal is not used, although the code looks it up: it counts the
children of the element with the name. -/
theorem C54_system_name_unused : ∃ (root : Xml) (r : Refs) (F : FloatRead) (m i : Pos) (info : Loader.SignalInfo),
    Regular root ∧ createDicts root = .ok r ∧ NoStray root ∧ At root m [ref "I-SIGNAL"] (some i) ∧
    TextAt root i [ref "SYSTEM-SIGNAL", elem "SHORT-NAME"] "Sys" ∧
    (Loader.mk root r F).loadSignal m = .ok (some info) ∧ info.signal.name = "Odd" := by
  have h : (((Loader.mk doc docRefs F).loadSignal (el 6 [1, 0])).toOption.bind id).any (fun info =>
      info.signal.name = "Odd") = true := by decide +kernel
  rw [Option.any_eq_true] at h
  obtain ⟨info, h1, h2⟩ := h
  refine ⟨doc, docRefs, F, el 6 [1, 0], el 13 [], info, doc_regular, doc_ok, doc_plain, located (by decide +kernel),
    texts (p := el 9 [0]) (by decide +kernel) (by decide +kernel), ?_, of_decide_eq_true h2⟩
  cases hx : (Loader.mk doc docRefs F).loadSignal (el 6 [1, 0]) with
  | error e => rw [hx] at h1; cases h1
  | ok o => rw [hx] at h1; exact congrArg Except.ok h1

example : ∃ s, (Loader.mk doc docRefs F).loadSignal (el 4 [1, 0]) =
    .ok (some { signal := s, unit := some "°C", rawInitial := none, rawInvalid := none }) ∧ SignalIs temp s :=
  C54_signal_partial doc_regular doc_ok doc_plain
    (temp_says (by decide +kernel) (by decide +kernel) (by decide +kernel) (by decide +kernel))

example (info : Loader.SignalInfo) : (Loader.mk doc docRefs F).loadSignal (el 16 [1, 0]) ≠ .ok (some info) :=
  C54_encoding_needed doc_regular doc_ok doc_plain (i := el 17 []) (b := el 18 []) (located (by decide +kernel))
    (located (by decide +kernel)) (located (by decide +kernel)) info

end Cantools
