import Verif.Lemmas.ArxmlNodes

/-!
Lemmas for C62: which PDUs the messages consist of, and which PDUs the ECUs send and receive.
-/

namespace Cantools.ArxmlFile

open Kcd (Xml)
open Regex (Chars)
open ArxmlRef (Pos at? Refs follow createDicts splitSlash joinSlash)
open ArxmlScale (FloatRead)
open Spec Spec.SystemFile
open Loader (Talk MessageNodes Connected addName)

theorem locate_append {root : Xml} {as' : List LocAtom} : ∀ {as : List LocAtom} {bs l : List Pos}, Locate root (as ++ as') bs l →
    ∃ ms, Locate root as bs ms ∧ Locate root as' ms l
  | [], bs, l, h => ⟨bs, .done, h⟩
  | a :: as, bs, l, h => by
    cases h with
    | step h hr =>
      obtain ⟨ms, h1, h2⟩ := locate_append (as := as) hr
      exact ⟨ms, .step h h1, h2⟩

/-- One element, if no atom allows several. -/
theorem locate_one {root : Xml} : ∀ {as : List LocAtom} {bs l : List Pos}, Locate root as bs l → (∀ a ∈ as, a.many = false) →
    bs.length ≤ 1 → l.length ≤ 1
  | [], bs, l, h, _, hb => by cases h; exact hb
  | a :: as, bs, l, h, ha, hb => by
    cases h with
    | @step _ _ _ parts _ h hr =>
      refine locate_one hr (fun a h => ha a (by simp [h])) ?_
      cases h with
      | nil => simp
      | cons h1 h2 =>
        cases h2 with
        | nil => simpa using h1.2 (ha a (by simp))
        | cons => simp at hb

/-- Packages matter for references, other elements do not. -/
theorem absoluteText_child {root : Xml} {b : Pos} {i : Nat} {c : Xml} (hc : at? root (b ++ [i]) = some c) (ht : c.tag ≠ "AR-PACKAGE")
    {text : Chars} {base : Option Chars} {abs : Chars} (h : AbsoluteText root b text base abs) :
    AbsoluteText root (b ++ [i]) text base abs := by
  unfold AbsoluteText at h ⊢
  split
  · rw [if_pos (by assumption)] at h; exact h
  · rw [if_neg (by assumption)] at h
    obtain ⟨target, ⟨q, h1, h2, h3⟩, h4⟩ := h
    refine ⟨target, ⟨q, h1.trans (List.prefix_append _ _), h2, fun q' hq' hl p d hd => ?_⟩, h4⟩
    rcases List.prefix_concat_iff.1 hq' with rfl | hq'
    · obtain ⟨-, ⟨⟨y, hy, hyt⟩, -⟩⟩ := hd
      rw [hc] at hy
      obtain rfl := Option.some.inj hy
      exact absurd hyt ht
    · exact h3 q' hq' hl p d hd

/-- One step. -/
theorem at_found {root : Xml} {b : Pos} {a : LocAtom} {o : Option Pos} (h : At root b [a] o) : Found root b a o.toList := by
  unfold At at h
  generalize hl : o.toList = l at h
  cases h with
  | @step _ _ _ parts _ h hr =>
    generalize he : parts.flatten = l' at hr
    cases hr
    cases h with
    | @cons _ l0 _ ls h1 h2 =>
      cases h2
      rw [List.flatten_cons, List.flatten_nil, List.append_nil] at he
      exact he ▸ h1.1

section
variable {root : Xml} {r : Refs} {F : FloatRead} (hreg : Regular root) (hr : createDicts root = .ok r) (hns : NoStray root)
include hreg hr hns

local notation "𝓛" => (Loader.mk root r F)

theorem locate_unique (F : FloatRead) {strs : List String} {loc : List LocAtom} {b : Pos} {l l' : List Pos} (h : okAtoms strs loc = true)
    (h1 : Locate root loc [b] l) (h2 : Locate root loc [b] l') : l = l' := by
  have e1 := (children_iff (F := F) hreg hr hns h).2 h1
  rw [(children_iff (F := F) hreg hr hns h).2 h2] at e1
  exact (Except.ok.inj e1).symm

/-- The path of the PDU of a frame. -/
theorem framePduPath_says (hpdu : ∀ p x, at? root p = some x → x.tag ≠ "PDU") {f p : Pos} {o : Option Chars}
    (hp : At root f [elem "PDU-TO-FRAME-MAPPINGS", ref "PDU-TO-FRAME-MAPPING", ref "PDU"] (some p))
    (h : (𝓛).framePduPath f = .ok o) : Named root p ∧ o = some (pathText (namesTo root p)) := by
  obtain ⟨o', h1, h⟩ := bind_ok_iff.1 h
  have h1 := (unique_iff hreg hr hns (loc := [elem "PDU-TO-FRAME-MAPPINGS", ref "PDU-TO-FRAME-MAPPING", elem "PDU-REF"])
    (by decide +kernel)).1 h1
  obtain ⟨ms, g1, g2⟩ := locate_append (as := [elem "PDU-TO-FRAME-MAPPINGS", ref "PDU-TO-FRAME-MAPPING"]) hp
  obtain ⟨ms', g3, g4⟩ := locate_append (as := [elem "PDU-TO-FRAME-MAPPINGS", ref "PDU-TO-FRAME-MAPPING"]) h1
  obtain rfl := locate_unique hreg hr hns F (strs := ["PDU-TO-FRAME-MAPPINGS", "&PDU-TO-FRAME-MAPPING"]) (by decide +kernel) g1 g3
  have hlen := locate_one g1 (by decide) (by simp)
  have hnm := locate_named (as := []) g2 (fun q x hq hx => absurd hx (hpdu q x hq)) p (by simp)
  refine ⟨hnm, ?_⟩
  match ms, hlen with
  | [], _ =>
    rw [ArxmlRef.locate_nil] at g2
    cases g2
  | [m], _ =>
    obtain ⟨-, -, -, hf⟩ := at_found g2
    obtain ⟨i, c, hc, hw, -⟩ := found_mem (at_found g2) (p := p) (by simp)
    have hw : c.tag = "PDU-REF" := by
      rcases hw with hw | hw
      · exact absurd hw (hpdu _ _ hc)
      · exact hw.2
    cases o' with
    | none =>
      obtain ⟨is, -, hi, hf⟩ := at_found g4
      cases hf
      exact absurd ((hi i).2 ⟨c, hc, .inl hw⟩) (by simp)
    | some q =>
      obtain ⟨x, t, hx, ht, abs, ha, hrest⟩ := only_reference g2 g4 (by decide)
      obtain ⟨j, c', hc', hw', c'', hc'', hs⟩ := found_mem (at_found g4) (p := q) (by simp)
      rw [hc'] at hc''
      obtain rfl := Option.some.inj hc''
      have hw' : c'.tag = "PDU-REF" := by
        rcases hw' with h | h
        · exact h
        · cases h.1
      rw [if_pos (show c'.tag = (elem "PDU-REF").tag from hw')] at hs
      subst hs
      have hl : RefLeads root (m ++ [j]) (m ++ [j]) p :=
        ⟨x, t, hx, ht, abs, absoluteText_child hc' (by rw [hw']; decide) ha, hrest⟩
      obtain ⟨path, h2, h⟩ := bind_ok_iff.1 h
      rw [refLeads_path hreg hr hx hl] at h2
      obtain rfl := Except.ok.inj h2
      exact (Except.ok.inj h).symm

/-- The paths of a contained PDU. -/
theorem partPaths_says (hb : ∀ q d p, Declares root q d p → d.target.head? = some '/') {fuel : Nat} {p : Pos} {l : List Chars}
    {x : Xml} (hx : at? root p = some x) (h : (𝓛).partPaths fuel p = .ok l) :
    ∀ t, t ∈ l ↔ ∃ q, PartOf root p q ∧ t = pathText (namesTo root q) := by
  obtain ⟨inner, h1, h⟩ := bind_ok_iff.1 h
  obtain ⟨path, h2, h⟩ := bind_ok_iff.1 h
  obtain rfl := Except.ok.inj h
  rw [nodePath_says hreg hr hx] at h2
  obtain rfl := Except.ok.inj h2
  intro t
  rw [List.mem_append, pduPaths_says hreg hr hns hb fuel p inner h1 t]
  constructor
  · rintro (⟨q, hq, rfl⟩ | h)
    · exact ⟨q, hq.to_reflTransGen, rfl⟩
    · exact ⟨p, .refl, by simpa using h⟩
  · rintro ⟨q, hq, rfl⟩
    rcases Relation.reflTransGen_iff_eq_or_transGen.1 hq with rfl | h
    · exact .inr (by simp)
    · exact .inl ⟨q, h, rfl⟩

/-- The PDUs of a container, as a relation. -/
theorem topPaths_says (hb : ∀ q d p, Declares root q d p → d.target.head? = some '/') {fuel : Nat} {p : Pos}
    {inner : List Chars} {parts : List (List Chars)} (h : (𝓛).topPaths fuel p = .ok (inner, parts)) :
    (∀ t, t ∈ inner ↔ ∃ q, Relation.TransGen (MadeOf root) p q ∧ t = pathText (namesTo root q)) ∧
    ∀ {qs : List Pos}, HasTag root p "CONTAINER-I-PDU" → TextAt root p [elem "HEADER-TYPE"] "SHORT-HEADER" →
      Locate root containedPdus [p] qs →
      List.Forall₂ (fun q l => ∀ t, t ∈ l ↔ ∃ q', PartOf root q q' ∧ t = pathText (namesTo root q')) qs parts := by
  cases fuel with
  | zero => cases h
  | succ fuel =>
    unfold Loader.topPaths at h
    dsimp only at h
    split at h
    · rename_i ht
      obtain ⟨parts', h1, h⟩ := bind_ok_iff.1 h
      obtain ⟨rfl, rfl⟩ := Prod.mk.inj (Except.ok.inj h)
      obtain ⟨o, h2, h1⟩ := bind_ok_iff.1 h1
      have h2 := (unique_iff hreg hr hns (loc := [elem "HEADER-TYPE"]) (by decide +kernel)).1 h2
      obtain ⟨x, hx, hxt⟩ := Option.map_eq_some_iff.1 ht
      cases o with
      | none => cases h1
      | some hd =>
        dsimp only at h1
        have htext : TextAt root p [elem "HEADER-TYPE"] "SHORT-HEADER" → (𝓛).text? hd = some "SHORT-HEADER" := by
          rintro ⟨q, y, k1, k2, k3⟩
          obtain rfl := Option.some.inj (at_unique hreg hr hns F (strs := ["HEADER-TYPE"]) (by decide +kernel) k1 h2)
          unfold Loader.text?
          rw [k2]
          exact k3
        split at h1
        · rename_i hno
          obtain rfl := Except.ok.inj h1
          refine ⟨fun t => ⟨fun h => (by cases h), ?_⟩, fun _ hh => absurd (htext hh) hno⟩
          rintro ⟨q, hq, -⟩
          obtain ⟨q1, h1, -⟩ := Relation.TransGen.head'_iff.1 hq
          cases h1 with
          | payload h' => exact absurd (hasTag_unique h' ht) (by decide)
          | alternative h' => exact absurd (hasTag_unique h' ht) (by decide)
          | static h' => exact absurd (hasTag_unique h' ht) (by decide)
          | contained h' hh => exact absurd (htext hh) hno
        · rename_i hyes
          have hyes := Decidable.not_not.1 hyes
          obtain ⟨qs, h3, h1⟩ := bind_ok_iff.1 h1
          have h3 := (children_iff hreg hr hns (loc := containedPdus) (by decide +kernel)).1 h3
          have hex := locate_exists (as := [elem "CONTAINED-PDU-TRIGGERING-REFS", refs "CONTAINED-PDU-TRIGGERING"]) h3
          have hh : TextAt root p [elem "HEADER-TYPE"] "SHORT-HEADER" := by
            unfold Loader.text? at hyes
            obtain ⟨y, hy, hyt⟩ := Option.bind_eq_some_iff.1 hyes
            exact ⟨hd, y, h2, hy, hyt⟩
          have huniq : ∀ {qs' : List Pos}, Locate root containedPdus [p] qs' → qs' = qs := fun h' =>
            locate_unique hreg hr hns F (strs := ["CONTAINED-PDU-TRIGGERING-REFS", "*&CONTAINED-PDU-TRIGGERING", "&I-PDU"])
              (by decide +kernel) h' h3
          have hm : ∀ q, MadeOf root p q ↔ q ∈ qs := by
            intro q
            refine ⟨fun h' => ?_, fun h' => .contained ⟨x, hx, hxt⟩ hh h3 h'⟩
            cases h' with
            | payload h' => exact absurd (hasTag_unique h' ht) (by decide)
            | alternative h' => exact absurd (hasTag_unique h' ht) (by decide)
            | static h' => exact absurd (hasTag_unique h' ht) (by decide)
            | contained _ _ hl hq => exact huniq hl ▸ hq
          refine ⟨fun t => ?_, fun _ _ h' => ?_⟩
          · rw [mapM_flatten_mem h1]
            constructor
            · rintro ⟨q, hq, l, hl, ht⟩
              obtain ⟨y, hy⟩ := hex q hq
              obtain ⟨q', hq', rfl⟩ := (partPaths_says hreg hr hns hb hy hl t).1 ht
              exact ⟨q', .head'_iff.2 ⟨q, (hm q).2 hq, hq'⟩, rfl⟩
            · rintro ⟨q', hq', rfl⟩
              obtain ⟨q, h4, h5⟩ := Relation.TransGen.head'_iff.1 hq'
              have hq := (hm q).1 h4
              obtain ⟨y, hy⟩ := hex q hq
              obtain ⟨l, hl⟩ := mapM_all_ok h1 q hq
              exact ⟨q, hq, l, hl, (partPaths_says hreg hr hns hb hy hl _).2 ⟨q', h5, rfl⟩⟩
          · obtain rfl := huniq h'
            refine ArxmlRef.forall₂_imp_mem (ArxmlRef.mapM_forall₂.1 h1) fun q hq l hl => ?_
            obtain ⟨y, hy⟩ := hex q hq
            exact partPaths_says hreg hr hns hb hy hl
    · rename_i hno
      obtain ⟨l, h1, h⟩ := bind_ok_iff.1 h
      obtain ⟨rfl, rfl⟩ := Prod.mk.inj (Except.ok.inj h)
      exact ⟨pduPaths_says hreg hr hns hb _ _ _ h1, fun ht => absurd (tag_of ht) hno⟩

omit hreg hr hns in
/-- There are as many contained messages as lists of paths. -/
theorem topPaths_length {fuel : Nat} {p : Pos} {frame : String} {idx : Nat} {inner : List Chars} {parts : List (List Chars)}
    {signals : List Signal} {contained : List Loader.PartInfo} (h : (𝓛).topPaths fuel p = .ok (inner, parts))
    (h' : (𝓛).loadTop frame fuel p idx = .ok (signals, contained)) : contained.length = parts.length := by
  cases fuel with
  | zero => cases h
  | succ fuel =>
    unfold Loader.topPaths at h
    unfold Loader.loadTop at h'
    dsimp only at h h'
    split at h
    · rename_i ht
      rw [if_pos ht] at h'
      obtain ⟨parts', h1, h⟩ := bind_ok_iff.1 h
      obtain ⟨rfl, rfl⟩ := Prod.mk.inj (Except.ok.inj h)
      obtain ⟨cs, g1, h'⟩ := bind_ok_iff.1 h'
      obtain ⟨rfl, rfl⟩ := Prod.mk.inj (Except.ok.inj h')
      obtain ⟨o, h2, h1⟩ := bind_ok_iff.1 h1
      obtain ⟨_, -, g1⟩ := bind_ok_iff.1 g1
      obtain ⟨o', g2, g1⟩ := bind_ok_iff.1 g1
      rw [h2] at g2
      obtain rfl := Except.ok.inj g2
      cases o with
      | none => cases h1
      | some hd =>
        dsimp only at h1 g1
        split at h1
        · rename_i hno
          rw [if_pos hno] at g1
          obtain rfl := Except.ok.inj h1
          obtain rfl := Except.ok.inj g1
          rfl
        · rename_i hno
          rw [if_neg hno] at g1
          obtain ⟨qs, h3, h1⟩ := bind_ok_iff.1 h1
          obtain ⟨qs', g3, g1⟩ := bind_ok_iff.1 g1
          rw [h3] at g3
          obtain rfl := Except.ok.inj g3
          obtain ⟨⟨a, b⟩, g4, g5⟩ := bind_ok_iff.1 g1
          obtain rfl := Except.ok.inj g5
          have key : ∀ (qs : List Pos) (acc acc' : Nat × List Loader.PartInfo),
              qs.foldlM ((𝓛).partStep frame fuel) acc = .ok acc' → acc'.2.length = acc.2.length + qs.length := by
            intro qs
            induction qs with
            | nil => intro acc acc' h; obtain rfl := Except.ok.inj h; rfl
            | cons q qs ih =>
              intro acc acc' h
              rw [List.foldlM_cons] at h
              obtain ⟨mid, k1, k2⟩ := bind_ok_iff.1 h
              rw [ih _ _ k2]
              have : mid.2.length = acc.2.length + 1 := by
                obtain ⟨_, -, k1⟩ := bind_ok_iff.1 k1
                obtain ⟨_, -, k1⟩ := bind_ok_iff.1 k1
                obtain ⟨_, -, k1⟩ := bind_ok_iff.1 k1
                obtain ⟨_, -, k1⟩ := bind_ok_iff.1 k1
                obtain ⟨⟨_, _⟩, -, k1⟩ := bind_ok_iff.1 k1
                obtain ⟨⟨_, _⟩, -, k1⟩ := bind_ok_iff.1 k1
                obtain ⟨_, -, k1⟩ := bind_ok_iff.1 k1
                obtain rfl := Except.ok.inj k1
                simp
              rw [this, List.length_cons]
              omega
          have := key qs _ _ g4
          rw [← (ArxmlRef.mapM_forall₂.1 h1).length_eq]
          simpa using this
    · rename_i hno
      rw [if_neg hno] at h'
      obtain ⟨l, h1, h⟩ := bind_ok_iff.1 h
      obtain ⟨rfl, rfl⟩ := Prod.mk.inj (Except.ok.inj h)
      obtain ⟨⟨_, s⟩, -, h'⟩ := bind_ok_iff.1 h'
      obtain ⟨rfl, rfl⟩ := Prod.mk.inj (Except.ok.inj h')
      rfl

/-- The paths of the message of a frame. -/
theorem framePaths_says (he : EcusRegular root) {fuel : Nat} {trig : Pos} {fp : Loader.FramePaths}
    (h : (𝓛).framePaths fuel trig = .ok fp) :
    (PduOf root trig none → fp.paths = []) ∧
    ∀ {p : Pos}, PduOf root trig (some p) → Named root p ∧
      (∀ t, t ∈ fp.paths ↔ ∃ q, PartOf root p q ∧ t = some (pathText (namesTo root q))) ∧
      ∀ {qs : List Pos}, HasTag root p "CONTAINER-I-PDU" → TextAt root p [elem "HEADER-TYPE"] "SHORT-HEADER" →
        Locate root containedPdus [p] qs →
        List.Forall₂ (fun q l => ∀ t, t ∈ l ↔ ∃ q', PartOf root q q' ∧ t = some (pathText (namesTo root q'))) qs fp.parts := by
  obtain ⟨o, h1, h⟩ := bind_ok_iff.1 h
  have h1 := (unique_iff hreg hr hns (loc := [ref "FRAME"]) (by decide +kernel)).1 h1
  cases o with
  | none => cases h
  | some f =>
    obtain ⟨o, h2, h⟩ := bind_ok_iff.1 h
    have h2 := (unique_iff hreg hr hns (loc := [elem "PDU-TO-FRAME-MAPPINGS", ref "PDU-TO-FRAME-MAPPING", ref "PDU"])
      (by decide +kernel)).1 h2
    have hu : ∀ {o' : Option Pos}, PduOf root trig o' → o' = o := by
      rintro o' ⟨f', k1, k2⟩
      obtain rfl := Option.some.inj (at_unique hreg hr hns F (strs := ["&FRAME"]) (by decide +kernel) k1 h1)
      exact at_unique hreg hr hns F (strs := ["PDU-TO-FRAME-MAPPINGS", "&PDU-TO-FRAME-MAPPING", "&PDU"]) (by decide +kernel) k2 h2
    cases o with
    | none =>
      obtain rfl := Except.ok.inj h
      exact ⟨fun _ => rfl, fun h => by cases hu h⟩
    | some p =>
      refine ⟨fun h => (by cases hu h), fun {p'} hp => ?_⟩
      obtain rfl := Option.some.inj (hu hp)
      obtain ⟨path, h3, h⟩ := bind_ok_iff.1 h
      obtain ⟨⟨inner, parts⟩, h4, h⟩ := bind_ok_iff.1 h
      obtain rfl := Except.ok.inj h
      obtain ⟨hn, rfl⟩ := framePduPath_says hreg hr hns he.frames h2 h3
      obtain ⟨h5, h6⟩ := topPaths_says hreg hr hns he.bases h4
      refine ⟨hn, fun t => ?_, fun {qs} a b c => ?_⟩
      · rw [List.mem_cons, List.mem_map]
        constructor
        · rintro (rfl | ⟨u, hu, rfl⟩)
          · exact ⟨p', .refl, rfl⟩
          · obtain ⟨q, hq, rfl⟩ := (h5 u).1 hu
            exact ⟨q, hq.to_reflTransGen, rfl⟩
        · rintro ⟨q, hq, rfl⟩
          rcases Relation.reflTransGen_iff_eq_or_transGen.1 hq with rfl | hq
          · exact .inl rfl
          · exact .inr ⟨_, (h5 _).2 ⟨q, hq, rfl⟩, rfl⟩
      · refine List.forall₂_map_right_iff.2 ((h6 a b c).imp fun q l hl t => ?_)
        rw [List.mem_map]
        constructor
        · rintro ⟨u, hu, rfl⟩
          obtain ⟨q', hq', rfl⟩ := (hl u).1 hu
          exact ⟨q', hq', rfl⟩
        · rintro ⟨q', hq', rfl⟩
          exact ⟨_, (hl _).2 ⟨q', hq', rfl⟩, rfl⟩

/-- Parts of PDUs have names. -/
theorem partOf_named (he : EcusRegular root) {p q : Pos} (hp : Named root p) (h : PartOf root p q) : Named root q := by
  have hi : ∀ p x, at? root p = some x → x.tag = "I-PDU" → shortName x ≠ [] := fun p x hx ht => he.pdus p x hx (by simp [ht])
  rcases Relation.ReflTransGen.cases_tail_iff (MadeOf root) p q |>.1 h with rfl | ⟨b, -, hm⟩
  · exact hp
  · cases hm with
    | payload _ h => exact locate_named (as := [ref "PAYLOAD"]) h hi _ (by simp)
    | alternative _ _ _ h => exact locate_named (as := []) h hi _ (by simp)
    | static _ _ _ h =>
      obtain ⟨x, t, -, -, abs, -, ⟨x, hx, hn, -⟩, -⟩ := h
      exact ⟨x, hx, hn⟩
    | contained _ _ h hq =>
      exact locate_named (as := [elem "CONTAINED-PDU-TRIGGERING-REFS", refs "CONTAINED-PDU-TRIGGERING"]) h hi _ hq

/-- Elements with names are told apart by their paths. -/
theorem same_path {p q : Pos} (hp : Named root p) (hq : Named root q) (h : pathText (namesTo root p) = pathText (namesTo root q)) :
    p = q := by
  obtain ⟨x, hx, hnx⟩ := hp
  obtain ⟨y, hy, hny⟩ := hq
  exact (ArxmlRef.of_ok hreg hr).1.paths p q _ ⟨x, hx, hnx, rfl⟩ ⟨y, hy, hny, h⟩

/-! ### ECUs -/

/-- The ECUs of a package. -/
theorem ecus_iff (he : EcusRegular root) {q : Pos} {l : List Pos} :
    (𝓛).children q ["ELEMENTS", "*ECU-INSTANCE"] = .ok l ↔ Locate root [elem "ELEMENTS", elems "ECU-INSTANCE"] [q] l := by
  have hat : List.Forall₂ AtomText ["ELEMENTS", "*ECU-INSTANCE"] [elem "ELEMENTS", elems "ECU-INSTANCE"] := by
    refine .cons ⟨by decide +kernel, .inl (by decide +kernel)⟩ (.cons ⟨by decide +kernel, .inl (by decide +kernel)⟩ .nil)
  refine C53_children_partial hreg hr hat [q] l ?_
  intro as a as' ps e hl hrf b hb i x hx
  match as, e with
  | [], e =>
    obtain ⟨rfl, rfl⟩ := List.cons.inj e
    exact hns _ x hx "ELEMENTS" (by decide +kernel)
  | [a1], e =>
    obtain ⟨e1, e⟩ := List.cons.inj e
    obtain ⟨rfl, rfl⟩ := List.cons.inj e
    subst e1
    obtain ⟨y, hy, hyt⟩ := locate_tag (as := []) hl rfl b hb
    refine he.plain b y hy hyt x ?_
    rw [ArxmlRef.at?_append, hy] at hx
    obtain ⟨c, hc, rfl⟩ : ∃ c, y.children[i]? = some c ∧ c = x := by simpa [at?] using hx
    exact List.mem_of_getElem? hc
  | a1 :: a2 :: a3, e =>
    simp at e

omit hr hns in
/-- The path of an ECU is the beginning of the path of its controllers. -/
theorem controller_names {e c : Pos} {x y : Xml} (hx : at? root e = some x) (hn : shortName x ≠ []) (hy : at? root c = some y)
    (hny : shortName y ≠ []) (h : e <+: c) (hne : e ≠ c) (hmin : ∀ q, e <+: q → q <+: c → Named root q → q = e ∨ q = c) :
    namesTo root e = (namesTo root c).dropLast := by
  have hlen : e.length < c.length := by
    obtain ⟨s, rfl⟩ := h
    cases s with
    | nil => simp at hne
    | cons => simp
  have hlt := ArxmlRef.namesTo_lt h hlen hy hny
  have hpos : 0 < (namesTo root e).length := by
    obtain ⟨l, hl⟩ := ArxmlRef.namesTo_last hx
    have := List.length_pos_of_ne_nil hn
    rw [hl, List.length_append]
    omega
  obtain ⟨q, z, h1, h2, h3, h4⟩ := ArxmlRef.namesTo_take hy (m := (namesTo root c).length - 1) (by omega) (by omega)
  have hql : (namesTo root q).length = (namesTo root c).length - 1 := by rw [h4, List.length_take]; omega
  have heq : e <+: q := by
    rcases List.prefix_or_prefix_of_prefix h h1 with h5 | h5
    · exact h5
    · rcases Nat.lt_or_ge q.length e.length with h6 | h6
      · have := ArxmlRef.namesTo_lt h5 h6 hx hn
        omega
      · exact (h5.eq_of_length (by have := h5.length_le; omega)) ▸ List.prefix_rfl
  rcases hmin q heq h1 ⟨z, h2, h3⟩ with rfl | rfl
  · rw [h4, List.dropLast_eq_take]
  · omega

omit hns in
/-- The ECU of a controller. -/
theorem follow_controller {m rf e : Pos} {y : Xml} (hy : at? root m = some y) (h : ControllerOf root rf e) :
    ∃ t, (𝓛).text rf = .ok t ∧
      follow root r m (joinSlash (splitSlash t.toList).dropLast) (some "ECU-INSTANCE") none = .ok (some e) := by
  obtain ⟨x, t, c, hx, ht, ⟨z, hz, hnz, hp⟩, ⟨w, hw, hwt⟩, ⟨w', hw', hwn⟩, h1, h2, h3⟩ := h
  rw [hw] at hw'
  obtain rfl := Option.some.inj hw'
  refine ⟨t, ?_, ?_⟩
  · unfold Loader.text Loader.text?
    dsimp only
    rw [hx]
    dsimp only [Option.bind]
    rw [ht]
  · have hn := controller_names hreg hw hwn hz hnz h1 h2 h3
    rw [hp, ArxmlRef.splitSlash_path (ArxmlRef.names_slash hreg hz)]
    have hne : namesTo root c ≠ [] := by
      obtain ⟨l, hl⟩ := ArxmlRef.namesTo_last hz
      rw [hl]
      simp [hnz]
    have : ([] :: (namesTo root c).map String.toList).dropLast = [] :: (namesTo root e).map String.toList := by
      rw [hn, List.map_dropLast, List.dropLast_cons_of_ne_nil (by simpa using hne)]
    rw [this, ArxmlRef.joinSlash_path]
    have hpath : HasPath root e (pathText (namesTo root e)) := ⟨w, hw, hwn, rfl⟩
    refine ((C53_follow hreg hr hy _ _ _).1 _).2 ⟨pathText (namesTo root e), ?_, hpath, ?_⟩
    · unfold AbsoluteText
      rw [if_pos (path_slash hpath)]
    · intro d hd
      obtain rfl := Option.some.inj hd
      exact ⟨w, hw, hwt⟩

/-- The ECU of a network management node. -/
theorem nmEcu_says (he : EcusRegular root) {m : Pos} {o : Option Pos} (hm : NmNodeAt root m) {y : Xml} (hy : at? root m = some y)
    (h : (𝓛).nmEcu m = .ok o) (e : Pos) : NmNodeOf root m e ↔ o = some e := by
  obtain ⟨o', h1, h⟩ := bind_ok_iff.1 h
  have h1 := (unique_iff hreg hr hns (loc := [elem "CONTROLLER-REF"]) (by decide +kernel)).1 h1
  have hu : ∀ {rf : Pos}, At root m [elem "CONTROLLER-REF"] (some rf) → some rf = o' := fun k =>
    at_unique hreg hr hns F (strs := ["CONTROLLER-REF"]) (by decide +kernel) k h1
  cases o' with
  | none =>
    obtain rfl := Except.ok.inj h
    exact ⟨fun ⟨rf, k, _⟩ => (by cases hu k), fun h => by cases h⟩
  | some rf =>
    have key : ∀ e', ControllerOf root rf e' → o = some e' := by
      intro e' k
      obtain ⟨t, k1, k2⟩ := follow_controller (F := F) hreg hr hy k
      obtain ⟨t', h2, h⟩ := bind_ok_iff.1 h
      rw [k1] at h2
      obtain rfl := Except.ok.inj h2
      dsimp only at h
      rw [k2] at h
      exact (Except.ok.inj h).symm
    constructor
    · rintro ⟨rf', k1, k2⟩
      obtain rfl := Option.some.inj (hu k1)
      exact key e k2
    · intro ho
      obtain ⟨e', he'⟩ := he.controllers m rf hm h1
      have := key e' he'
      rw [ho] at this
      obtain rfl := Option.some.inj this
      exact ⟨rf, h1, he'⟩

/-- What an ECU does with a PDU. -/
def Does (root : Xml) (sends : Bool) (n : String) (p : Pos) : Prop := if sends then Sends root n p else Receives root n p

omit hns in
theorem talksOf_mem {s : Bool} {n : String} {ps : List Pos} (hex : ∀ p ∈ ps, ∃ x, at? root p = some x) (t : Talk) :
    t ∈ (𝓛).talksOf s n ps ↔ ∃ p ∈ ps, t = ⟨s, n, some (pathText (namesTo root p))⟩ := by
  unfold Loader.talksOf
  rw [List.mem_map]
  constructor
  · rintro ⟨p, hp, rfl⟩
    obtain ⟨x, hx⟩ := hex p hp
    exact ⟨p, hp, by rw [pathOf_says hreg hr hx]⟩
  · rintro ⟨p, hp, rfl⟩
    obtain ⟨x, hx⟩ := hex p hp
    exact ⟨p, hp, by rw [pathOf_says hreg hr hx]⟩

omit hreg hr hns in
theorem groupPdus_exist {g : Pos} {ps : List Pos}
    (h : Locate root [elem "I-SIGNAL-I-PDUS", elems "I-SIGNAL-I-PDU-REF-CONDITIONAL", ref "I-SIGNAL-I-PDU"] [g] ps) :
    ∀ p ∈ ps, ∃ x, at? root p = some x :=
  locate_exists (as := [elem "I-SIGNAL-I-PDUS", elems "I-SIGNAL-I-PDU-REF-CONDITIONAL"]) h

/-- A group of PDUs. -/
theorem groupTalks_says {n : String} {g : Pos} {l : List Talk} (h : (𝓛).groupTalks n g = .ok l) (t : Talk) :
    t ∈ l ↔ ∃ ps p, TextAt root g [elem "COMMUNICATION-DIRECTION"] (if t.sends then "OUT" else "IN") ∧
      Locate root [elem "I-SIGNAL-I-PDUS", elems "I-SIGNAL-I-PDU-REF-CONDITIONAL", ref "I-SIGNAL-I-PDU"] [g] ps ∧ p ∈ ps ∧
      t.ecu = n ∧ t.path = some (pathText (namesTo root p)) := by
  obtain ⟨o, h1, h⟩ := bind_ok_iff.1 h
  have h1 := (unique_iff hreg hr hns (loc := [elem "COMMUNICATION-DIRECTION"]) (by decide +kernel)).1 h1
  cases o with
  | none => cases h
  | some d =>
    obtain ⟨ps, h2, h⟩ := bind_ok_iff.1 h
    have h2 := (children_iff hreg hr hns
      (loc := [elem "I-SIGNAL-I-PDUS", elems "I-SIGNAL-I-PDU-REF-CONDITIONAL", ref "I-SIGNAL-I-PDU"]) (by decide +kernel)).1 h2
    have hu : ∀ {ps' : List Pos},
        Locate root [elem "I-SIGNAL-I-PDUS", elems "I-SIGNAL-I-PDU-REF-CONDITIONAL", ref "I-SIGNAL-I-PDU"] [g] ps' → ps' = ps :=
      fun h' => locate_unique hreg hr hns F (strs := ["I-SIGNAL-I-PDUS", "*I-SIGNAL-I-PDU-REF-CONDITIONAL", "&I-SIGNAL-I-PDU"])
        (by decide +kernel) h' h2
    have hex := groupPdus_exist h2
    have htext : ∀ s, TextAt root g [elem "COMMUNICATION-DIRECTION"] s ↔ (𝓛).text? d = some s := by
      intro s
      unfold Loader.text?
      constructor
      · rintro ⟨q, y, k1, k2, k3⟩
        obtain rfl := Option.some.inj (at_unique hreg hr hns F (strs := ["COMMUNICATION-DIRECTION"]) (by decide +kernel) k1 h1)
        rw [k2]
        exact k3
      · intro k
        obtain ⟨y, hy, hyt⟩ := Option.bind_eq_some_iff.1 k
        exact ⟨d, y, h1, hy, hyt⟩
    simp only [htext]
    have hrest : ∀ s, (t ∈ (𝓛).talksOf s n ps ↔ ∃ ps' p, t.sends = s ∧
        Locate root [elem "I-SIGNAL-I-PDUS", elems "I-SIGNAL-I-PDU-REF-CONDITIONAL", ref "I-SIGNAL-I-PDU"] [g] ps' ∧ p ∈ ps' ∧
        t.ecu = n ∧ t.path = some (pathText (namesTo root p))) := by
      intro s
      rw [talksOf_mem hreg hr hex]
      constructor
      · rintro ⟨p, hp, rfl⟩
        exact ⟨ps, p, rfl, h2, hp, rfl, rfl⟩
      · rintro ⟨ps', p, k1, k2, k3, k4, k5⟩
        obtain rfl := hu k2
        exact ⟨p, k3, by cases t; subst k1 k4 k5; rfl⟩
    split at h
    · rename_i hin
      obtain rfl := Except.ok.inj h
      rw [hrest, hin]
      constructor
      · rintro ⟨ps', p, k1, k2⟩
        exact ⟨ps', p, by rw [k1]; rfl, k2⟩
      · rintro ⟨ps', p, k1, k2⟩
        refine ⟨ps', p, ?_, k2⟩
        cases ht : t.sends with
        | false => rfl
        | true => rw [ht] at k1; exact absurd k1 (by decide)
    · rename_i hin
      split at h
      · rename_i hout
        obtain rfl := Except.ok.inj h
        rw [hrest, hout]
        constructor
        · rintro ⟨ps', p, k1, k2⟩
          exact ⟨ps', p, by rw [k1]; rfl, k2⟩
        · rintro ⟨ps', p, k1, k2⟩
          refine ⟨ps', p, ?_, k2⟩
          cases ht : t.sends with
          | true => rfl
          | false => rw [ht] at k1; exact absurd k1 (by decide)
      · rename_i hout
        obtain rfl := Except.ok.inj h
        refine ⟨fun h => (by cases h), ?_⟩
        rintro ⟨ps', p, k1, -⟩
        cases ht : t.sends with
        | true => rw [ht] at k1; exact absurd k1 hout
        | false => rw [ht] at k1; exact absurd k1 hin

/-- An ECU. -/
theorem ecuTalks_says (he : EcusRegular root) {e : Pos} (hE : EcuAt root e) {l : List Talk} (h : (𝓛).ecuTalks e = .ok l) (t : Talk) :
    t ∈ l ↔ ∃ p, NameAt root e t.ecu ∧ GroupHas root e (if t.sends then "OUT" else "IN") p ∧
      t.path = some (pathText (namesTo root p)) := by
  obtain ⟨n, h1, h⟩ := bind_ok_iff.1 h
  have h1 := (childText_iff hreg hr hns (loc := [elem "SHORT-NAME"]) (by decide +kernel)).1 h1
  obtain ⟨gs, h2, h⟩ := bind_ok_iff.1 h
  have h2 := (children_iff hreg hr hns (loc := [elem "ASSOCIATED-COM-I-PDU-GROUP-REFS", refs "ASSOCIATED-COM-I-PDU-GROUP"])
    (by decide +kernel)).1 h2
  obtain ⟨parts, h3, h⟩ := bind_ok_iff.1 h
  obtain rfl := Except.ok.inj h
  have hstrip : String.ofList (DecodeCommand.strip n.toList) = n := by
    rw [ArxmlRef.strip_word (s := n.toList) ⟨[], [], by simp, by simp, he.names e n hE h1⟩]
    exact String.ofList_toList
  have hun : ∀ {n'}, NameAt root e n' → n' = n := by
    intro n' h'
    have a := (childText_iff (F := F) (strs := ["SHORT-NAME"]) hreg hr hns (by decide +kernel)).2 h'
    rw [(childText_iff (F := F) (strs := ["SHORT-NAME"]) hreg hr hns (by decide +kernel)).2 h1] at a
    exact (Except.ok.inj a).symm
  rw [hstrip] at h3
  rw [mapM_flatten_mem h3]
  constructor
  · rintro ⟨g, hg, l, hl, ht⟩
    obtain ⟨ps, p, k1, k2, k3, k4, k5⟩ := (groupTalks_says hreg hr hns hl t).1 ht
    exact ⟨p, k4 ▸ h1, ⟨gs, g, ps, h2, hg, k1, k2, k3⟩, k5⟩
  · rintro ⟨p, k1, ⟨gs', g, ps, k2, k3, k4, k5, k6⟩, k7⟩
    obtain rfl := locate_unique hreg hr hns F (strs := ["ASSOCIATED-COM-I-PDU-GROUP-REFS", "*&ASSOCIATED-COM-I-PDU-GROUP"])
      (by decide +kernel) k2 h2
    obtain ⟨l, hl⟩ := mapM_all_ok h3 g k3
    exact ⟨g, k3, l, hl, (groupTalks_says hreg hr hns hl t).2 ⟨ps, p, k4, k5, k6, hun k1, k7⟩⟩

/-- A network management node. -/
theorem nmTalks_says (he : EcusRegular root) {m : Pos} (hM : NmNodeAt root m) {y : Xml} (hy : at? root m = some y) {l : List Talk}
    (h : (𝓛).nmTalks m = .ok l) (t : Talk) :
    t ∈ l ↔ ∃ e ps p, NmNodeOf root m e ∧ NameAt root e t.ecu ∧
      Locate root (if t.sends then [elem "TX-NM-PDU-REFS", refs "TX-NM-PDU"] else [elem "RX-NM-PDU-REFS", refs "RX-NM-PDU"]) [m] ps ∧
      p ∈ ps ∧ t.path = some (pathText (namesTo root p)) := by
  obtain ⟨o, h1, h⟩ := bind_ok_iff.1 h
  have h1 := nmEcu_says hreg hr hns he hM hy h1
  cases o with
  | none =>
    obtain rfl := Except.ok.inj h
    refine ⟨fun h => (by cases h), ?_⟩
    rintro ⟨e, ps, p, k, -⟩
    cases (h1 e).1 k
  | some e =>
    obtain ⟨n, h2, h⟩ := bind_ok_iff.1 h
    have h2 := (childText_iff hreg hr hns (loc := [elem "SHORT-NAME"]) (by decide +kernel)).1 h2
    have hun : ∀ {n'}, NameAt root e n' → n' = n := by
      intro n' h'
      have a := (childText_iff (F := F) (strs := ["SHORT-NAME"]) hreg hr hns (by decide +kernel)).2 h'
      rw [(childText_iff (F := F) (strs := ["SHORT-NAME"]) hreg hr hns (by decide +kernel)).2 h2] at a
      exact (Except.ok.inj a).symm
    obtain ⟨rx, h3, h⟩ := bind_ok_iff.1 h
    obtain ⟨tx, h4, h⟩ := bind_ok_iff.1 h
    have h3 := (children_iff hreg hr hns (loc := [elem "RX-NM-PDU-REFS", refs "RX-NM-PDU"]) (by decide +kernel)).1 h3
    have h4 := (children_iff hreg hr hns (loc := [elem "TX-NM-PDU-REFS", refs "TX-NM-PDU"]) (by decide +kernel)).1 h4
    have u3 : ∀ {l}, Locate root [elem "RX-NM-PDU-REFS", refs "RX-NM-PDU"] [m] l → l = rx := fun h' =>
      locate_unique hreg hr hns F (strs := ["RX-NM-PDU-REFS", "*&RX-NM-PDU"]) (by decide +kernel) h' h3
    have u4 : ∀ {l}, Locate root [elem "TX-NM-PDU-REFS", refs "TX-NM-PDU"] [m] l → l = tx := fun h' =>
      locate_unique hreg hr hns F (strs := ["TX-NM-PDU-REFS", "*&TX-NM-PDU"]) (by decide +kernel) h' h4
    obtain rfl := Except.ok.inj h
    rw [List.mem_append, talksOf_mem hreg hr (locate_exists (as := [elem "RX-NM-PDU-REFS"]) h3),
      talksOf_mem hreg hr (locate_exists (as := [elem "TX-NM-PDU-REFS"]) h4)]
    constructor
    · rintro (⟨p, hp, rfl⟩ | ⟨p, hp, rfl⟩)
      · exact ⟨e, rx, p, (h1 e).2 rfl, h2, h3, hp, rfl⟩
      · exact ⟨e, tx, p, (h1 e).2 rfl, h2, h4, hp, rfl⟩
    · rintro ⟨e', ps, p, k1, k2, k3, k4, k5⟩
      obtain rfl := Option.some.inj ((h1 e').1 k1)
      obtain ⟨s, n', path⟩ := t
      obtain rfl := hun k2
      obtain rfl := k5
      cases s with
      | false =>
        obtain rfl := u3 k3
        exact .inl ⟨p, k4, rfl⟩
      | true =>
        obtain rfl := u4 k3
        exact .inr ⟨p, k4, rfl⟩

/-- All ECUs. -/
theorem loadTalks_says (he : EcusRegular root) {l : List Talk} (h : (𝓛).loadTalks = .ok l) (t : Talk) :
    t ∈ l ↔ ∃ p, Does root t.sends t.ecu p ∧ t.path = some (pathText (namesTo root p)) := by
  obtain ⟨parts, h1, h⟩ := bind_ok_iff.1 h
  obtain rfl := Except.ok.inj h
  have hpk : ∀ q, q ∈ Loader.subPackages [] root ↔ PackageAt root q := fun q => by rw [mem_subPackages]; simp
  have hone : ∀ q l, PackageAt root q → (𝓛).packageTalks q = .ok l → (t ∈ l ↔
      (∃ es e p, Locate root [elem "ELEMENTS", elems "ECU-INSTANCE"] [q] es ∧ e ∈ es ∧ NameAt root e t.ecu ∧
        GroupHas root e (if t.sends then "OUT" else "IN") p ∧ t.path = some (pathText (namesTo root p))) ∨
      ∃ cs c ms m e ps p, Locate root [elem "ELEMENTS", elems "NM-CONFIG", elem "NM-CLUSTERS", elems "CAN-NM-CLUSTER"] [q] cs ∧ c ∈ cs ∧
        Locate root [elem "NM-NODES", elems "CAN-NM-NODE"] [c] ms ∧ m ∈ ms ∧ NmNodeOf root m e ∧ NameAt root e t.ecu ∧
        Locate root (if t.sends then [elem "TX-NM-PDU-REFS", refs "TX-NM-PDU"] else [elem "RX-NM-PDU-REFS", refs "RX-NM-PDU"]) [m] ps ∧
        p ∈ ps ∧ t.path = some (pathText (namesTo root p))) := by
    intro q l hq h
    obtain ⟨es, h1, h⟩ := bind_ok_iff.1 h
    obtain ⟨a, h2, h⟩ := bind_ok_iff.1 h
    obtain ⟨cs, h3, h⟩ := bind_ok_iff.1 h
    obtain ⟨b, h4, h⟩ := bind_ok_iff.1 h
    obtain ⟨_, -, h⟩ := bind_ok_iff.1 h
    obtain rfl := Except.ok.inj h
    have e1 := (ecus_iff hreg hr hns he).1 h1
    have e3 := (children_iff hreg hr hns (loc := [elem "ELEMENTS", elems "NM-CONFIG", elem "NM-CLUSTERS", elems "CAN-NM-CLUSTER"])
      (by decide +kernel)).1 h3
    rw [List.mem_append, mapM_flatten_mem h2, mapM_flatten_mem h4]
    refine or_congr ⟨?_, ?_⟩ ⟨?_, ?_⟩
    · rintro ⟨e, hE, l, hl, ht⟩
      obtain ⟨p, k1, k2, k3⟩ := (ecuTalks_says hreg hr hns he ⟨q, es, hq, e1, hE⟩ hl t).1 ht
      exact ⟨es, e, p, e1, hE, k1, k2, k3⟩
    · rintro ⟨es', e, p, k0, hE, k1, k2, k3⟩
      have := (ecus_iff (F := F) hreg hr hns he).2 k0
      rw [h1] at this
      obtain rfl := Except.ok.inj this
      obtain ⟨l, hl⟩ := mapM_all_ok h2 e hE
      exact ⟨e, hE, l, hl, (ecuTalks_says hreg hr hns he ⟨q, es, hq, e1, hE⟩ hl t).2 ⟨p, k1, k2, k3⟩⟩
    · rintro ⟨c, hc, l, hl, ht⟩
      obtain ⟨ms, h5, hl⟩ := bind_ok_iff.1 hl
      have h5 := (children_iff hreg hr hns (loc := [elem "NM-NODES", elems "CAN-NM-NODE"]) (by decide +kernel)).1 h5
      obtain ⟨ls, h6, hl⟩ := bind_ok_iff.1 hl
      obtain rfl := Except.ok.inj hl
      obtain ⟨m, hm, l, hl, ht⟩ := (mapM_flatten_mem h6 t).1 ht
      obtain ⟨y, hy⟩ := locate_exists (as := [elem "NM-NODES"]) h5 m hm
      obtain ⟨e, ps, p, k⟩ := (nmTalks_says hreg hr hns he ⟨q, cs, c, ms, hq, e3, hc, h5, hm⟩ hy hl t).1 ht
      exact ⟨cs, c, ms, m, e, ps, p, e3, hc, h5, hm, k⟩
    · rintro ⟨cs', c, ms', m, e, ps, p, k0, hc, k1, hm, k⟩
      obtain rfl := locate_unique hreg hr hns F (strs := ["ELEMENTS", "*NM-CONFIG", "NM-CLUSTERS", "*CAN-NM-CLUSTER"])
        (by decide +kernel) k0 e3
      obtain ⟨l, hl⟩ := mapM_all_ok h4 c hc
      refine ⟨c, hc, l, hl, ?_⟩
      obtain ⟨ms, h5, hl⟩ := bind_ok_iff.1 hl
      have h5 := (children_iff hreg hr hns (loc := [elem "NM-NODES", elems "CAN-NM-NODE"]) (by decide +kernel)).1 h5
      obtain rfl := locate_unique hreg hr hns F (strs := ["NM-NODES", "*CAN-NM-NODE"]) (by decide +kernel) k1 h5
      obtain ⟨ls, h6, hl⟩ := bind_ok_iff.1 hl
      obtain rfl := Except.ok.inj hl
      obtain ⟨y, hy⟩ := locate_exists (as := [elem "NM-NODES"]) h5 m hm
      obtain ⟨l, hl⟩ := mapM_all_ok h6 m hm
      exact (mapM_flatten_mem h6 t).2 ⟨m, hm, l, hl,
        (nmTalks_says hreg hr hns he ⟨q, cs', c, ms', hq, e3, hc, h5, hm⟩ hy hl t).2 ⟨e, ps, p, k⟩⟩
  rw [mapM_flatten_mem h1]
  obtain ⟨s, n, path⟩ := t
  constructor
  · rintro ⟨q, hq, l, hl, ht⟩
    have hq := (hpk q).1 hq
    rcases (hone q l hq hl).1 ht with ⟨es, e, p, k1, k2, k3, k4, k5⟩ | ⟨cs, c, ms, m, e, ps, p, k1, k2, k3, k4, k5, k6, k7, k8, k9⟩
    · refine ⟨p, ?_, k5⟩
      cases s with
      | false => exact .group ⟨q, es, hq, k1, k2⟩ k3 k4
      | true => exact .group ⟨q, es, hq, k1, k2⟩ k3 k4
    · refine ⟨p, ?_, k9⟩
      cases s with
      | false => exact .management ⟨q, cs, c, ms, hq, k1, k2, k3, k4⟩ k5 k6 k7 k8
      | true => exact .management ⟨q, cs, c, ms, hq, k1, k2, k3, k4⟩ k5 k6 k7 k8
  · rintro ⟨p, hd, hp⟩
    have main : (∃ q, PackageAt root q ∧ ((∃ es e p, Locate root [elem "ELEMENTS", elems "ECU-INSTANCE"] [q] es ∧ e ∈ es ∧ NameAt root e n ∧
        GroupHas root e (if s then "OUT" else "IN") p ∧ path = some (pathText (namesTo root p))) ∨
      ∃ cs c ms m e ps p, Locate root [elem "ELEMENTS", elems "NM-CONFIG", elem "NM-CLUSTERS", elems "CAN-NM-CLUSTER"] [q] cs ∧ c ∈ cs ∧
        Locate root [elem "NM-NODES", elems "CAN-NM-NODE"] [c] ms ∧ m ∈ ms ∧ NmNodeOf root m e ∧ NameAt root e n ∧
        Locate root (if s then [elem "TX-NM-PDU-REFS", refs "TX-NM-PDU"] else [elem "RX-NM-PDU-REFS", refs "RX-NM-PDU"]) [m] ps ∧
        p ∈ ps ∧ path = some (pathText (namesTo root p)))) := by
      cases s with
      | false =>
        cases hd with
        | group hE hn hg =>
          obtain ⟨q, es, k1, k2, k3⟩ := hE
          exact ⟨q, k1, .inl ⟨es, _, p, k2, k3, hn, hg, hp⟩⟩
        | management hm hE hn h hps =>
          obtain ⟨q, cs, c, ms, k1, k2, k3, k4, k5⟩ := hm
          exact ⟨q, k1, .inr ⟨cs, c, ms, _, _, _, p, k2, k3, k4, k5, hE, hn, h, hps, hp⟩⟩
      | true =>
        cases hd with
        | group hE hn hg =>
          obtain ⟨q, es, k1, k2, k3⟩ := hE
          exact ⟨q, k1, .inl ⟨es, _, p, k2, k3, hn, hg, hp⟩⟩
        | management hm hE hn h hps =>
          obtain ⟨q, cs, c, ms, k1, k2, k3, k4, k5⟩ := hm
          exact ⟨q, k1, .inr ⟨cs, c, ms, _, _, _, p, k2, k3, k4, k5, hE, hn, h, hps, hp⟩⟩
    obtain ⟨q, hq, k⟩ := main
    obtain ⟨l, hl⟩ := mapM_all_ok h1 q ((hpk q).2 hq)
    exact ⟨q, (hpk q).2 hq, l, hl, (hone q l hq hl).2 k⟩

omit hreg hr hns in
/-- The PDUs of ECUs have names. -/
theorem does_named (he : EcusRegular root) {s : Bool} {n : String} {p : Pos} (h : Does root s n p) : Named root p := by
  have hg : ∀ {e d}, GroupHas root e d p → Named root p := by
    rintro e d ⟨gs, g, ps, -, -, -, h, hp⟩
    exact locate_named (as := [elem "I-SIGNAL-I-PDUS", elems "I-SIGNAL-I-PDU-REF-CONDITIONAL"]) h
      (fun p x hx ht => he.pdus p x hx (by rw [ht]; decide)) p hp
  cases s with
  | true =>
    cases h with
    | group _ _ h => exact hg h
    | management _ _ _ h hp =>
      exact locate_named (as := [elem "TX-NM-PDU-REFS"]) h (fun p x hx ht => he.pdus p x hx (by rw [ht]; decide)) p hp
  | false =>
    cases h with
    | group _ _ h => exact hg h
    | management _ _ _ h hp =>
      exact locate_named (as := [elem "RX-NM-PDU-REFS"]) h (fun p x hx ht => he.pdus p x hx (by rw [ht]; decide)) p hp

end

/-! ### What is done with it -/

theorem addName_mem {n m : String} {l : List String} : m ∈ addName n l ↔ m ∈ l ∨ m = n := by
  unfold addName
  split
  · exact ⟨.inl, fun h => h.elim id fun h => h ▸ (by assumption)⟩
  · simp

theorem addName_nodup {n : String} {l : List String} (h : l.Nodup) : (addName n l).Nodup := by
  unfold addName
  split
  · exact h
  · rename_i hn
    rw [List.nodup_append]
    refine ⟨h, by simp, fun a ha b hb => ?_⟩
    obtain rfl := List.mem_singleton.1 hb
    exact fun e => hn (e ▸ ha)

/-- The names after all. -/
theorem hear_all (ts : List Talk) : ∀ (m : MessageNodes), m.senders.Nodup → (∀ l ∈ m.receivers, l.Nodup) →
    (ts.foldl (fun m t => m.hear t) m).paths = m.paths ∧
    NamesAre (ts.foldl (fun m t => m.hear t) m).senders
      (fun n => n ∈ m.senders ∨ ∃ t ∈ ts, t.sends = true ∧ t.ecu = n ∧ t.path ∈ m.paths) ∧
    List.Forall₂ (fun l l' => NamesAre l' fun n => n ∈ l ∨ ∃ t ∈ ts, t.sends = false ∧ t.ecu = n ∧ t.path ∈ m.paths) m.receivers
      (ts.foldl (fun m t => m.hear t) m).receivers := by
  induction ts with
  | nil =>
    intro m h1 h2
    refine ⟨rfl, ⟨h1, by simp⟩, ?_⟩
    exact List.forall₂_same.2 fun l hl => ⟨h2 l hl, by simp⟩
  | cons t ts ih =>
    intro m h1 h2
    rw [List.foldl_cons]
    by_cases hp : t.path ∈ m.paths
    · cases hs : t.sends with
      | true =>
        have hm : m.hear t = { m with senders := addName t.ecu m.senders } := by
          unfold MessageNodes.hear
          rw [if_pos hp, if_pos hs]
        obtain ⟨g1, ⟨g2, g3⟩, g4⟩ := ih (m.hear t) (by rw [hm]; exact addName_nodup h1) (by rw [hm]; exact h2)
        rw [hm] at g1 g2 g3 g4 ⊢
        refine ⟨g1, ⟨g2, fun n => ?_⟩, g4.imp fun l l' hl => ⟨hl.1, fun n => ?_⟩⟩
        · rw [g3]; dsimp only; rw [addName_mem]
          constructor
          · rintro ((h | rfl) | ⟨u, hu, k⟩)
            · exact .inl h
            · exact .inr ⟨t, by simp, hs, rfl, hp⟩
            · exact .inr ⟨u, by simp [hu], k⟩
          · rintro (h | ⟨u, hu, k⟩)
            · exact .inl (.inl h)
            · rcases List.mem_cons.1 hu with rfl | hu
              · exact .inl (.inr k.2.1.symm)
              · exact .inr ⟨u, hu, k⟩
        · rw [hl.2]
          refine or_congr Iff.rfl ⟨fun ⟨u, hu, k⟩ => ⟨u, by simp [hu], k⟩, fun ⟨u, hu, k⟩ => ?_⟩
          rcases List.mem_cons.1 hu with rfl | hu
          · rw [hs] at k; cases k.1
          · exact ⟨u, hu, k⟩
      | false =>
        have hm : m.hear t = { m with receivers := m.receivers.map (addName t.ecu) } := by
          unfold MessageNodes.hear
          rw [if_pos hp, if_neg (by rw [hs]; decide)]
        obtain ⟨g1, ⟨g2, g3⟩, g4⟩ := ih (m.hear t) (by rw [hm]; exact h1) (by
          rw [hm]
          intro l hl
          obtain ⟨l', hl', rfl⟩ := List.mem_map.1 hl
          exact addName_nodup (h2 l' hl'))
        rw [hm] at g1 g2 g3 g4 ⊢
        refine ⟨g1, ⟨g2, fun n => ?_⟩, (List.forall₂_map_left_iff.1 g4).imp fun l l' hl => ⟨hl.1, fun n => ?_⟩⟩
        · rw [g3]
          refine or_congr Iff.rfl ⟨fun ⟨u, hu, k⟩ => ⟨u, by simp [hu], k⟩, fun ⟨u, hu, k⟩ => ?_⟩
          rcases List.mem_cons.1 hu with rfl | hu
          · rw [hs] at k; cases k.1
          · exact ⟨u, hu, k⟩
        · rw [hl.2]; dsimp only; rw [addName_mem]
          constructor
          · rintro ((h | rfl) | ⟨u, hu, k⟩)
            · exact .inl h
            · exact .inr ⟨t, by simp, hs, rfl, hp⟩
            · exact .inr ⟨u, by simp [hu], k⟩
          · rintro (h | ⟨u, hu, k⟩)
            · exact .inl (.inl h)
            · rcases List.mem_cons.1 hu with rfl | hu
              · exact .inl (.inr k.2.1.symm)
              · exact .inr ⟨u, hu, k⟩
    · have hm : m.hear t = m := by
        unfold MessageNodes.hear
        rw [if_neg hp]
      rw [hm]
      obtain ⟨g1, ⟨g2, g3⟩, g4⟩ := ih m h1 h2
      have key : ∀ s n, (∃ u ∈ ts, u.sends = s ∧ u.ecu = n ∧ u.path ∈ m.paths) ↔
          ∃ u ∈ t :: ts, u.sends = s ∧ u.ecu = n ∧ u.path ∈ m.paths := by
        intro s n
        refine ⟨fun ⟨u, hu, k⟩ => ⟨u, by simp [hu], k⟩, fun ⟨u, hu, k⟩ => ?_⟩
        rcases List.mem_cons.1 hu with rfl | hu
        · exact absurd k.2.2 hp
        · exact ⟨u, hu, k⟩
      refine ⟨g1, ⟨g2, fun n => ?_⟩, g4.imp fun l l' hl => ⟨hl.1, fun n => ?_⟩⟩
      · rw [g3]; dsimp only; rw [key]
      · rw [hl.2]; dsimp only; rw [key]

theorem connected_all (ts : List Talk) : ∀ (c : Connected), ts.foldl (fun c t => c.hear t) c =
    { c with nodes := ts.foldl (fun m t => m.hear t) c.nodes
             parts := c.parts.map fun p => ts.foldl (fun m t => m.hear t) p } := by
  induction ts with
  | nil => intro c; simp
  | cons t ts ih =>
    intro c
    rw [List.foldl_cons, ih]
    simp [Connected.hear, Function.comp_def]

theorem hear_map (ts : List Talk) : ∀ (cs : List Connected), ts.foldl (fun cs t => cs.map (Connected.hear t)) cs =
    cs.map fun c => ts.foldl (fun c t => c.hear t) c := by
  induction ts with
  | nil => intro cs; simp
  | cons t ts ih =>
    intro cs
    rw [List.foldl_cons, ih]
    simp [Function.comp_def]

end Cantools.ArxmlFile
