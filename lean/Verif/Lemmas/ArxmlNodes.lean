import Verif.Lemmas.ArxmlContainer
import Verif.Spec.ArxmlNodes

/-
Lemmas about senders and receivers of ARXML files (C62).
-/

namespace Cantools.ArxmlFile
open Kcd (Xml)
open Regex (Chars)
open Cdd (bind_of_ok)
open ArxmlRef (Pos Refs at? createDicts)
open ArxmlScale (FloatRead)
open Spec Spec.SystemFile

/-! ### Locations -/

theorem found_mem {root : Xml} {b : Pos} {a : LocAtom} {l : List Pos} (h : Found root b a l) {p : Pos} (hp : p ∈ l) :
    ∃ i c, at? root (b ++ [i]) = some c ∧ Wanted a c ∧ StandsFor root b a i p := by
  obtain ⟨is, -, hw, hf⟩ := h
  obtain ⟨i, hi, hs⟩ := forall₂_mem_right hf hp
  obtain ⟨c, hc, hwc⟩ := (hw i).1 hi
  exact ⟨i, c, hc, hwc, hs⟩

/-- The elements at a location, with the last step. -/
theorem locate_last {root : Xml} {a : LocAtom} : ∀ {as : List LocAtom} {bs l : List Pos}, Locate root (as ++ [a]) bs l →
    ∀ p ∈ l, ∃ b i c, at? root (b ++ [i]) = some c ∧ Wanted a c ∧ StandsFor root b a i p
  | [], bs, l, h, p, hp => by
    cases h with
    | @step _ _ _ parts _ h hr =>
      cases hr
      obtain ⟨x, hx, hp⟩ := List.mem_flatten.1 hp
      obtain ⟨b, -, hf, -⟩ := forall₂_mem_right h hx
      exact ⟨b, found_mem hf hp⟩
  | a' :: as, bs, l, h, p, hp => by
    cases h with
    | step h hr => exact locate_last (as := as) hr p hp

theorem standsFor_exists {root : Xml} {b : Pos} {a : LocAtom} {i : Nat} {p : Pos} (h : StandsFor root b a i p) :
    ∃ x, at? root p = some x := by
  obtain ⟨c, hc, h⟩ := h
  split at h
  · exact ⟨c, h ▸ hc⟩
  · obtain ⟨t, -, abs, -, ⟨x, hx, -⟩, -⟩ := h
    exact ⟨x, hx⟩

theorem locate_exists {root : Xml} {a : LocAtom} {as : List LocAtom} {bs l : List Pos} (h : Locate root (as ++ [a]) bs l) :
    ∀ p ∈ l, ∃ x, at? root p = some x := fun p hp => by
  obtain ⟨b, i, c, -, -, hs⟩ := locate_last h p hp
  exact standsFor_exists hs

/-- Elements that are not referred to. -/
theorem locate_tag {root : Xml} {a : LocAtom} {as : List LocAtom} {bs l : List Pos} (h : Locate root (as ++ [a]) bs l)
    (ha : a.refs = false) : ∀ p ∈ l, HasTag root p a.tag := fun p hp => by
  obtain ⟨b, i, c, hc, hw, c', hc', hs⟩ := locate_last h p hp
  rw [hc] at hc'
  obtain rfl := Option.some.inj hc'
  rcases hw with hw | hw
  · rw [if_pos hw] at hs
    exact ⟨c, hs ▸ hc, hw⟩
  · rw [ha] at hw
    cases hw.1

/-- Elements that have names. -/
theorem locate_named {root : Xml} {a : LocAtom} {as : List LocAtom} {bs l : List Pos} (h : Locate root (as ++ [a]) bs l)
    (hn : ∀ p x, at? root p = some x → x.tag = a.tag → shortName x ≠ []) : ∀ p ∈ l, Named root p := fun p hp => by
  obtain ⟨b, i, c, hc, -, c', hc', hs⟩ := locate_last h p hp
  rw [hc] at hc'
  obtain rfl := Option.some.inj hc'
  split at hs
  · exact ⟨c, hs ▸ hc, hn _ _ hc (by assumption)⟩
  · obtain ⟨t, -, abs, -, ⟨x, hx, hne, -⟩, -⟩ := hs
    exact ⟨x, hx, hne⟩

/-- The reference is the only child. -/
theorem only_reference {root : Xml} {a p r : Pos} {t : String} (h1 : At root a [ref t] (some p))
    (h2 : At root a [elem (t ++ "-REF")] (some r)) (hne : t ++ "-REF" ≠ t) : RefLeads root a r p := by
  have one : ∀ {at' : LocAtom} {q : Pos}, At root a [at'] (some q) → Found root a at' [q] := by
    intro at' q h
    unfold At at h
    generalize hl : (some q).toList = l at h
    cases h with
    | @step _ _ _ parts _ h hr =>
      generalize he : parts.flatten = l' at hr
      cases hr
      cases h with
      | @cons _ l0 _ ls h1 h2 =>
        cases h2
        have : l0 = [q] := by
          rw [List.flatten_cons, List.flatten_nil, List.append_nil] at he
          rw [he, ← hl]
          rfl
        exact this ▸ h1.1
  obtain ⟨is, -, hw, hf⟩ := one h1
  obtain ⟨j, c, hc, hwc, c', hc', hs⟩ := found_mem (one h2) (p := r) (by simp)
  rw [hc] at hc'
  obtain rfl := Option.some.inj hc'
  have htag : c.tag = t ++ "-REF" := by
    rcases hwc with h | h
    · exact h
    · cases h.1
  have hr : r = a ++ [j] := by
    rw [if_pos (show c.tag = (elem (t ++ "-REF")).tag from htag)] at hs
    exact hs
  have hj : j ∈ is := (hw j).2 ⟨c, hc, .inr ⟨rfl, htag⟩⟩
  cases hf with
  | @cons i _ is _ hs' hn =>
    cases hn
    obtain rfl : j = i := by simpa using hj
    obtain ⟨c', hc', hs'⟩ := hs'
    rw [hc] at hc'
    obtain rfl := Option.some.inj hc'
    rw [if_neg (show c.tag ≠ (ref t).tag by rw [htag]; exact hne)] at hs'
    obtain ⟨tx, h1, h2⟩ := hs'
    exact ⟨c, tx, hr ▸ hc, h1, h2⟩

theorem mapM_flatten_mem {α β : Type} {f : α → Except Err (List β)} {l : List α} {r : List (List β)} (h : l.mapM f = .ok r)
    (x : β) : x ∈ r.flatten ↔ ∃ a ∈ l, ∃ b, f a = .ok b ∧ x ∈ b := by
  replace h := ArxmlRef.mapM_forall₂.1 h
  rw [List.mem_flatten]
  induction h with
  | nil => simp
  | @cons a b l r h1 _ ih =>
    constructor
    · rintro ⟨y, hy, hx⟩
      rcases List.mem_cons.1 hy with rfl | hy
      · exact ⟨a, by simp, _, h1, hx⟩
      · obtain ⟨a', ha, hb⟩ := ih.1 ⟨y, hy, hx⟩
        exact ⟨a', by simp [ha], hb⟩
    · rintro ⟨a', ha, b', hb, hx⟩
      rcases List.mem_cons.1 ha with rfl | ha
      · rw [h1] at hb
        obtain rfl := Except.ok.inj hb
        exact ⟨b, by simp, hx⟩
      · obtain ⟨y, hy, hx⟩ := ih.2 ⟨a', ha, b', hb, hx⟩
        exact ⟨y, by simp [hy], hx⟩

theorem mapM_all_ok {α β : Type} {f : α → Except Err β} {l : List α} {r : List β} (h : l.mapM f = .ok r) :
    ∀ a ∈ l, ∃ b, f a = .ok b := by
  replace h := ArxmlRef.mapM_forall₂.1 h
  induction h with
  | nil => simp
  | @cons a b l r h1 _ ih =>
    intro a' ha
    rcases List.mem_cons.1 ha with rfl | ha
    · exact ⟨b, h1⟩
    · exact ih a' ha

section
variable {root : Xml} {r : Refs} {F : FloatRead} (hreg : Regular root) (hr : createDicts root = .ok r) (hns : NoStray root)
include hreg hr

local notation "𝓛" => (Loader.mk root r F)

theorem pathOf_says {p : Pos} {x : Xml} (h : at? root p = some x) : dictGet? r.pathOf p = some (pathText (namesTo root p)) := by
  have ⟨ha, hi⟩ := ArxmlRef.of_ok hreg hr
  rw [hi.path]
  exact ⟨⟨p, x, ArxmlRef.textTo root p, ArxmlRef.pkgTo root p⟩, ArxmlRef.mem_entries.2 ⟨h, rfl, rfl⟩, rfl,
    ArxmlRef.textTo_path hreg h⟩

theorem nodePath_says {p : Pos} {x : Xml} (h : at? root p = some x) : (𝓛).nodePath p = .ok (pathText (namesTo root p)) :=
  dictGet_eq_ok.2 (pathOf_says hreg hr h)

theorem refLeads_path {b q p : Pos} {y : Xml} (hy : at? root b = some y) (h : RefLeads root b q p) :
    (𝓛).refPath b q = .ok (pathText (namesTo root p)) := by
  obtain ⟨abs, h1, ⟨x, -, -, rfl⟩, -⟩ := refPath_ok (F := F) hreg hr hy h
  exact h1

include hns

theorem children_iff {b : Pos} {strs : List String} {loc : List LocAtom} {l : List Pos} (h : okAtoms strs loc = true) :
    (𝓛).children b strs = .ok l ↔ Locate root loc [b] l := by
  obtain ⟨h1, h2⟩ := okAtoms_says h
  exact C53_children_partial hreg hr h1 [b] l (ArxmlRef.noStrayAt_of fun a ha hf p x hx => hns p x hx _ (h2 a ha hf))

theorem unique_iff {b : Pos} {strs : List String} {loc : List LocAtom} {o : Option Pos} (h : okAtoms strs loc = true) :
    (𝓛).unique b strs = .ok o ↔ At root b loc o := by
  obtain ⟨h1, h2⟩ := okAtoms_says h
  obtain ⟨h3, h4⟩ := C53_unique_partial hreg hr h1 b (ArxmlRef.noStrayAt_of fun a ha hf p x hx => hns p x hx _ (h2 a ha hf))
  cases o with
  | none => exact h4
  | some p => exact h3 p

theorem childText_iff {b : Pos} {strs : List String} {loc : List LocAtom} {t : String} (h : okAtoms strs loc = true) :
    (𝓛).childText b strs = .ok t ↔ TextAt root b loc t := by
  constructor
  · intro hc
    obtain ⟨o, h1, h2⟩ := bind_ok_iff.1 hc
    cases o with
    | none => cases h2
    | some p =>
      have h1 := (unique_iff hreg hr hns h).1 h1
      unfold Loader.text at h2
      dsimp only at h2
      generalize ht : (𝓛).text? p = o at h2
      cases o with
      | none => cases h2
      | some t' =>
        obtain rfl := Except.ok.inj h2
        unfold Loader.text? at ht
        obtain ⟨x, hx, hxt⟩ := Option.bind_eq_some_iff.1 ht
        exact ⟨p, x, h1, hx, hxt⟩
  · exact childText_ok hreg hr hns h

/-! ### Paths -/

omit hns in
theorem altPaths_says (hns : NoStray root) {inner : Pos → Except Err (List Chars)} {a : Pos} {l : List Chars}
    (h : (𝓛).altPaths inner a = .ok l) : ∃ p li, At root a [ref "I-PDU"] (some p) ∧ inner p = .ok li ∧
      l = pathText (namesTo root p) :: li := by
  obtain ⟨o, h1, h⟩ := bind_ok_iff.1 h
  obtain ⟨o', h2, h⟩ := bind_ok_iff.1 h
  have h1 := (unique_iff hreg hr hns (loc := [ref "I-PDU"]) (by decide +kernel)).1 h1
  have h2 := (unique_iff hreg hr hns (loc := [elem "I-PDU-REF"]) (by decide +kernel)).1 h2
  cases o' with
  | none => cases h
  | some q =>
    cases o with
    | none => cases h
    | some p =>
      obtain ⟨path, h3, h⟩ := bind_ok_iff.1 h
      obtain ⟨li, h4, h⟩ := bind_ok_iff.1 h
      obtain ⟨y, hy⟩ := exists_of_child h1
      have hl : RefLeads root a q p := only_reference (t := "I-PDU") h1 h2 (by decide +kernel)
      rw [refLeads_path hreg hr hy hl] at h3
      obtain rfl := Except.ok.inj h3
      exact ⟨p, li, h1, h4, (Except.ok.inj h).symm⟩

/-- The PDU of a static part. -/
theorem staticPdu_says (hb : ∀ q d p, Declares root q d p → d.target.head? = some '/') {b q p : Pos} {y : Xml}
    (hy : at? root b = some y) (h : (𝓛).staticPdu b q = .ok p) : RefLeads root b q p := by
  obtain ⟨path, h1, h⟩ := bind_ok_iff.1 h
  obtain ⟨t, h2, h1⟩ := bind_ok_iff.1 h1
  obtain ⟨o, h3, h⟩ := bind_ok_iff.1 h
  cases o with
  | none => cases h
  | some p' =>
    obtain rfl := Except.ok.inj h
    unfold Loader.text Loader.text? at h2
    dsimp only at h1 h2 h3
    cases hx : at? root q with
    | none => rw [hx] at h2; cases h2
    | some x =>
      rw [hx] at h1 h2 h3
      dsimp only [Option.bind] at h1 h2 h3
      cases ht : x.text with
      | none => rw [ht] at h2; cases h2
      | some t' =>
        rw [ht] at h2
        obtain rfl := Except.ok.inj h2
        have ⟨ha, hi⟩ := ArxmlRef.of_ok hreg hr
        have h1 := ((ArxmlRef.absolutePath_says hreg hi ha hy _ _).1 path).1 h1
        obtain ⟨abs, g1, g2, g3⟩ := ((C53_follow hreg hr hy _ _ _).1 _).1 h3
        have hs : path.head? = some '/' := by
          unfold AbsoluteText at h1
          split at h1
          · rw [h1]; assumption
          · obtain ⟨target, ⟨u, -, ⟨v, d, hd, -, rfl⟩, -⟩, rfl⟩ := h1
            have := hb u d v hd
            cases hd : d.target with
            | nil => rfl
            | cons => rw [hd] at this; exact this
        unfold AbsoluteText at g1
        rw [if_pos hs] at g1
        subst g1
        exact ⟨x, t', hx, ht, _, h1, g2, g3⟩

omit hreg hr hns in
theorem madeOf_tag {p q : Pos} (h : MadeOf root p q) : HasTag root p "SECURED-I-PDU" ∨ HasTag root p "MULTIPLEXED-I-PDU" ∨ 
    HasTag root p "CONTAINER-I-PDU" := by
  cases h with
  | payload h => exact .inl h
  | alternative h => exact .inr (.inl h)
  | static h => exact .inr (.inl h)
  | contained h => exact .inr (.inr h)

omit hreg hr hns in
theorem madeOf_exists {p q : Pos} (h : MadeOf root p q) : ∃ x, at? root q = some x := by
  cases h with
  | payload _ h => exact locate_exists (as := [ref "PAYLOAD"]) h q (by simp)
  | alternative _ _ _ h => exact locate_exists (as := []) h q (by simp)
  | static _ _ _ h =>
    obtain ⟨x, t, -, -, abs, -, ⟨x, hx, -⟩, -⟩ := h
    exact ⟨x, hx⟩
  | contained _ _ h hq => exact locate_exists (as := [elem "CONTAINED-PDU-TRIGGERING-REFS", refs "CONTAINED-PDU-TRIGGERING"]) h q hq

omit hreg hr hns in
/-- From the paths of the direct parts to those of all parts. -/
theorem paths_close {p : Pos} {l : List Chars} {inner : Pos → Except Err (List Chars)}
    (hin : ∀ q li, inner q = .ok li → ∀ t, t ∈ li ↔ ∃ q', Relation.TransGen (MadeOf root) q q' ∧ t = pathText (namesTo root q'))
    (hok : ∀ q, MadeOf root p q → ∃ li, inner q = .ok li)
    (h : ∀ t, t ∈ l ↔ ∃ q li, MadeOf root p q ∧ inner q = .ok li ∧ (t = pathText (namesTo root q) ∨ t ∈ li)) :
    ∀ t, t ∈ l ↔ ∃ q, Relation.TransGen (MadeOf root) p q ∧ t = pathText (namesTo root q) := by
  intro t
  rw [h]
  constructor
  · rintro ⟨q, li, hq, hi, rfl | ht⟩
    · exact ⟨q, .single hq, rfl⟩
    · obtain ⟨q', hq', rfl⟩ := (hin q li hi t).1 ht
      exact ⟨q', .head hq hq', rfl⟩
  · rintro ⟨q, hq, rfl⟩
    obtain ⟨q1, h1, h2⟩ := Relation.TransGen.head'_iff.1 hq
    obtain ⟨li, hi⟩ := hok q1 h1
    refine ⟨q1, li, h1, hi, ?_⟩
    rcases Relation.reflTransGen_iff_eq_or_transGen.1 h2 with rfl | h2
    · exact .inl rfl
    · exact .inr ((hin q1 li hi _).2 ⟨q, h2, rfl⟩)

omit hreg hr hns in
theorem hasTag_unique {p : Pos} {s t : String} (h : HasTag root p s) (h' : (at? root p).map Xml.tag = some t) : s = t := by
  rw [tag_of h] at h'
  exact Option.some.inj h'

/-- The paths of the PDUs inside a PDU. -/
theorem pduPaths_says (hb : ∀ q d p, Declares root q d p → d.target.head? = some '/') : ∀ (fuel : Nat) (p : Pos) (l : List Chars),
    (𝓛).pduPaths fuel p = .ok l → ∀ t, t ∈ l ↔ ∃ q, Relation.TransGen (MadeOf root) p q ∧ t = pathText (namesTo root q)
  | 0, p, l, h => by cases h
  | fuel + 1, p, l, h => by
    have ih := pduPaths_says hb fuel
    unfold Loader.pduPaths at h
    dsimp only at h
    split at h
    · cases h
    · rename_i hc
      split at h
      · rename_i ht
        obtain ⟨o, h1, h⟩ := bind_ok_iff.1 h
        have h1 := (unique_iff hreg hr hns (loc := [ref "PAYLOAD", ref "I-PDU"]) (by decide +kernel)).1 h1
        cases o with
        | none => cases h
        | some q =>
          obtain ⟨li, h2, h⟩ := bind_ok_iff.1 h
          obtain ⟨path, h3, h⟩ := bind_ok_iff.1 h
          obtain rfl := Except.ok.inj h
          obtain ⟨x, hx, hxt⟩ := Option.map_eq_some_iff.1 ht
          have hm : MadeOf root p q := .payload ⟨x, hx, hxt⟩ h1
          have hu : ∀ q', MadeOf root p q' → q' = q := by
            intro q' h'
            cases h' with
            | payload _ h' => exact Option.some.inj (at_unique hreg hr hns F (strs := ["&PAYLOAD", "&I-PDU"]) (by decide +kernel) h' h1)
            | alternative h' => exact absurd (hasTag_unique h' ht) (by decide)
            | static h' => exact absurd (hasTag_unique h' ht) (by decide)
            | contained h' => exact absurd (hasTag_unique h' ht) (by decide)
          obtain ⟨y, hy⟩ := madeOf_exists hm
          rw [nodePath_says hreg hr hy] at h3
          obtain rfl := Except.ok.inj h3
          refine paths_close ih (fun q' h' => ⟨li, hu q' h' ▸ h2⟩) fun t => ?_
          constructor
          · intro h
            refine ⟨q, li, hm, h2, ?_⟩
            rcases List.mem_append.1 h with h | h
            · exact .inr h
            · exact .inl (by simpa using h)
          · rintro ⟨q', li', h', h4, h5⟩
            obtain rfl := hu q' h'
            rw [h2] at h4
            obtain rfl := Except.ok.inj h4
            rcases h5 with rfl | h5
            · simp
            · simp [h5]
      · rename_i hs
        split at h
        · rename_i ht
          obtain ⟨alts, h1, h⟩ := bind_ok_iff.1 h
          obtain ⟨a, h2, h⟩ := bind_ok_iff.1 h
          obtain ⟨statics, h3, h⟩ := bind_ok_iff.1 h
          obtain ⟨b, h4, h⟩ := bind_ok_iff.1 h
          obtain rfl := Except.ok.inj h
          have l1 := (children_iff hreg hr hns (loc := alternatives) (by decide +kernel)).1 h1
          have l3 := (children_iff hreg hr hns (loc := staticParts) (by decide +kernel)).1 h3
          obtain ⟨x, hx, hxt⟩ := Option.map_eq_some_iff.1 ht
          have htag : HasTag root p "MULTIPLEXED-I-PDU" := ⟨x, hx, hxt⟩
          have halt : ∀ {as : List Pos}, Locate root alternatives [p] as → as = alts := by
            intro as h
            rw [(children_iff (F := F) hreg hr hns (by decide +kernel)).2 h] at h1
            exact Except.ok.inj h1
          have hstat : ∀ {as : List Pos}, Locate root staticParts [p] as → as = statics := by
            intro as h
            rw [(children_iff (F := F) hreg hr hns (by decide +kernel)).2 h] at h3
            exact Except.ok.inj h3
          have hmade : ∀ q, MadeOf root p q → (∃ v ∈ alts, At root v [ref "I-PDU"] (some q)) ∨ ∃ v ∈ statics, RefLeads root p v q := by
            intro q h'
            cases h' with
            | payload h' => exact absurd (hasTag_unique h' ht) (by decide)
            | alternative _ hl ha h' => exact .inl ⟨_, halt hl ▸ ha, h'⟩
            | static _ hl ha h' => exact .inr ⟨_, hstat hl ▸ ha, h'⟩
            | contained h' => exact absurd (hasTag_unique h' ht) (by decide)
          have hsone : ∀ {v q : Pos} {l : List Chars}, v ∈ statics → RefLeads root p v q →
              (𝓛).staticPaths (fun p => (𝓛).pduPaths fuel p) p v = .ok l →
              ∃ li, (𝓛).pduPaths fuel q = .ok li ∧ l = pathText (namesTo root q) :: li := by
            intro v q l hv hl h
            obtain ⟨path, k1, h⟩ := bind_ok_iff.1 h
            obtain ⟨q', k2, h⟩ := bind_ok_iff.1 h
            obtain ⟨li, k3, hw⟩ := bind_ok_iff.1 h
            rw [refLeads_path hreg hr hx hl] at k1
            rw [staticPdu_ok hreg hr hx hl] at k2
            obtain rfl := Except.ok.inj k1
            obtain rfl := Except.ok.inj k2
            exact ⟨li, k3, (Except.ok.inj hw).symm⟩
          have haone : ∀ {v q : Pos} {l : List Chars}, At root v [ref "I-PDU"] (some q) →
              (𝓛).altPaths (fun p => (𝓛).pduPaths fuel p) v = .ok l →
              ∃ li, (𝓛).pduPaths fuel q = .ok li ∧ l = pathText (namesTo root q) :: li := by
            intro v q l hl h
            obtain ⟨q', li, k1, k2, k3⟩ := altPaths_says hreg hr hns h
            obtain rfl := Option.some.inj (at_unique hreg hr hns F (strs := ["&I-PDU"]) (by decide +kernel) hl k1)
            exact ⟨li, k2, k3⟩
          refine paths_close ih (fun q' h' => ?_) fun t => ?_
          · rcases hmade q' h' with ⟨v, hv, hl⟩ | ⟨v, hv, hl⟩
            · obtain ⟨l, hl'⟩ := mapM_all_ok h2 v hv
              obtain ⟨li, k1, -⟩ := haone hl hl'
              exact ⟨li, k1⟩
            · obtain ⟨l, hl'⟩ := mapM_all_ok h4 v hv
              obtain ⟨li, k1, -⟩ := hsone hv hl hl'
              exact ⟨li, k1⟩
          · rw [List.mem_append, mapM_flatten_mem h2, mapM_flatten_mem h4]
            constructor
            · rintro (⟨v, hv, l, hl, hm⟩ | ⟨v, hv, l, hl, hm⟩)
              · obtain ⟨q, li, k1, k2, rfl⟩ := altPaths_says hreg hr hns hl
                exact ⟨q, li, .alternative htag l1 hv k1, k2, by simpa using hm⟩
              · obtain ⟨path, -, h⟩ := bind_ok_iff.1 hl
                obtain ⟨q, k2, -⟩ := bind_ok_iff.1 h
                have k2 := staticPdu_says hreg hr hns hb hx k2
                obtain ⟨li, k3, rfl⟩ := hsone hv k2 hl
                exact ⟨q, li, .static htag l3 hv k2, k3, by simpa using hm⟩
            · rintro ⟨q, li, hq, hi, ht⟩
              rcases hmade q hq with ⟨v, hv, hl⟩ | ⟨v, hv, hl⟩
              · obtain ⟨l, hl'⟩ := mapM_all_ok h2 v hv
                obtain ⟨li', k1, rfl⟩ := haone hl hl'
                rw [hi] at k1
                obtain rfl := Except.ok.inj k1
                exact .inl ⟨v, hv, _, hl', by simpa using ht⟩
              · obtain ⟨l, hl'⟩ := mapM_all_ok h4 v hv
                obtain ⟨li', k1, rfl⟩ := hsone hv hl hl'
                rw [hi] at k1
                obtain rfl := Except.ok.inj k1
                exact .inr ⟨v, hv, _, hl', by simpa using ht⟩
        · rename_i hm
          obtain rfl := Except.ok.inj h
          intro t
          refine ⟨fun h => (by cases h), ?_⟩
          rintro ⟨q, hq, -⟩
          obtain ⟨q1, h1, -⟩ := Relation.TransGen.head'_iff.1 hq
          rcases madeOf_tag h1 with h | h | h
          · exact absurd (tag_of h) hs
          · exact absurd (tag_of h) hm
          · exact absurd (tag_of h) hc

end

end Cantools.ArxmlFile
