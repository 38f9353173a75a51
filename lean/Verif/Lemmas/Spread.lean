import Verif.Lemmas.LayoutIds
import Verif.Lemmas.SymText

/-
Messages with one selector, and the messages in which every signal but the selector is multiplexed, once
for each of its ids.
-/

namespace Cantools
open Spec

/-! ### Sorting -/

theorem insertBy_filter {α : Type} {key : α → Nat} {p : α → Bool} (a : α) {l : List α}
    (hl : l.Pairwise fun a b => key a ≤ key b) :
    (insertBy key a l).filter p = if p a = true then insertBy key a (l.filter p) else l.filter p := by
  induction l with
  | nil => simp only [insertBy, List.filter_cons, List.filter_nil]
  | cons b r ih =>
    rw [List.pairwise_cons] at hl
    rw [insertBy]
    split
    · rename_i hab
      by_cases hp : p a = true
      · rw [if_pos hp, List.filter_cons_of_pos hp]
        cases hf : (b :: r).filter p with
        | nil => rfl
        | cons c t =>
          rw [insertBy, if_pos]
          have hc : c ∈ (b :: r).filter p := by rw [hf]; simp
          rcases List.mem_cons.1 (List.mem_filter.1 hc).1 with rfl | h
          · exact hab
          · exact le_trans hab (hl.1 c h)
      · rw [if_neg hp, List.filter_cons_of_neg hp]
    · rename_i hab
      by_cases hb : p b = true
      · rw [List.filter_cons_of_pos hb, List.filter_cons_of_pos hb, ih hl.2]
        split
        · rw [insertBy, if_neg hab]
        · rfl
      · rw [List.filter_cons_of_neg hb, List.filter_cons_of_neg hb, ih hl.2]

theorem sortedBy_filter {α : Type} (key : α → Nat) (p : α → Bool) (l : List α) :
    (sortedBy key l).filter p = sortedBy key (l.filter p) := by
  induction l with
  | nil => rfl
  | cons a l ih =>
    have e : sortedBy key (a :: l) = insertBy key a (sortedBy key l) := rfl
    rw [e, insertBy_filter a (sortedBy_pairwise key l), ih]
    split
    · rw [List.filter_cons_of_pos (by assumption)]; rfl
    · rw [List.filter_cons_of_neg (by assumption)]

theorem insertBy_map {α β : Type} (key : β → Nat) (f : α → β) (a : α) (l : List α) :
    insertBy key (f a) (l.map f) = (insertBy (fun x => key (f x)) a l).map f := by
  induction l with
  | nil => rfl
  | cons b l ih =>
    rw [List.map_cons, insertBy, insertBy]
    split
    · rfl
    · rw [ih]; rfl

theorem sortedBy_map {α β : Type} (key : β → Nat) (f : α → β) (l : List α) :
    sortedBy key (l.map f) = (sortedBy (fun x => key (f x)) l).map f := by
  induction l with
  | nil => rfl
  | cons a l ih =>
    have e : sortedBy key ((a :: l).map f) = insertBy key (f a) (sortedBy key (l.map f)) := rfl
    rw [e, ih, insertBy_map]
    rfl

theorem sortedBy_of_pairwise {α : Type} {key : α → Nat} {l : List α} (h : l.Pairwise fun a b => key a ≤ key b) :
    sortedBy key l = l := by
  induction l with
  | nil => rfl
  | cons a l ih =>
    rw [List.pairwise_cons] at h
    have e : sortedBy key (a :: l) = insertBy key a (sortedBy key l) := rfl
    rw [e, ih h.2]
    cases l with
    | nil => rfl
    | cons b l => rw [insertBy, if_pos (h.1 b (by simp))]

/-! ### One selector -/

/-- A message with the selector `sel`, the multiplexed signals `A` with the ids `ids`, and the signals `B`
that are in all frames. -/
structure OneMux (sel : Signal) (A B : List Signal) (ids : List Int) : Prop where
  mux : sel.isMultiplexer = true
  root : sel.multiplexerSignal = none
  choices : sel.conversion.choices = none
  inner : ∀ s ∈ A, s.isMultiplexer = false ∧ s.multiplexerSignal = some sel.name ∧
    ∃ l, s.multiplexerIds = some l ∧ ∀ i ∈ l, i ∈ ids
  outer : ∀ s ∈ B, s.isMultiplexer = false ∧ s.multiplexerSignal = none
  used : ∀ i ∈ ids, ∃ s ∈ A, ∃ l, s.multiplexerIds = some l ∧ i ∈ l
  ne : ids ≠ []
  nodup : ids.Nodup
  names : ((sel :: (A ++ B)).map (·.name)).Nodup

/-- A signal in the frames with one multiplexer id. -/
def atId (sel : String) (i : Int) (s : Signal) : Signal :=
  { s with multiplexerSignal := some sel, multiplexerIds := some [i] }

/-- The signals in the frames with one multiplexer id. -/
def branchAt (sel : Signal) (A B : List Signal) (i : Int) : List Signal :=
  (A.filter (fun s => (s.multiplexerIds.getD []).contains i) ++ B).map (atId sel.name i)

/-- The signals of the message, spread over the multiplexer ids. -/
def spreadSigs (sel : Signal) (A B : List Signal) (ids : List Int) : List Signal :=
  sel :: ids.flatMap (branchAt sel A B)

/-- Signals that differ in their multiplexing only. -/
def Moved (a b : Signal) : Prop :=
  b = { a with multiplexerSignal := b.multiplexerSignal, multiplexerIds := b.multiplexerIds }

theorem Moved.symm {a b : Signal} (h : Moved a b) : Moved b a := by
  unfold Moved at h ⊢
  rw [h]

theorem moved_atId (sel : String) (i : Int) (s : Signal) : Moved s (atId sel i s) := rfl

theorem Moved.occupies {a b : Signal} (h : Moved a b) {p : Nat} : Occupies b p ↔ Occupies a p := by
  rw [h]; rfl

section
variable {sel : Signal} {A B : List Signal} {ids : List Int} (h : OneMux sel A B ids)
include h

theorem OneMux.name_ne {s : Signal} (hs : s ∈ A ++ B) : s.name ≠ sel.name := by
  have := h.names
  rw [List.map_cons, List.nodup_cons] at this
  exact fun e => this.1 (e ▸ List.mem_map_of_mem hs)

theorem OneMux.unmux {s : Signal} (hs : s ∈ A ++ B) : s.isMultiplexer = false := by
  rcases List.mem_append.1 hs with h1 | h1
  · exact (h.inner s h1).1
  · exact (h.outer s h1).1

omit h in
theorem mem_branchAt {i : Int} {s : Signal} : s ∈ branchAt sel A B i ↔
    ∃ x, (x ∈ A ∧ i ∈ x.multiplexerIds.getD [] ∨ x ∈ B) ∧ s = atId sel.name i x := by
  unfold branchAt
  simp only [List.mem_map, List.mem_append, List.mem_filter, List.contains_iff_mem]
  constructor
  · rintro ⟨x, hx, rfl⟩; exact ⟨x, hx, rfl⟩
  · rintro ⟨x, hx, rfl⟩; exact ⟨x, hx, rfl⟩

/-! #### Presence in the message -/

theorem OneMux.present_iff {val : String → Option Int} {s : Signal} :
    Present (sel :: (A ++ B)) val s ↔
      s = sel ∨ s ∈ B ∨ (s ∈ A ∧ ∃ i, val sel.name = some i ∧ i ∈ s.multiplexerIds.getD []) := by
  constructor
  · intro hp
    cases hp with
    | root _ hs hp =>
      rcases List.mem_cons.1 hs with rfl | hs
      · exact .inl rfl
      · rcases List.mem_append.1 hs with h1 | h1
        · rw [(h.inner s h1).2.1] at hp; cases hp
        · exact .inr (.inl h1)
    | child _ p i l hs hp hm hpar hsel hids hi =>
      have hpe : p = sel := by
        rcases List.mem_cons.1 hpar.mem with e | e
        · exact e
        · rw [h.unmux e] at hm; cases hm
      subst hpe
      rcases List.mem_cons.1 hs with rfl | hs
      · exact .inl rfl
      · rcases List.mem_append.1 hs with h1 | h1
        · exact .inr (.inr ⟨h1, i, hsel, by rw [hids]; exact hi⟩)
        · exact .inr (.inl h1)
  · rintro (rfl | hs | ⟨hs, i, h1, h2⟩)
    · exact .root _ (by simp) h.root
    · exact .root _ (by simp [hs]) (h.outer s hs).2
    · obtain ⟨-, h3, l, h4, -⟩ := h.inner s hs
      exact .child s sel i l (by simp [hs]) h3 h.mux (.root _ (by simp) h.root) h1 h4 (by rw [h4] at h2; exact h2)

theorem OneMux.hasBranch_iff {i : Int} : HasBranch (sel :: (A ++ B)) sel i ↔ i ∈ ids := by
  unfold HasBranch table
  rw [h.choices]
  simp only [Option.getD_none, List.map_nil, List.not_mem_nil, or_false]
  constructor
  · rintro ⟨s, hs, h1, h2⟩
    rcases List.mem_cons.1 hs with rfl | hs
    · rw [h.root] at h1; cases h1
    · rcases List.mem_append.1 hs with h3 | h3
      · obtain ⟨-, -, l, h4, h5⟩ := h.inner s h3
        rw [h4] at h2
        exact h5 i h2
      · rw [(h.outer s h3).2] at h1; cases h1
  · intro hi
    obtain ⟨s, hs, l, h1, h2⟩ := h.used i hi
    exact ⟨s, by simp [hs], (h.inner s hs).2.1, by rw [h1]; exact h2⟩

theorem OneMux.selectable_iff {val : String → Option Int} :
    Selectable (sel :: (A ++ B)) val ↔ ∃ i ∈ ids, val sel.name = some i := by
  obtain ⟨j, hj⟩ := List.exists_mem_of_ne_nil _ h.ne
  constructor
  · intro hs
    obtain ⟨i, h1, h2⟩ := hs sel (h.present_iff.2 (.inl rfl)) h.mux ⟨j, h.hasBranch_iff.2 hj⟩
    exact ⟨i, h.hasBranch_iff.1 h2, h1⟩
  · rintro ⟨i, hi, h1⟩ p hp hm -
    have : p = sel := by
      rcases List.mem_cons.1 hp.mem with e | e
      · exact e
      · rw [h.unmux e] at hm; cases hm
    subst this
    exact ⟨i, h1, h.hasBranch_iff.2 hi⟩

/-! #### The frames with one id -/

/-- The frames with one id are those of a message with this id only. -/
theorem OneMux.one {i : Int} (hi : i ∈ ids) : OneMux sel (branchAt sel A B i) [] [i] where
  mux := h.mux
  root := h.root
  choices := h.choices
  inner := by
    intro s hs
    obtain ⟨x, hx, rfl⟩ := mem_branchAt.1 hs
    refine ⟨?_, rfl, [i], rfl, fun _ hj => hj⟩
    exact h.unmux (s := x) (by rcases hx with hx | hx <;> simp [hx])
  outer := by simp
  used := by
    intro j hj
    rw [List.mem_singleton] at hj
    subst hj
    obtain ⟨s, hs, l, h1, h2⟩ := h.used j hi
    exact ⟨atId sel.name j s, mem_branchAt.2 ⟨s, .inl ⟨hs, by rw [h1]; exact h2⟩, rfl⟩, [j], rfl, by simp⟩
  ne := by simp
  nodup := by simp
  names := by
    rw [List.append_nil]
    have : (branchAt sel A B i).map (·.name) =
        (A.filter (fun s => (s.multiplexerIds.getD []).contains i) ++ B).map (·.name) := by
      unfold branchAt; rw [List.map_map]; rfl
    rw [List.map_cons, this]
    have hsub : (sel.name :: (A.filter (fun s => (s.multiplexerIds.getD []).contains i) ++ B).map (·.name)).Sublist
        ((sel :: (A ++ B)).map (·.name)) := by
      rw [List.map_cons]
      exact (((List.filter_sublist).append_right B).map _).cons_cons _
    exact h.names.sublist hsub

theorem OneMux.moved_to {i : Int} (hi : i ∈ ids) {val : String → Option Int} (hv : val sel.name = some i) {a : Signal}
    (ha : Present (sel :: (A ++ B)) val a) :
    ∃ b, Moved a b ∧ Present (sel :: (branchAt sel A B i ++ [])) val b := by
  have hmem : ∀ b ∈ branchAt sel A B i, Present (sel :: (branchAt sel A B i ++ [])) val b := by
    intro b hb
    refine (h.one hi).present_iff.2 (.inr (.inr ⟨hb, i, hv, ?_⟩))
    obtain ⟨x, -, rfl⟩ := mem_branchAt.1 hb
    simp [atId]
  rcases h.present_iff.1 ha with rfl | hb | ⟨hb, j, h1, h2⟩
  · exact ⟨a, rfl, (h.one hi).present_iff.2 (.inl rfl)⟩
  · exact ⟨atId sel.name i a, rfl, hmem _ (mem_branchAt.2 ⟨a, .inr hb, rfl⟩)⟩
  · rw [hv] at h1
    cases h1
    exact ⟨atId sel.name i a, rfl, hmem _ (mem_branchAt.2 ⟨a, .inl ⟨hb, h2⟩, rfl⟩)⟩

theorem OneMux.moved_from {i : Int} (hi : i ∈ ids) {val : String → Option Int} (hv : val sel.name = some i) {b : Signal}
    (hb : Present (sel :: (branchAt sel A B i ++ [])) val b) :
    ∃ a, Moved a b ∧ Present (sel :: (A ++ B)) val a := by
  rcases (h.one hi).present_iff.1 hb with rfl | hb | ⟨hb, -⟩
  · exact ⟨b, rfl, h.present_iff.2 (.inl rfl)⟩
  · cases hb
  · obtain ⟨x, hx, rfl⟩ := mem_branchAt.1 hb
    refine ⟨x, rfl, h.present_iff.2 ?_⟩
    rcases hx with ⟨h1, h2⟩ | h1
    · exact .inr (.inr ⟨h1, i, hv, h2⟩)
    · exact .inr (.inl h1)

theorem OneMux.valid_one {i : Int} (hi : i ∈ ids) {len : Nat} (hvl : ValidLayout len (sel :: (A ++ B))) :
    ValidLayout len (sel :: (branchAt sel A B i ++ [])) := by
  -- in a frame with this id
  let val : String → Option Int := fun _ => some i
  have key : ∀ v b, Present (sel :: (branchAt sel A B i ++ [])) v b → ∃ a, Moved a b ∧ Present (sel :: (A ++ B)) val a := by
    intro v b hb
    refine h.moved_from hi (val := val) rfl ?_
    refine (h.one hi).present_iff.2 ?_
    rcases (h.one hi).present_iff.1 hb with h1 | h1 | ⟨h1, j, -, h3⟩
    · exact .inl h1
    · exact .inr (.inl h1)
    · refine .inr (.inr ⟨h1, i, rfl, ?_⟩)
      obtain ⟨x, -, rfl⟩ := mem_branchAt.1 h1
      simp [atId]
  constructor
  · rintro s ⟨v, hs⟩
    obtain ⟨a, ha, hp⟩ := key v s hs
    intro p ho
    exact hvl.1 a ⟨val, hp⟩ p (ha.occupies.1 ho)
  · intro v a b ha hb hab
    obtain ⟨a', ha', hpa⟩ := key v a ha
    obtain ⟨b', hb', hpb⟩ := key v b hb
    have hne : a' ≠ b' := by
      rintro rfl
      apply hab
      have hn : a.name = b.name := by rw [ha', hb']
      exact List.inj_on_of_nodup_map (h.one hi).names ha.mem hb.mem hn
    intro p h1 h2
    exact hvl.2 val a' b' hpa hpb hne p (ha'.occupies.1 h1) (hb'.occupies.1 h2)

end

/-! ### The codec of the spread message -/

theorem signalByName_moved {sigs : List Signal} {R : Signal → Signal → Prop} {n : String} {s : Signal}
    (hs : s ∈ sigs) (hn : s.name = n) (hR : ∀ t ∈ sigs, t.name = n → R s t) :
    ∃ t, signalByName sigs n = .ok t ∧ R s t := by
  unfold signalByName
  cases h : sigs.reverse.find? (fun s => s.name == n) with
  | none =>
    have := List.find?_eq_none.1 h s (by simpa using hs)
    simp [hn] at this
  | some t =>
    have h1 := List.mem_of_find?_eq_some h
    have h2 := List.find?_some h
    exact ⟨t, rfl, hR t (by simpa using h1) (by simpa using h2)⟩

theorem Moved.checkSignal {a b : Signal} (h : Moved a b) (bits : List (Option String)) :
    checkSignal bits b = checkSignal bits a := by
  rw [h]; rfl

theorem Moved.assertValueValid {a b : Signal} (h : Moved a b) (v : Value) (scaling : Bool) :
    assertValueValid b v scaling = assertValueValid a v scaling := by
  rw [h]; cases v <;> rfl

section
variable {sel : Signal} {A B : List Signal} {ids : List Int} (h : OneMux sel A B ids)
include h

theorem OneMux.spread_atNode {i : Int} (hi : i ∈ ids) :
    (spreadSigs sel A B ids).filter (atNode (some sel.name) (some i)) = branchAt sel A B i := by
  have hf : ∀ j, (branchAt sel A B j).filter (atNode (some sel.name) (some i)) = if j = i then branchAt sel A B i else [] := by
    intro j
    split
    · rename_i e
      subst e
      rw [List.filter_eq_self]
      intro s hs
      obtain ⟨x, -, rfl⟩ := mem_branchAt.1 hs
      simp [atNode, atId]
    · rename_i e
      rw [List.filter_eq_nil_iff]
      intro s hs
      obtain ⟨x, -, rfl⟩ := mem_branchAt.1 hs
      simpa [atNode, atId] using fun e' => e e'.symm
  have hfl : ∀ l : List Int, l.Nodup → (l.flatMap (branchAt sel A B)).filter (atNode (some sel.name) (some i)) =
      if i ∈ l then branchAt sel A B i else [] := by
    intro l hl
    induction l with
    | nil => rfl
    | cons j l ih =>
      rw [List.nodup_cons] at hl
      rw [List.flatMap_cons, List.filter_append, hf, ih hl.2]
      by_cases e : j = i
      · subst e
        simp [hl.1]
      · have e' : i ≠ j := fun e' => e e'.symm
        simp [e, e']
  unfold spreadSigs
  rw [List.filter_cons_of_neg (by simp [atNode, h.root]), hfl _ h.nodup, if_pos hi]

theorem OneMux.spread_root : (spreadSigs sel A B ids).filter (atNode none none) = [sel] := by
  unfold spreadSigs
  rw [List.filter_cons_of_pos (by simp [atNode, h.root])]
  congr 1
  rw [List.filter_eq_nil_iff]
  intro s hs
  obtain ⟨j, -, hs⟩ := List.mem_flatMap.1 hs
  obtain ⟨x, -, rfl⟩ := mem_branchAt.1 hs
  simp [atNode, atId]

theorem OneMux.spread_mux : (spreadSigs sel A B ids).filter (·.isMultiplexer) = [sel] := by
  unfold spreadSigs
  rw [List.filter_cons_of_pos (by simp [h.mux])]
  congr 1
  rw [List.filter_eq_nil_iff]
  intro s hs
  obtain ⟨j, -, hs⟩ := List.mem_flatMap.1 hs
  obtain ⟨x, hx, rfl⟩ := mem_branchAt.1 hs
  have := h.unmux (s := x) (by rcases hx with hx | hx <;> simp [hx])
  simp [atId, this]

theorem OneMux.spread_ids {i : Int} : i ∈ childrenIds (sortSignalsByStartBit (spreadSigs sel A B ids)) sel ↔ i ∈ ids := by
  unfold childrenIds
  rw [mem_dedupInt, h.choices]
  simp only [Option.getD_none, List.map_nil, List.append_nil, List.mem_flatMap, List.mem_filter]
  constructor
  · rintro ⟨s, ⟨hs, h1⟩, h2⟩
    have hs := (sortedBy_perm _ _).mem_iff.1 hs
    rcases List.mem_cons.1 hs with rfl | hs
    · rw [h.root] at h1; simp at h1
    · obtain ⟨j, hj, hs⟩ := List.mem_flatMap.1 hs
      obtain ⟨x, -, rfl⟩ := mem_branchAt.1 hs
      simp only [atId, Option.getD_some, List.mem_singleton] at h2
      exact h2 ▸ hj
  · intro hi
    obtain ⟨s, hs, l, h1, h2⟩ := h.used i hi
    refine ⟨atId sel.name i s, ⟨(sortedBy_perm _ _).mem_iff.2 ?_, by simp [atId]⟩, by simp [atId]⟩
    exact List.mem_cons_of_mem _ (List.mem_flatMap.2 ⟨i, hi, mem_branchAt.2 ⟨s, .inl ⟨hs, by rw [h1]; exact h2⟩, rfl⟩⟩)

/-- The codec of a branch. -/
def leafCodec (sel : Signal) (A B : List Signal) (i : Int) : Codec := .mk (sortSignalsByStartBit (branchAt sel A B i)) .nil

/-- The codec of the spread message with the branches `l`. -/
def spreadCodec (sel : Signal) (A B : List Signal) (l : List Int) : Codec :=
  .mk [sel] (.cons sel.name (Branches.ofList (l.map fun i => (i, leafCodec sel A B i))) .nil)

omit h in
theorem sort_singleton (s : Signal) : sortSignalsByStartBit [s] = [s] := rfl

theorem OneMux.spread_codec : createCodec (sortSignalsByStartBit (spreadSigs sel A B ids))
    ((sortSignalsByStartBit (spreadSigs sel A B ids)).length + 1) none none =
      some (spreadCodec sel A B (childrenIds (sortSignalsByStartBit (spreadSigs sel A B ids)) sel)) := by
  have hlen : (sortSignalsByStartBit (spreadSigs sel A B ids)).length = (ids.flatMap (branchAt sel A B)).length + 1 :=
    ((sortedBy_perm _ _).length_eq).trans (by simp [spreadSigs])
  have hmx : (sortSignalsByStartBit (spreadSigs sel A B ids)).filter (·.isMultiplexer) = [sel] := by
    unfold sortSignalsByStartBit
    rw [sortedBy_filter, h.spread_mux]; rfl
  have hne : childrenIds (sortSignalsByStartBit (spreadSigs sel A B ids)) sel ≠ [] := by
    obtain ⟨j, hj⟩ := List.exists_mem_of_ne_nil _ h.ne
    exact List.ne_nil_of_mem (h.spread_ids.2 hj)
  rw [hlen, Sym.codec_one hmx h.root hne]
  have h1 : (sortSignalsByStartBit (spreadSigs sel A B ids)).filter (atNode none none) = [sel] := by
    unfold sortSignalsByStartBit
    rw [sortedBy_filter, h.spread_root]; rfl
  have h2 : Sym.flatBranches (sortSignalsByStartBit (spreadSigs sel A B ids)) sel.name
      (childrenIds (sortSignalsByStartBit (spreadSigs sel A B ids)) sel) =
      (childrenIds (sortSignalsByStartBit (spreadSigs sel A B ids)) sel).map fun i => (i, leafCodec sel A B i) := by
    unfold Sym.flatBranches
    refine List.map_congr_left fun i hi => ?_
    have : (sortSignalsByStartBit (spreadSigs sel A B ids)).filter (atNode (some sel.name) (some i)) =
        sortSignalsByStartBit (branchAt sel A B i) := by
      unfold sortSignalsByStartBit
      rw [sortedBy_filter, h.spread_atNode (h.spread_ids.1 hi)]
    rw [this]
    rfl
  rw [h1, h2]
  rfl

omit h in
theorem branchAt_branchAt (i : Int) : branchAt sel (branchAt sel A B i) [] i = branchAt sel A B i := by
  conv_rhs => rw [← List.map_id (branchAt sel A B i)]
  unfold branchAt
  rw [List.append_nil, List.filter_eq_self.2, List.map_map]
  · simp only [List.map_id]
    rfl
  · intro s hs
    obtain ⟨x, -, rfl⟩ := List.mem_map.1 hs
    simp [atId]

omit h in
theorem spread_one (i : Int) :
    spreadSigs sel (branchAt sel A B i) [] [i] = sel :: (branchAt sel A B i ++ []) := by
  unfold spreadSigs
  rw [List.flatMap_cons, List.flatMap_nil, List.append_nil, List.append_nil, branchAt_branchAt]

omit h in
theorem spreadCodec_one (i : Int) :
    spreadCodec sel (branchAt sel A B i) [] [i] = spreadCodec sel A B [i] := by
  unfold spreadCodec leafCodec
  simp only [List.map_cons, List.map_nil, branchAt_branchAt]

end

/-! ### The branches of the spread message -/

section
variable {fo : FloatOps} {sel : Signal} {A B : List Signal} {sigs sigs' : List Signal} {len : Nat}
  {data : List (String × Value)} {scaling : Bool}

theorem encode_leaf (i : Int) : encodeNode fo sigs len data scaling (leafCodec sel A B i) =
    encodeNode fo sigs' len data scaling (leafCodec sel A B i) := by
  simp only [leafCodec, encodeNode, encodeMuxes]

theorem encode_branch (l : List Int) (mux : Int) :
    encodeBranch fo sigs len data scaling mux (Branches.ofList (l.map fun i => (i, leafCodec sel A B i))) =
      if mux ∈ l then encodeNode fo sigs' len data scaling (leafCodec sel A B mux) else .error .encodeError := by
  induction l with
  | nil => rfl
  | cons i l ih =>
    rw [List.map_cons, Branches.ofList, encodeBranch]
    by_cases e : i = mux
    · subst e
      rw [if_pos rfl, if_pos (by simp)]
      exact encode_leaf i
    · rw [if_neg e, ih]
      have e' : mux ≠ i := fun e' => e e'.symm
      simp [e']

theorem encode_spreadCodec (hg : getMuxNumber sigs data sel.name = getMuxNumber sigs' data sel.name) {l : List Int}
    {r : Nat × Nat × List Signal} :
    encodeNode fo sigs len data scaling (spreadCodec sel A B l) = .ok r ↔
      ∃ i ∈ l, getMuxNumber sigs data sel.name = .ok i ∧
        encodeNode fo sigs' len data scaling (spreadCodec sel A B [i]) = .ok r := by
  unfold spreadCodec
  simp only [encodeNode, encodeMuxes, encode_branch (sigs := sigs) (sigs' := sigs') l, ← hg]
  cases encodeData fo data [sel] (createFormats [sel] len) scaling with
  | error e => simp [bind, Except.bind]
  | ok x =>
    cases hm : getMuxNumber sigs data sel.name with
    | error e => simp [bind, Except.bind]
    | ok i =>
      simp only [bind, Except.bind, Except.ok.injEq]
      by_cases hi : i ∈ l
      · rw [if_pos hi]
        constructor
        · intro hh
          refine ⟨i, hi, rfl, ?_⟩
          rw [encode_branch (sigs := sigs') (sigs' := sigs') [i], if_pos (by simp)]
          exact hh
        · rintro ⟨j, -, rfl, hh⟩
          rw [encode_branch (sigs := sigs') (sigs' := sigs') [i], if_pos (by simp)] at hh
          exact hh
      · rw [if_neg hi]
        constructor
        · intro hh; cases hh
        · rintro ⟨j, hj, rfl, -⟩; exact absurd hj hi

theorem gather_branch (l : List Int) (mux : Int) :
    gatherBranch sigs data mux (Branches.ofList (l.map fun i => (i, leafCodec sel A B i))) =
      if mux ∈ l then gatherNode sigs' data (leafCodec sel A B mux) else .error .encodeError := by
  induction l with
  | nil => rfl
  | cons i l ih =>
    rw [List.map_cons, Branches.ofList, gatherBranch]
    by_cases e : i = mux
    · subst e
      rw [if_pos rfl, if_pos (by simp)]
      simp only [leafCodec, gatherNode, gatherMuxes]
    · rw [if_neg e, ih]
      have e' : mux ≠ i := fun e' => e e'.symm
      simp [e']

theorem gather_spreadCodec (hg : getMuxNumber sigs data sel.name = getMuxNumber sigs' data sel.name) {l : List Int}
    {r : List (String × Value)} :
    gatherNode sigs data (spreadCodec sel A B l) = .ok r ↔
      ∃ i ∈ l, getMuxNumber sigs data sel.name = .ok i ∧ gatherNode sigs' data (spreadCodec sel A B [i]) = .ok r := by
  unfold spreadCodec
  simp only [gatherNode, gatherMuxes, gather_branch (sigs := sigs) (sigs' := sigs') l, ← hg]
  cases [sel].foldlM (fun acc s =>
      match dictGet? data s.name with
      | none => Except.error Err.encodeError
      | some v => .ok (dictSet acc s.name v)) [] with
  | error e => simp [bind, Except.bind]
  | ok x =>
    cases hm : getMuxNumber sigs data sel.name with
    | error e => simp [bind, Except.bind]
    | ok i =>
      simp only [bind, Except.bind, Except.ok.injEq]
      by_cases hi : i ∈ l
      · rw [if_pos hi]
        constructor
        · intro hh
          refine ⟨i, hi, rfl, ?_⟩
          rw [gather_branch (sigs := sigs') (sigs' := sigs') [i], if_pos (by simp)]
          exact hh
        · rintro ⟨j, -, rfl, hh⟩
          rw [gather_branch (sigs := sigs') (sigs' := sigs') [i], if_pos (by simp)] at hh
          exact hh
      · rw [if_neg hi]
        constructor
        · intro hh; cases hh
        · rintro ⟨j, hj, rfl, -⟩; exact absurd hj hi

variable {bytes : Bytes} {dc sc tr ex : Bool}

theorem decode_branch (l : List Int) (mux : Int) :
    decodeBranch fo sigs len bytes dc sc tr ex mux (Branches.ofList (l.map fun i => (i, leafCodec sel A B i))) =
      if mux ∈ l then decodeNode fo sigs' len bytes dc sc tr ex (leafCodec sel A B mux) else .error .decodeError := by
  induction l with
  | nil => rfl
  | cons i l ih =>
    rw [List.map_cons, Branches.ofList, decodeBranch]
    by_cases e : i = mux
    · subst e
      rw [if_pos rfl, if_pos (by simp)]
      simp only [leafCodec, decodeNode, decodeMuxes]
    · rw [if_neg e, ih]
      have e' : mux ≠ i := fun e' => e e'.symm
      simp [e']

theorem decode_spreadCodec (hg : ∀ d, getMuxNumber sigs d sel.name = getMuxNumber sigs' d sel.name) {l : List Int} (hne : l ≠ []) :
    (∀ r, decodeNode fo sigs len bytes dc sc false ex (spreadCodec sel A B l) = .ok r ↔
      ∃ i ∈ l, decodeNode fo sigs' len bytes dc sc false ex (spreadCodec sel A B [i]) = .ok r) ∧
    (∀ e, decodeNode fo sigs len bytes dc sc false ex (spreadCodec sel A B l) = .error e →
      e = .decodeError ∨ ∃ i ∈ l, decodeNode fo sigs' len bytes dc sc false ex (spreadCodec sel A B [i]) = .error e) := by
  obtain ⟨j, hj⟩ := List.exists_mem_of_ne_nil _ hne
  unfold spreadCodec
  simp only [decodeNode, decodeMuxes, decode_branch (sigs := sigs) (sigs' := sigs') l, Bool.false_and, Bool.false_eq_true,
    if_false]
  cases decodeData fo bytes len [sel] (createFormats [sel] len) dc sc false ex with
  | error e =>
    refine ⟨fun r => ?_, fun e' he => ?_⟩
    · simp [bind, Except.bind]
    · exact .inr ⟨j, hj, he⟩
  | ok x =>
    have hx := hg x
    cases hm : getMuxNumber sigs x sel.name with
    | error e =>
      rw [hm] at hx
      refine ⟨fun r => ?_, fun e' he => ?_⟩
      · simp only [bind, Except.bind, hm, ← hx]; simp
      · simp only [bind, Except.bind, hm] at he
        simp only [bind, Except.bind, ← hx]
        exact .inr ⟨j, hj, he⟩
    | ok i =>
      rw [hm] at hx
      have hone : ∀ k, decodeBranch fo sigs' len bytes dc sc false ex i (Branches.ofList ([k].map fun i => (i, leafCodec sel A B i))) =
          if i = k then decodeNode fo sigs' len bytes dc sc false ex (leafCodec sel A B i) else .error .decodeError := by
        intro k
        rw [decode_branch (sigs := sigs') (sigs' := sigs') [k]]
        simp
      simp only [bind, Except.bind, hm, ← hx, hone]
      by_cases hi : i ∈ l
      · rw [if_pos hi]
        refine ⟨fun r => ⟨fun hh => ⟨i, hi, by rw [if_pos rfl]; exact hh⟩, ?_⟩, fun e he => .inr ⟨i, hi, by rw [if_pos rfl]; exact he⟩⟩
        rintro ⟨k, -, hk⟩
        by_cases e : i = k
        · rw [if_pos e] at hk; exact hk
        · rw [if_neg e] at hk; cases hk
      · rw [if_neg hi]
        refine ⟨fun r => ⟨nofun, ?_⟩, fun e he => by cases he; exact .inl rfl⟩
        rintro ⟨k, hk, hh⟩
        rw [if_neg (fun e : i = k => hi (e ▸ hk))] at hh
        cases hh

end

end Cantools
