import Verif.Model.CNames
import Verif.Lemmas.Basic
import Mathlib.Data.List.Nodup

/-
Properties of the names of choices in the generated C code: C32.
-/

namespace Cantools
namespace C

theorem appendUntil_prefix (used : List (List Char)) : ∀ fuel n, n <+: appendUntil used fuel n := by
  intro fuel
  induction fuel with
  | zero => intro n; exact List.prefix_refl n
  | succ f ih =>
    intro n
    unfold appendUntil
    split
    · exact (List.prefix_append n ['_']).trans (ih _)
    · exact List.prefix_refl n

theorem appendUntil_fresh (used : List (List Char)) : ∀ fuel n,
    (used.filter fun u => n.isPrefixOf u).length ≤ fuel → appendUntil used fuel n ∉ used := by
  intro fuel
  induction fuel with
  | zero =>
    intro n h
    unfold appendUntil
    intro hn
    have : n ∈ used.filter fun u => n.isPrefixOf u :=
      List.mem_filter.2 ⟨hn, List.isPrefixOf_iff_prefix.2 (List.prefix_refl n)⟩
    rw [List.length_eq_zero_iff.1 (Nat.le_zero.1 h)] at this
    cases this
  | succ f ih =>
    intro n h
    unfold appendUntil
    split
    · rename_i hn
      apply ih
      have hlt : (used.filter fun u => (n ++ ['_']).isPrefixOf u).length <
          (used.filter fun u => n.isPrefixOf u).length := by
        have hsub : (used.filter fun u => (n ++ ['_']).isPrefixOf u) =
            (used.filter fun u => n.isPrefixOf u).filter fun u => (n ++ ['_']).isPrefixOf u := by
          rw [List.filter_filter]
          apply List.filter_congr
          intro u _
          rw [Bool.eq_iff_iff, Bool.and_eq_true, List.isPrefixOf_iff_prefix, List.isPrefixOf_iff_prefix]
          exact ⟨fun h => ⟨h, (List.prefix_append n ['_']).trans h⟩, fun h => h.1⟩
        rw [hsub]
        apply List.length_filter_lt_length_iff_exists.2
        refine ⟨n, List.mem_filter.2 ⟨hn, List.isPrefixOf_iff_prefix.2 (List.prefix_refl n)⟩, ?_⟩
        rw [List.isPrefixOf_iff_prefix]
        intro hp
        have := hp.length_le
        simp at this
        omega
      omega
    · assumption

/-- Invariant of the loop. -/
structure UniqueInv (names : List (List Char)) (all done : List (Int × List Char))
    (acc : List (Int × List Char)) : Prop where
  keys : (acc.map (·.1)).Nodup
  vals : (acc.map (·.2)).Nodup
  mem : ∀ k, k ∈ acc.map (·.1) ↔
    (∃ n, (k, n) ∈ all ∧ names.count n = 1) ∨ ∃ n, (k, n) ∈ done ∧ 1 < names.count n
  name : ∀ k n', (k, n') ∈ acc → ∃ n, (k, n) ∈ all ∧ n <+: n' ∧ (names.count n = 1 → n' = n)

theorem uniqueStep_inv {names : List (List Char)} {all done acc : List (Int × List Char)}
    {e : Int × List Char} (hall : (all.map (·.1)).Nodup) (he : e ∈ all)
    (hnew : e.1 ∉ done.map (·.1)) (h : UniqueInv names all done acc) :
    UniqueInv names all (done ++ [e]) (uniqueStep names acc e) := by
  have hkey : ∀ n, (e.1, n) ∈ all → n = e.2 := by
    intro n hn
    have h1 := dictGet?_of_mem hall hn
    have h2 := dictGet?_of_mem hall (show (e.1, e.2) ∈ all from he)
    rw [h1] at h2
    exact Option.some.inj h2
  unfold uniqueStep
  split
  · rename_i hc
    have hk : e.1 ∉ acc.map (·.1) := by
      rw [h.mem]
      rintro (⟨n, hn, h1⟩ | ⟨n, hn, _⟩)
      · rw [hkey n hn] at h1; omega
      · exact hnew (List.mem_map.2 ⟨_, hn, rfl⟩)
    rw [dictSet_append_of_not_mem _ hk]
    refine ⟨?_, ?_, ?_, ?_⟩
    · rw [List.map_append, List.nodup_append]
      refine ⟨h.keys, by simp, ?_⟩
      rintro a ha b hb rfl
      simp only [List.map_cons, List.map_nil, List.mem_singleton] at hb
      exact hk (hb ▸ ha)
    · rw [List.map_append, List.nodup_append]
      refine ⟨h.vals, by simp, ?_⟩
      rintro a ha b hb rfl
      simp only [List.map_cons, List.map_nil, List.mem_singleton] at hb
      refine appendUntil_fresh (acc.map (·.2)) acc.length _ ?_ (hb ▸ ha)
      exact Nat.le_trans (List.length_filter_le _ _) (by simp)
    · intro k
      simp only [List.map_append, List.mem_append, h.mem, List.map_cons, List.map_nil,
        List.mem_singleton]
      constructor
      · rintro ((h1 | ⟨n, h1, h2⟩) | rfl)
        · exact .inl h1
        · exact .inr ⟨n, .inl h1, h2⟩
        · exact .inr ⟨e.2, .inr rfl, hc⟩
      · rintro (h1 | ⟨n, h1 | h1, h2⟩)
        · exact .inl (.inl h1)
        · exact .inl (.inr ⟨n, h1, h2⟩)
        · exact .inr (by rw [← h1])
    · intro k n' hkn
      rcases List.mem_append.1 hkn with hkn | hkn
      · exact h.name k n' hkn
      · simp only [List.mem_singleton, Prod.mk.injEq] at hkn
        obtain ⟨rfl, rfl⟩ := hkn
        exact ⟨e.2, he, (List.prefix_append _ _).trans (appendUntil_prefix _ _ _), by omega⟩
  · rename_i hc
    refine ⟨h.keys, h.vals, ?_, h.name⟩
    intro k
    rw [h.mem]
    constructor
    · rintro (h1 | ⟨n, h1, h2⟩)
      · exact .inl h1
      · exact .inr ⟨n, by simp [h1], h2⟩
    · rintro (h1 | ⟨n, h1, h2⟩)
      · exact .inl h1
      · rcases List.mem_append.1 h1 with h1 | h1
        · exact .inr ⟨n, h1, h2⟩
        · simp only [List.mem_singleton] at h1
          subst h1
          exact absurd h2 hc

theorem uniqueFold_inv {names : List (List Char)} {all : List (Int × List Char)}
    (hall : (all.map (·.1)).Nodup) : ∀ (rest done acc : List (Int × List Char)),
    all = done ++ rest → UniqueInv names all done acc →
    UniqueInv names all all (rest.foldl (uniqueStep names) acc) := by
  intro rest
  induction rest with
  | nil => intro done acc h hi; rw [List.append_nil] at h; subst h; exact hi
  | cons e r ih =>
    intro done acc h hi
    rw [List.foldl_cons]
    refine ih (done ++ [e]) _ (by rw [h]; simp) (uniqueStep_inv hall (by rw [h]; simp) ?_ hi)
    rw [h, List.map_append, List.nodup_append] at hall
    intro hm
    exact hall.2.2 _ hm _ (by simp) rfl

theorem nodup_of_count_one {l : List (Int × List Char)} :
    ((l.filter fun e => (l.map (·.2)).count e.2 = 1).map (·.2)).Nodup := by
  rw [List.nodup_iff_count_le_one]
  intro a
  by_cases ha : a ∈ (l.filter fun e => (l.map (·.2)).count e.2 = 1).map (·.2)
  · obtain ⟨e, he, rfl⟩ := List.mem_map.1 ha
    have h1 := (List.mem_filter.1 he).2
    simp only [decide_eq_true_eq] at h1
    calc _ ≤ (l.map (·.2)).count e.2 :=
          List.Sublist.count_le _ (List.Sublist.map _ List.filter_sublist)
      _ ≤ 1 := by omega
  · rw [List.count_eq_zero.2 ha]; omega

theorem uniqueChoices_inv (choices : Choices) (hk : (choices.map (·.1)).Nodup) :
    UniqueInv ((choiceItems choices).map (·.2)) (choiceItems choices) (choiceItems choices)
      (uniqueChoices choices) := by
  have hall : ((choiceItems choices).map (·.1)).Nodup := by
    unfold choiceItems
    rw [List.map_map]
    exact hk
  unfold uniqueChoices
  generalize choiceItems choices = all at hall
  apply uniqueFold_inv hall all [] _ (by simp)
  refine ⟨?_, nodup_of_count_one, ?_, ?_⟩
  · exact hall.sublist (List.Sublist.map _ List.filter_sublist)
  · intro k
    simp only [List.mem_map, List.mem_filter, decide_eq_true_eq, Prod.exists, exists_and_right,
      exists_eq_right, List.not_mem_nil, false_and, exists_false, or_false]
  · intro k n' h
    obtain ⟨h1, h2⟩ := List.mem_filter.1 h
    exact ⟨n', h1, List.prefix_refl _, fun _ => rfl⟩

end C

open C

/-- C32: the names of the choices of a signal are pairwise distinct. -/
theorem C32_distinct (choices : Choices) (hk : (choices.map (·.1)).Nodup) :
    ((uniqueChoices choices).map (·.2)).Nodup :=
  (uniqueChoices_inv choices hk).vals

/-- C32: there is exactly one name for each value of the table, and none for other values. -/
theorem C32_one_per_value (choices : Choices) (hk : (choices.map (·.1)).Nodup) :
    ((uniqueChoices choices).map (·.1)).Nodup ∧
    ∀ v, v ∈ (uniqueChoices choices).map (·.1) ↔ v ∈ choices.map (·.1) := by
  have h := uniqueChoices_inv choices hk
  refine ⟨h.keys, fun v => ?_⟩
  rw [h.mem]
  have hv : v ∈ choices.map (·.1) ↔ ∃ n, (v, n) ∈ choiceItems choices := by
    simp only [choiceItems, List.mem_map, Prod.mk.injEq]
    constructor
    · rintro ⟨e, he, rfl⟩; exact ⟨_, e, he, rfl, rfl⟩
    · rintro ⟨n, e, he, h1, _⟩; exact ⟨e, he, h1⟩
  rw [hv]
  constructor
  · rintro (⟨n, h1, _⟩ | ⟨n, h1, _⟩) <;> exact ⟨n, h1⟩
  · rintro ⟨n, hn⟩
    have hpos : 0 < ((choiceItems choices).map (·.2)).count n :=
      List.count_pos_iff.2 (List.mem_map.2 ⟨_, hn, rfl⟩)
    by_cases h1 : ((choiceItems choices).map (·.2)).count n = 1
    · exact .inl ⟨n, hn, h1⟩
    · exact .inr ⟨n, hn, by omega⟩

/-- The name a choice would have by itself: its text in upper snake case. -/
def ownName (c : Choice) : List Char := (camelToSnake c.toStr.toList).map Char.toUpper

/-- C32: the name of a value starts with the value's own text in upper snake case, and is exactly
that unless another value has the same. -/
theorem C32_name (choices : Choices) (hk : (choices.map (·.1)).Nodup) {v : Int} {c : Choice}
    (hc : dictGet? choices v = some c) :
    ∃ n, dictGet? (uniqueChoices choices) v = some n ∧ ownName c <+: n ∧
      ((∀ w c', dictGet? choices w = some c' → w ≠ v → ownName c' ≠ ownName c) → n = ownName c) := by
  have h := uniqueChoices_inv choices hk
  obtain ⟨h1, h2⟩ := C32_one_per_value choices hk
  have hm := dictGet?_mem hc
  have hv := (h2 v).2 (List.mem_map.2 ⟨_, hm, rfl⟩)
  cases hg : dictGet? (uniqueChoices choices) v with
  | none => exact absurd hv ((dictGet?_eq_none_iff _ _).1 hg)
  | some n =>
    obtain ⟨n0, hn0, hp, hone⟩ := h.name v n (dictGet?_mem hg)
    have e0 : n0 = ownName c := by
      simp only [choiceItems, List.mem_map, Prod.mk.injEq] at hn0
      obtain ⟨e, he, rfl, rfl⟩ := hn0
      have := dictGet?_of_mem hk (show (e.1, e.2) ∈ choices from he)
      rw [hc] at this
      rw [Option.some.inj this]; rfl
    subst e0
    refine ⟨n, rfl, hp, fun hu => hone ?_⟩
    -- no other value has this name
    have hpos : 0 < ((choiceItems choices).map (·.2)).count (ownName c) :=
      List.count_pos_iff.2 (List.mem_map.2 ⟨_, hn0, rfl⟩)
    have hle : ((choiceItems choices).map (·.2)).count (ownName c) ≤ 1 := by
      have hmap : (choiceItems choices).map (·.2) = choices.map fun e => ownName e.2 := by
        unfold choiceItems ownName
        rw [List.map_map]; rfl
      rw [hmap]
      clear hmap hpos hone hp hg hv h2 h1 h hn0
      induction choices with
      | nil => simp
      | cons e r ih =>
        rw [List.map_cons, List.nodup_cons] at hk
        rw [List.map_cons, List.count_cons]
        by_cases hev : e.1 = v
        · have hz : (r.map fun e => ownName e.2).count (ownName c) = 0 := by
            rw [List.count_eq_zero]
            intro hmem
            obtain ⟨x, hx, hxe⟩ := List.mem_map.1 hmem
            have hxv : x.1 ≠ v := fun he => hk.1 (List.mem_map.2 ⟨x, hx, by rw [he, hev]⟩)
            refine hu x.1 x.2 ?_ hxv hxe
            rw [dictGet?_cons, if_neg (fun he => hxv (by rw [← he, hev]))]
            exact dictGet?_of_mem hk.2 hx
          rw [hz]
          split <;> omega
        · rw [dictGet?_cons, if_neg hev] at hc
          have h0 : ownName e.2 ≠ ownName c :=
            hu e.1 e.2 (by rw [dictGet?_cons, if_pos rfl]) hev
          rw [if_neg (by simpa using h0)]
          refine ih hk.2 hc (dictGet?_mem hc) ?_
          intro w c' hw hwv
          refine hu w c' ?_ hwv
          rw [dictGet?_cons, if_neg]
          · exact hw
          · intro he
            exact hk.1 (he ▸ List.mem_map.2 ⟨_, dictGet?_mem hw, rfl⟩)
    omega

/-- Characters of C macro names. -/
def IdentChar (c : Char) : Prop := ('A' ≤ c ∧ c ≤ 'Z') ∨ ('0' ≤ c ∧ c ≤ '9') ∨ c = '_'

namespace C

theorem toUpper_ident {c : Char} (h : (isLowerAZ c || isUpperAZ c || isDigit09 c) = true ∨ c = '_') :
    IdentChar c.toUpper := by
  by_cases hl : 'a'.val ≤ c.val ∧ c.val ≤ 'z'.val
  · left
    unfold Char.toUpper
    rw [dif_pos hl]
    have h1 := UInt32.le_iff_toNat_le.1 hl.1
    have h2 := UInt32.le_iff_toNat_le.1 hl.2
    have e1 : 'a'.val.toNat = 97 := rfl
    have e2 : 'z'.val.toNat = 122 := rfl
    have e3 : ('A'.val - 'a'.val : UInt32).toNat = 4294967264 := rfl
    rw [Char.le_def, Char.le_def, UInt32.le_iff_toNat_le, UInt32.le_iff_toNat_le]
    have e4 : 'A'.val.toNat = 65 := rfl
    have e5 : 'Z'.val.toNat = 90 := rfl
    simp only [UInt32.toNat_add, e3, e4, e5]
    omega
  · have : c.toUpper = c := by unfold Char.toUpper; rw [dif_neg hl]
    rw [this]
    rcases h with h | rfl
    · simp only [isLowerAZ, isUpperAZ, isDigit09, Bool.or_eq_true, Bool.and_eq_true,
        decide_eq_true_eq] at h
      rcases h with (h | h) | h
      · exact absurd h hl
      · exact .inl h
      · exact .inr (.inl h)
    · exact .inr (.inr rfl)

theorem canonical_chars {l : List Char} {c : Char} (h : c ∈ canonical l) :
    (isLowerAZ c || isUpperAZ c || isDigit09 c) = true ∨ c = '_' := by
  obtain ⟨d, _, rfl⟩ := List.mem_map.1 h
  split
  · exact .inl (by assumption)
  · exact .inr rfl

theorem toString_int_chars (i : Int) {c : Char} (h : c ∈ (toString i).toList) :
    isDigit09 c = true ∨ c = '-' := by
  have hd : ∀ n : Nat, ∀ c ∈ (toString n).toList, isDigit09 c = true := by
    intro n c hc
    have : (toString n).toList = Nat.toDigits 10 n := by simp [toString, Nat.repr]
    rw [this] at hc
    have := Nat.isDigit_of_mem_toDigits (by omega) (by omega) hc
    simpa [isDigit09, Char.isDigit, Char.le_def] using this
  cases i with
  | ofNat n => exact .inl (hd n c h)
  | negSucc n =>
    have : (toString (Int.negSucc n)).toList = '-' :: (toString (n + 1)).toList := by
      simp [toString, Int.repr]
    rw [this] at h
    rcases List.mem_cons.1 h with rfl | h
    · exact .inr rfl
    · exact .inl (hd _ c h)

theorem suffix_ident (i : Int) {c : Char} (h : c ∈ canonical ('_' :: (toString i).toList)) :
    IdentChar c := by
  obtain ⟨d, hd, rfl⟩ := List.mem_map.1 h
  rcases List.mem_cons.1 hd with rfl | hd
  · exact .inr (.inr rfl)
  · rcases toString_int_chars i hd with hd | rfl
    · rw [if_pos (by simp [hd])]
      simp only [isDigit09, Bool.and_eq_true, decide_eq_true_eq] at hd
      exact .inr (.inl hd)
    · exact .inr (.inr rfl)

theorem appendUntil_ident (used : List (List Char)) : ∀ fuel n, (∀ c ∈ n, IdentChar c) →
    ∀ c ∈ appendUntil used fuel n, IdentChar c := by
  intro fuel
  induction fuel with
  | zero => intro n h; exact h
  | succ f ih =>
    intro n h
    unfold appendUntil
    split
    · apply ih
      intro c hc
      rcases List.mem_append.1 hc with hc | hc
      · exact h c hc
      · rw [List.mem_singleton] at hc
        exact .inr (.inr hc)
    · exact h

end C

/-- C32: the names consist of upper case letters, digits and underscores. -/
theorem C32_identifiers (choices : Choices) :
    ∀ e ∈ uniqueChoices choices, ∀ c ∈ e.2, IdentChar c := by
  have hitems : ∀ e ∈ choiceItems choices, ∀ c ∈ e.2, IdentChar c := by
    intro e he c hc
    obtain ⟨x, _, rfl⟩ := List.mem_map.1 he
    obtain ⟨d, hd, rfl⟩ := List.mem_map.1 hc
    exact toUpper_ident (canonical_chars hd)
  have hfold : ∀ (names : List (List Char)) (l acc : List (Int × List Char)),
      (∀ e ∈ l, ∀ c ∈ e.2, IdentChar c) → (∀ e ∈ acc, ∀ c ∈ e.2, IdentChar c) →
      ∀ e ∈ l.foldl (uniqueStep names) acc, ∀ c ∈ e.2, IdentChar c := by
    intro names l
    induction l with
    | nil => intro acc _ h; exact h
    | cons x r ih =>
      intro acc hl hacc
      rw [List.foldl_cons]
      refine ih _ (fun e he => hl e (by simp [he])) ?_
      unfold uniqueStep
      split
      · have hset : ∀ (d : List (Int × List Char)) (k : Int) (v : List Char),
            (∀ e ∈ d, ∀ c ∈ e.2, IdentChar c) → (∀ c ∈ v, IdentChar c) →
            ∀ e ∈ dictSet d k v, ∀ c ∈ e.2, IdentChar c := by
          intro d k v
          induction d with
          | nil => intro _ hv e he; simp only [dictSet, List.mem_singleton] at he; subst he; exact hv
          | cons y t iht =>
            intro hd hv e he
            unfold dictSet at he
            split at he
            · rcases List.mem_cons.1 he with rfl | he
              · exact hv
              · exact hd e (by simp [he])
            · rcases List.mem_cons.1 he with rfl | he
              · exact hd _ (by simp)
              · exact iht (fun e he => hd e (by simp [he])) hv e he
        apply hset _ _ _ hacc
        apply appendUntil_ident
        intro c hc
        rcases List.mem_append.1 hc with hc | hc
        · exact hl x (by simp) c hc
        · exact suffix_ident _ hc
      · exact hacc
  exact hfold _ _ _ hitems fun e he => hitems e (List.mem_filter.1 he).1

section
open C

/-- A table in which names clash: `fast`, `Fast` and `fast!` give `FAST`, `FAST` and `FAST_`. -/
def clashing : Choices :=
  [(1, .str "fast"), (-1, .str "Fast"), (2, .str "FAST_1"), (3, .str "slowDown"), (4, .str "fast?")]

example : (uniqueChoices clashing).map (fun e => (e.1, String.ofList e.2)) =
    [(2, "FAST_1"), (3, "SLOW_DOWN"), (4, "FAST_"), (1, "FAST_1_"), (-1, "FAST__1")] := by
  decide +kernel

example : ((uniqueChoices clashing).map (·.2)).Nodup := C32_distinct clashing (by decide)

end

end Cantools
