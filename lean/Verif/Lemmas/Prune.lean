import Verif.Model.Prune
import Verif.Spec.Prune
import Verif.Lemmas.Values

/-
Lemmas about shortening names.
-/

namespace Cantools
open Spec

theorem isLetterU_iff (c : Char) : isLetterU c = true ↔ Letter c := by
  unfold isLetterU Letter Char.isAlpha Char.isUpper Char.isLower
  simp only [Bool.or_eq_true, Bool.and_eq_true, decide_eq_true_eq, beq_iff_eq, Char.toNat,
    ge_iff_le, UInt32.le_iff_toNat_le]
  rfl

theorem isWordU_iff (c : Char) : isWordU c = true ↔ Word c := by
  have h := isLetterU_iff c
  unfold isWordU Word Char.isAlphanum
  unfold Letter at h
  rw [Bool.or_eq_true, Bool.or_eq_true, h]
  have hd : (decide (48 ≤ c.toNat) && decide (c.toNat ≤ 57)) = true ↔ c.isDigit = true := by
    unfold Char.isDigit
    simp only [Bool.and_eq_true, decide_eq_true_eq, Char.toNat, ge_iff_le,
      UInt32.le_iff_toNat_le]
    rfl
  rw [hd]
  tauto

theorem dropNewline_eq {l : List Char} (h : '\n' ∉ l) : dropNewline l = l := by
  unfold dropNewline
  split
  · rename_i he
    exact absurd (List.mem_of_getLast? he) h
  · rfl

theorem validName_iff {l : List Char} (h : '\n' ∉ l) : validName l = true ↔ Identifier l := by
  unfold validName
  rw [dropNewline_eq h]
  unfold Identifier
  cases l with
  | nil => simp
  | cons c r =>
    simp only [Bool.and_eq_true, List.all_eq_true, isLetterU_iff, isWordU_iff]
    constructor
    · rintro ⟨h1, h2⟩; exact ⟨c, r, rfl, h1, h2⟩
    · rintro ⟨c', r', he, h1, h2⟩
      cases he; exact ⟨h1, h2⟩

theorem commonPrefix2_iff {p : List Char} : ∀ {a b : List Char},
    p <+: commonPrefix2 a b ↔ p <+: a ∧ p <+: b := by
  induction p with
  | nil => intro a b; simp
  | cons x p ih =>
    intro a b
    cases a with
    | nil => simp [commonPrefix2]
    | cons y a =>
      cases b with
      | nil => simp [commonPrefix2]
      | cons z b =>
        unfold commonPrefix2
        split
        · rename_i he
          subst he
          simp only [List.cons_prefix_cons, ih]
          tauto
        · rename_i he
          simp only [List.prefix_nil, List.cons_ne_nil, List.cons_prefix_cons, false_iff]
          rintro ⟨⟨h1, _⟩, h2, _⟩
          exact he (h1.symm.trans h2)

theorem commonPrefix_iff {p : List Char} : ∀ {names : List (List Char)}, names ≠ [] →
    (p <+: commonPrefix names ↔ ∀ n ∈ names, p <+: n)
  | [], h => absurd rfl h
  | [a], _ => by simp [commonPrefix]
  | a :: b :: r, _ => by
    rw [commonPrefix, commonPrefix2_iff, commonPrefix_iff (by simp)]
    simp

theorem dropWhileU (l : List Char) :
    (l.dropWhile (· ≠ '_') = [] → '_' ∉ l) ∧
    ∀ c r, l.dropWhile (· ≠ '_') = c :: r → c = '_' ∧ ∃ a, l = a ++ '_' :: r ∧ '_' ∉ a := by
  induction l with
  | nil => simp
  | cons x l ih =>
    by_cases hx : x = '_'
    · subst hx
      refine ⟨by simp, fun c r h => ?_⟩
      simp at h
      obtain ⟨rfl, rfl⟩ := h
      exact ⟨rfl, [], rfl, by simp⟩
    · have he : (x :: l).dropWhile (· ≠ '_') = l.dropWhile (· ≠ '_') := by simp [hx]
      rw [he]
      refine ⟨fun h hm => ?_, fun c r h => ?_⟩
      · rcases List.mem_cons.1 hm with h1 | h1
        · exact hx h1.symm
        · exact ih.1 h h1
      · obtain ⟨h1, a, h2, h3⟩ := ih.2 c r h
        refine ⟨h1, x :: a, by rw [h2]; rfl, fun hm => ?_⟩
        rcases List.mem_cons.1 hm with h4 | h4
        · exact hx h4.symm
        · exact h3 h4

theorem beforeLastU_none {l : List Char} (h : beforeLastU l = none) : '_' ∉ l := by
  unfold beforeLastU at h
  split at h
  · rename_i he
    simpa using (dropWhileU l.reverse).1 he
  · cases h

theorem beforeLastU_some {l f : List Char} (h : beforeLastU l = some f) :
    ∃ r, l = f ++ '_' :: r ∧ '_' ∉ r := by
  unfold beforeLastU at h
  split at h
  · cases h
  · rename_i c r he
    cases h
    obtain ⟨rfl, a, h2, h3⟩ := (dropWhileU l.reverse).2 c r he
    refine ⟨a.reverse, ?_, by simpa using h3⟩
    have := congrArg List.reverse h2
    simpa using this

theorem splitU_ne (l : List Char) : splitU l ≠ [] := by
  cases l with
  | nil => simp [splitU]
  | cons c r =>
    unfold splitU
    split
    · simp
    · split <;> simp

/-- The `i`-th candidate prefix. -/
def cand (f : List Char) (i : Nat) : List Char := joinU ((splitU f).take i) ++ ['_']

theorem cand_nil (i : Nat) : cand [] (i + 1) = ['_'] := by simp [cand, splitU, joinU]

theorem cand_u_one (r : List Char) : cand ('_' :: r) 1 = ['_'] := by simp [cand, splitU, joinU]

theorem cand_u (r : List Char) (i : Nat) : cand ('_' :: r) (i + 2) = '_' :: cand r (i + 1) := by
  have := splitU_ne r
  unfold cand
  cases h : splitU r with
  | nil => exact absurd h this
  | cons s t => simp [splitU, h, joinU]

theorem cand_c {c : Char} (hc : c ≠ '_') (r : List Char) (i : Nat) :
    cand (c :: r) (i + 1) = c :: cand r (i + 1) := by
  have := splitU_ne r
  unfold cand
  cases h : splitU r with
  | nil => exact absurd h this
  | cons s t =>
    simp only [splitU, if_neg hc, h, List.take_succ_cons]
    cases ht : t.take i with
    | nil => simp [joinU]
    | cons u v => simp [joinU]

theorem cand_prefix : ∀ (f : List Char) (i : Nat), cand f (i + 1) <+: f ++ ['_']
  | [], i => by rw [cand_nil]; exact List.prefix_refl _
  | c :: r, i => by
    by_cases hc : c = '_'
    · subst hc
      cases i with
      | zero => rw [cand_u_one]; simp
      | succ i => rw [cand_u, List.cons_append, List.cons_prefix_cons]; exact ⟨rfl, cand_prefix r i⟩
    · rw [cand_c hc, List.cons_append, List.cons_prefix_cons]; exact ⟨rfl, cand_prefix r i⟩

theorem cand_last (f : List Char) (i : Nat) : (cand f i).getLast? = some '_' := by simp [cand]

theorem cand_surj : ∀ (f q : List Char), q <+: f ++ ['_'] → q.getLast? = some '_' →
    ∃ i, i < (splitU f).length ∧ q = cand f (i + 1)
  | [], q, hq, hl => by
    refine ⟨0, by simp [splitU], ?_⟩
    rw [cand_nil]
    cases q with
    | nil => cases hl
    | cons x q =>
      rw [List.nil_append, List.cons_prefix_cons, List.prefix_nil] at hq
      rw [hq.1, hq.2]
  | c :: r, q, hq, hl => by
    cases q with
    | nil => cases hl
    | cons x q =>
      rw [List.cons_append, List.cons_prefix_cons] at hq
      obtain ⟨rfl, hq⟩ := hq
      by_cases hqn : q = []
      · subst hqn
        have hx : x = '_' := by simpa using hl
        subst hx
        exact ⟨0, by simp [splitU], (cand_u_one r).symm⟩
      · have hl' : q.getLast? = some '_' := by
          rw [List.getLast?_cons_of_ne_nil hqn] at hl
          exact hl
        obtain ⟨i, hi, he⟩ := cand_surj r q hq hl'
        by_cases hx : x = '_'
        · subst hx
          refine ⟨i + 1, by simp [splitU]; omega, ?_⟩
          rw [cand_u, he]
        · refine ⟨i, ?_, by rw [cand_c hx, he]⟩
          unfold splitU
          rw [if_neg hx]
          cases h : splitU r with
          | nil => exact absurd h (splitU_ne r)
          | cons s t => rw [h] at hi; simpa using hi

theorem cand_mono : ∀ (f : List Char) {i j : Nat}, i ≤ j →
    (cand f (i + 1)).length ≤ (cand f (j + 1)).length
  | [], i, j, _ => by rw [cand_nil, cand_nil]
  | c :: r, i, j, hij => by
    by_cases hc : c = '_'
    · subst hc
      cases i with
      | zero => rw [cand_u_one]; simp [cand]
      | succ i =>
        obtain ⟨j, rfl⟩ : ∃ k, j = k + 1 := ⟨j - 1, by omega⟩
        rw [cand_u, cand_u]
        simpa using cand_mono r (by omega : i ≤ j)
    · rw [cand_c hc, cand_c hc]
      simpa using cand_mono r hij

theorem pickPrefix_some {f : List Char} {names : List (List Char)} {k n : Nat}
    (h : pickPrefix (splitU f) names k = some n) :
    ∃ i, i < k ∧ n = (cand f (i + 1)).length ∧ (∀ x ∈ names, validName (x.drop n) = true) ∧
      ∀ j, i < j → j < k → ¬ ∀ x ∈ names, validName (x.drop (cand f (j + 1)).length) = true := by
  induction k with
  | zero => cases h
  | succ k ih =>
    unfold pickPrefix at h
    simp only at h
    change (if (names.all fun x => validName (x.drop (cand f (k + 1)).length)) = true
      then some (cand f (k + 1)).length else _) = _ at h
    split at h
    · rename_i hv
      cases h
      exact ⟨k, by omega, rfl, by simpa using hv, fun j h1 h2 => by omega⟩
    · rename_i hv
      obtain ⟨i, h1, h2, h3, h4⟩ := ih h
      refine ⟨i, by omega, h2, h3, fun j hj1 hj2 => ?_⟩
      by_cases hjk : j = k
      · subst hjk; simpa using hv
      · exact h4 j hj1 (by omega)

theorem pickPrefix_none {f : List Char} {names : List (List Char)} {k : Nat}
    (h : pickPrefix (splitU f) names k = none) :
    ∀ j, j < k → ¬ ∀ x ∈ names, validName (x.drop (cand f (j + 1)).length) = true := by
  induction k with
  | zero => intro j hj; omega
  | succ k ih =>
    unfold pickPrefix at h
    simp only at h
    change (if (names.all fun x => validName (x.drop (cand f (k + 1)).length)) = true
      then some (cand f (k + 1)).length else _) = _ at h
    split at h
    · cases h
    · rename_i hv
      intro j hj
      by_cases hjk : j = k
      · subst hjk; simpa using hv
      · exact ih h j (by omega)

/-- A strippable prefix lies in the part before the last underscore of the common prefix. -/
theorem strippable_prefix {names : List (List Char)} (hne : names ≠ []) {q : List Char}
    (hq : Strippable names q) :
    ∃ f, beforeLastU (commonPrefix names) = some f ∧ q <+: f ++ ['_'] := by
  have h1 : q <+: commonPrefix names :=
    (commonPrefix_iff hne).2 fun n hn => by
      obtain ⟨t, ht, _⟩ := hq.2 n hn
      exact ⟨t, ht.symm⟩
  obtain ⟨t, ht⟩ := h1
  have hmem : '_' ∈ q := List.mem_of_getLast? hq.1
  cases hb : beforeLastU (commonPrefix names) with
  | none => exact absurd (ht ▸ List.mem_append_left t hmem) (beforeLastU_none hb)
  | some f =>
    refine ⟨f, rfl, ?_⟩
    obtain ⟨r, hr, hu⟩ := beforeLastU_some hb
    have h2 : q ++ t = (f ++ ['_']) ++ r := by rw [ht, hr]; simp
    rcases List.append_eq_append_iff.1 h2 with ⟨a, ha, _⟩ | ⟨a, ha, hb'⟩
    · exact ⟨a, ha.symm⟩
    · by_cases han : a = []
      · subst han; simp only [List.append_nil] at ha; rw [ha]; exact List.prefix_refl _
      · exfalso
        have : q.getLast? = a.getLast? := by
          rw [ha, List.getLast?_append_of_ne_nil _ han]
        rw [hq.1] at this
        exact hu (hb' ▸ List.mem_append_left t (List.mem_of_getLast? this.symm))

/-- What `pruneLength` finds: nothing, or the longest strippable prefix. -/
theorem pruneLength_spec {names : List (List Char)} (hne : names ≠ [])
    (hnl : ∀ n ∈ names, '\n' ∉ n) :
    (pruneLength names = 0 ∨ ∃ p, Strippable names p ∧ pruneLength names = p.length) ∧
    ∀ q, Strippable names q → q ≠ ['_'] → q.length ≤ pruneLength names := by
  have hvalid : ∀ q, q <+: commonPrefix names → q.getLast? = some '_' →
      ((∀ x ∈ names, validName (x.drop q.length) = true) ↔ Strippable names q) := by
    intro q hq hl
    have hpre := (commonPrefix_iff hne).1 hq
    constructor
    · intro h
      refine ⟨hl, fun n hn => ?_⟩
      obtain ⟨t, ht⟩ := hpre n hn
      have h1 := h n hn
      rw [← ht, List.drop_left] at h1
      refine ⟨t, ht.symm, (validName_iff fun hm => ?_).1 h1⟩
      exact hnl n hn (ht ▸ List.mem_append_right q hm)
    · intro h n hn
      obtain ⟨t, ht, hi⟩ := h.2 n hn
      rw [ht, List.drop_left]
      refine (validName_iff fun hm => ?_).2 hi
      exact hnl n hn (ht ▸ List.mem_append_right q hm)
  unfold pruneLength
  cases hb : beforeLastU (commonPrefix names) with
  | none =>
    refine ⟨.inl rfl, fun q hq _ => ?_⟩
    obtain ⟨f, hf, _⟩ := strippable_prefix hne hq
    rw [hb] at hf; cases hf
  | some f =>
    cases f with
    | nil =>
      refine ⟨.inl rfl, fun q hq hq1 => ?_⟩
      obtain ⟨f, hf, hp⟩ := strippable_prefix hne hq
      rw [hb] at hf; cases hf
      exfalso
      cases q with
      | nil => cases hq.1
      | cons x q =>
        rw [List.nil_append, List.cons_prefix_cons, List.prefix_nil] at hp
        exact hq1 (by rw [hp.1, hp.2])
    | cons c f =>
      simp only
      set full := c :: f with hfull
      have hcp : ∀ i, cand full (i + 1) <+: commonPrefix names := by
        intro i
        obtain ⟨r, hr, _⟩ := beforeLastU_some hb
        refine (cand_prefix full i).trans ⟨r, by rw [hr]; simp⟩
      have hsurj : ∀ q, Strippable names q → ∃ i, i < (splitU full).length ∧ q = cand full (i + 1) := by
        intro q hq
        obtain ⟨f', hf', hp⟩ := strippable_prefix hne hq
        rw [hb] at hf'; cases hf'
        exact cand_surj _ _ hp hq.1
      cases hp : pickPrefix (splitU full) names (splitU full).length with
      | none =>
        refine ⟨.inl rfl, fun q hq _ => ?_⟩
        obtain ⟨i, hi, rfl⟩ := hsurj q hq
        exact absurd ((hvalid _ (hcp i) (cand_last _ _)).2 hq) (pickPrefix_none hp i hi)
      | some n =>
        obtain ⟨i, hi, rfl, hv, hmax⟩ := pickPrefix_some hp
        refine ⟨.inr ⟨cand full (i + 1), (hvalid _ (hcp i) (cand_last _ _)).1 hv, rfl⟩,
          fun q hq _ => ?_⟩
        obtain ⟨j, hj, rfl⟩ := hsurj q hq
        by_cases hij : j ≤ i
        · exact cand_mono full hij
        · exact absurd ((hvalid _ (hcp j) (cand_last _ _)).2 hq) (hmax j (by omega) hj)

theorem singleSuffix_some {x t : List Char} (hnl : '\n' ∉ x) :
    singleSuffix x = some t ↔ ∃ p, x = p ++ '_' :: t ∧ (∀ c ∈ p, Word c) ∧ t ≠ [] ∧
      (∀ c ∈ t, Letter c) ∧
      ∀ p' t', x = p' ++ '_' :: t' → t' ≠ [] → (∀ c ∈ t', Letter c) → p.length ≤ p'.length := by
  induction x with
  | nil => simp [singleSuffix]
  | cons c r ih =>
    have hr : '\n' ∉ r := fun h => hnl (List.mem_cons_of_mem _ h)
    have ih := ih hr
    unfold singleSuffix
    rw [dropNewline_eq hr]
    split
    · rename_i h
      simp only [Bool.and_eq_true, beq_iff_eq, Bool.not_eq_true', List.isEmpty_eq_false_iff,
        List.all_eq_true, isLetterU_iff] at h
      obtain ⟨⟨rfl, h1⟩, h2⟩ := h
      constructor
      · intro he; cases he
        exact ⟨[], rfl, by simp, h1, h2, by simp⟩
      · rintro ⟨p, he, _, _, _, hmin⟩
        have := hmin [] r rfl h1 h2
        cases p with
        | nil => simp only [List.nil_append, List.cons.injEq, true_and] at he; rw [he]
        | cons => simp at this
    · rename_i h
      simp only [Bool.and_eq_true, beq_iff_eq, Bool.not_eq_true', List.isEmpty_eq_false_iff,
        List.all_eq_true, isLetterU_iff] at h
      split
      · rename_i hw
        rw [isWordU_iff] at hw
        rw [ih]
        constructor
        · rintro ⟨p, he, hp, ht, hl, hmin⟩
          refine ⟨c :: p, by rw [he]; rfl, ?_, ht, hl, ?_⟩
          · intro d hd
            rcases List.mem_cons.1 hd with rfl | hd
            · exact hw
            · exact hp d hd
          · intro p' t' he' ht' hl'
            cases p' with
            | nil =>
              simp only [List.nil_append, List.cons.injEq] at he'
              obtain ⟨rfl, rfl⟩ := he'
              exact absurd ⟨⟨rfl, ht'⟩, hl'⟩ h
            | cons d p' =>
              simp only [List.cons_append, List.cons.injEq] at he'
              have := hmin p' t' he'.2 ht' hl'
              simpa using this
        · rintro ⟨p, he, hp, ht, hl, hmin⟩
          cases p with
          | nil =>
            simp only [List.nil_append, List.cons.injEq] at he
            obtain ⟨rfl, rfl⟩ := he
            exact absurd ⟨⟨rfl, ht⟩, hl⟩ h
          | cons d p =>
            simp only [List.cons_append, List.cons.injEq] at he
            refine ⟨p, he.2, fun x hx => hp x (List.mem_cons_of_mem _ hx), ht, hl, ?_⟩
            intro p' t' he' ht' hl'
            have := hmin (c :: p') t' (by rw [he']; rfl) ht' hl'
            simpa using this
      · rename_i hw
        rw [isWordU_iff] at hw
        constructor
        · intro he; cases he
        · rintro ⟨p, he, hp, ht, hl, hmin⟩
          exfalso
          cases p with
          | nil =>
            simp only [List.nil_append, List.cons.injEq] at he
            exact hw (.inr he.1)
          | cons d p =>
            simp only [List.cons_append, List.cons.injEq] at he
            exact hw (he.1 ▸ hp d (by simp))

end Cantools
