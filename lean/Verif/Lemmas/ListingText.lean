import Verif.Lemmas.DbcText
import Verif.Lemmas.DbcNumber

/-
Texts that determine what they were made of.
-/

namespace Cantools.Listing
open Cantools Dbc Spec

/-! ### Lists of lists -/

/-- Sections whose elements can be told apart by a key. -/
theorem sections_eq {α κ : Type} [DecidableEq κ] {key : α → κ} {Ks : List (List κ)} {A B : List (List α)}
    (hK : Ks.Pairwise fun K K' => ∀ k ∈ K, k ∉ K')
    (hA : List.Forall₂ (fun s K => ∀ l ∈ s, key l ∈ K) A Ks)
    (hB : List.Forall₂ (fun s K => ∀ l ∈ s, key l ∈ K) B Ks) (h : A.flatten = B.flatten) : A = B := by
  have later : ∀ {Ks : List (List κ)} {A : List (List α)} {K : List κ}, (∀ K' ∈ Ks, ∀ k ∈ K, k ∉ K') →
      List.Forall₂ (fun s K => ∀ l ∈ s, key l ∈ K) A Ks → A.flatten.filter (fun l => decide (key l ∈ K)) = [] := by
    intro Ks A K hK hA
    rw [List.filter_eq_nil_iff]
    intro l hl
    obtain ⟨s, hs, hs'⟩ := List.mem_flatten.1 hl
    clear hl
    induction hA with
    | nil => cases hs
    | @cons s' K' A' Ks' e _ ih =>
      rcases List.mem_cons.1 hs with rfl | hs
      · intro hk
        exact hK K' (by simp) _ (by simpa using hk) (e l hs')
      · exact ih (fun K' h' => hK K' (by simp [h'])) hs
  induction hA generalizing B with
  | nil => cases hB; rfl
  | @cons s K A Ks e hA ih =>
    cases hB with
    | @cons s' _ B _ e' hB =>
      rw [List.pairwise_cons] at hK
      have own : ∀ {s : List α}, (∀ l ∈ s, key l ∈ K) → s.filter (fun l => decide (key l ∈ K)) = s := by
        intro s hs
        rw [List.filter_eq_self]
        intro l hl
        simpa using hs l hl
      have hs : s = s' := by
        have := congrArg (List.filter fun l => decide (key l ∈ K)) h
        rw [List.flatten_cons, List.flatten_cons, List.filter_append, List.filter_append, own e, own e',
          later hK.1 hA, later hK.1 hB, List.append_nil, List.append_nil] at this
        exact this
      subst hs
      rw [ih hK.2 hB (by simpa using h)]

/-- Blocks that begin with an element of some kind and have no other one. -/
theorem blocks_eq {α : Type} {p : α → Bool} {A B : List (List α)}
    (hA : ∀ b ∈ A, ∃ h t, b = h :: t ∧ p h = true ∧ ∀ x ∈ t, p x = false)
    (hB : ∀ b ∈ B, ∃ h t, b = h :: t ∧ p h = true ∧ ∀ x ∈ t, p x = false) (h : A.flatten = B.flatten) : A = B := by
  have cut : ∀ {t : List α} {A : List (List α)}, (∀ x ∈ t, p x = false) →
      (∀ b ∈ A, ∃ h t, b = h :: t ∧ p h = true ∧ ∀ x ∈ t, p x = false) →
      (t ++ A.flatten).takeWhile (fun x => !p x) = t := by
    intro t A ht hA
    rw [List.takeWhile_append_of_pos (fun x hx => by simp [ht x hx])]
    cases A with
    | nil => simp
    | cons b A =>
      obtain ⟨h, t', rfl, hp, -⟩ := hA b (by simp)
      simp [hp]
  induction A generalizing B with
  | nil =>
    cases B with
    | nil => rfl
    | cons b B =>
      obtain ⟨x, t, rfl, -⟩ := hB b (by simp)
      simp at h
  | cons a A ih =>
    obtain ⟨x, t, rfl, hx, ht⟩ := hA a (by simp)
    cases B with
    | nil => simp at h
    | cons b B =>
      obtain ⟨y, u, rfl, hy, hu⟩ := hB b (by simp)
      rw [List.flatten_cons, List.flatten_cons, List.cons_append, List.cons_append, List.cons.injEq] at h
      obtain ⟨rfl, h⟩ := h
      have e := congrArg (List.takeWhile fun x => !p x) h
      rw [cut ht fun b hb => hA b (by simp [hb]), cut hu fun b hb => hB b (by simp [hb])] at e
      subst e
      rw [ih (fun b hb => hA b (by simp [hb])) (fun b hb => hB b (by simp [hb])) (List.append_cancel_left h)]

/-- Lists that are cut at an element that is not in their first parts. -/
theorem cut_eq {α : Type} {d : α} {A A' B B' : List α} (hA : d ∉ A) (hA' : d ∉ A')
    (h : A ++ d :: B = A' ++ d :: B') : A = A' ∧ B = B' := by
  induction A generalizing A' with
  | nil =>
    cases A' with
    | nil => exact ⟨rfl, by simpa using h⟩
    | cons x A' =>
      rw [List.nil_append, List.cons_append, List.cons.injEq] at h
      exact absurd (h.1 ▸ List.mem_cons_self) hA'
  | cons x A ih =>
    cases A' with
    | nil =>
      rw [List.nil_append, List.cons_append, List.cons.injEq] at h
      exact absurd (h.1 ▸ List.mem_cons_self) hA
    | cons y A' =>
      rw [List.cons_append, List.cons_append, List.cons.injEq] at h
      obtain ⟨rfl, h⟩ := h
      obtain ⟨rfl, rfl⟩ := ih (fun hd => hA (by simp [hd])) (fun hd => hA' (by simp [hd])) h
      exact ⟨rfl, rfl⟩

/-! ### Texts -/

/-- Lines without line ends. -/
theorem lines_eq {A B : List Chars} (hA : ∀ l ∈ A, '\n' ∉ l) (hB : ∀ l ∈ B, '\n' ∉ l)
    (h : A.flatMap (· ++ ['\n']) = B.flatMap (· ++ ['\n'])) : A = B := by
  induction A generalizing B with
  | nil =>
    cases B with
    | nil => rfl
    | cons b B => simp at h
  | cons a A ih =>
    cases B with
    | nil => simp at h
    | cons b B =>
      rw [List.flatMap_cons, List.flatMap_cons, List.append_assoc, List.append_assoc] at h
      obtain ⟨rfl, h'⟩ := cut_eq (hA a (by simp)) (hB b (by simp)) h
      rw [ih (fun l hl => hA l (by simp [hl])) (fun l hl => hB l (by simp [hl])) h']

/-- Texts joined with commas. -/
theorem join_eq {A B : List Chars} (hA : ∀ t ∈ A, ',' ∉ t) (hB : ∀ t ∈ B, ',' ∉ t) (ha : A ≠ []) (hb : B ≠ [])
    (h : joinC ", ".toList A = joinC ", ".toList B) : A = B := by
  induction A generalizing B with
  | nil => exact absurd rfl ha
  | cons x A ih =>
    cases B with
    | nil => exact absurd rfl hb
    | cons y B =>
      cases A with
      | nil =>
        cases B with
        | nil => simpa [joinC] using h
        | cons z B =>
          have : ',' ∈ x := by
            rw [show x = joinC ", ".toList [x] from rfl, h]
            simp [joinC]
          exact absurd this (hA x (by simp))
      | cons w A =>
        cases B with
        | nil =>
          have : ',' ∈ y := by
            rw [show y = joinC ", ".toList [y] from rfl, ← h]
            simp [joinC]
          exact absurd this (hB y (by simp))
        | cons z B =>
          rw [joinC, joinC] at h
          replace h : x ++ ',' :: ' ' :: joinC ", ".toList (w :: A) = y ++ ',' :: ' ' :: joinC ", ".toList (z :: B) := h
          obtain ⟨rfl, h'⟩ := cut_eq (d := ',') (hA x (by simp)) (hB y (by simp)) h
          rw [ih (fun t ht => hA t (by simp [ht])) (fun t ht => hB t (by simp [ht])) (by simp) (by simp)
            (List.cons.inj h').2]

/-- Integers have different texts. -/
theorem intText_inj {i j : Int} (h : intText i = intText j) : i = j := by
  have hi := readInt_intText i
  rw [h, readInt_intText j] at hi
  exact (Except.ok.inj hi).symm

theorem decimal_inj {m n : Nat} (h : decimal m = decimal n) : m = n := by
  have := intText_inj (i := m) (j := n) (by rw [intText_nat, intText_nat]; exact h)
  exact_mod_cast this

/-- The texts of integers are made of digits and a sign. -/
theorem intText_chars {i : Int} {c : Char} (h : c ∈ intText i) : c = '-' ∨ isDigit c = true := by
  unfold intText at h
  split at h
  · rcases List.mem_cons.1 h with rfl | h
    · exact .inl rfl
    · exact .inr ((decimal_digits _).2 c h)
  · exact .inr ((decimal_digits _).2 c h)

/-- Numbers have different texts. -/
theorem Num.text_inj {F : Type} {T : FloatText F} (L : FloatLaws T) {m n : Num F} (h : m.text T = n.text T) : m = n := by
  have hm := num_text L m
  rw [h, num_text L n] at hm
  exact (Except.ok.inj hm).symm

end Cantools.Listing
