import Verif.Lemmas.Dump

/-
Helper lemmas for the picture of a message: all signals together.
-/

namespace Cantools.Dump
open Cantools Cantools.Spec Cantools.Spec.Picture

/-! ### The characters of several signals -/

theorem unionChar_perm {a b : List Char} (h : a.Perm b) : unionChar a = unionChar b := by
  simp only [unionChar, h.count_eq]

theorem unionChar_blank {l : List Char} (h : ∀ c ∈ l, c = ' ') : unionChar l = ' ' := by
  have hc : ∀ x : Char, x ≠ ' ' → l.count x = 0 := fun x hx =>
    List.count_eq_zero.2 fun hm => hx (h x hm)
  simp [unionChar, hc '<' (by decide), hc '-' (by decide), hc 'x' (by decide)]

theorem unionChar_one {l₁ l₂ : List Char} {x : Char} (h : ∀ c ∈ l₁ ++ l₂, c = ' ')
    (hx : x = '<' ∨ x = '-' ∨ x = 'x') : unionChar (l₁ ++ x :: l₂) = x := by
  have hc : ∀ x : Char, x ≠ ' ' → l₁.count x = 0 ∧ l₂.count x = 0 := fun x hx =>
    ⟨List.count_eq_zero.2 fun hm => hx (h x (by simp [hm])),
      List.count_eq_zero.2 fun hm => hx (h x (by simp [hm]))⟩
  rcases hx with rfl | rfl | rfl <;>
    simp [unionChar, List.count_append, hc '<' (by decide), hc '-' (by decide),
      hc 'x' (by decide)]

theorem unionChar_two {l₁ l₂ l₃ : List Char} {x y : Char} (hx : x = '<' ∨ x = '-' ∨ x = 'x')
    (hy : y = '<' ∨ y = '-' ∨ y = 'x') : unionChar (l₁ ++ x :: (l₂ ++ y :: l₃)) = 'X' := by
  unfold unionChar
  rw [if_pos]
  rcases hx with rfl | rfl | rfl <;> rcases hy with rfl | rfl | rfl <;>
    simp [List.count_append] <;> omega

theorem mark_cases (s : Signal) (p i : Nat) : mark s p i = '<' ∨ mark s p i = '-' ∨ mark s p i = 'x' := by
  unfold mark; split
  · exact .inl rfl
  · split
    · exact .inr (.inr rfl)
    · exact .inr (.inl rfl)

/-! ### The union line -/

theorem foldl_max_spec (l : List Nat) (a : Nat) :
    a ≤ l.foldl max a ∧ (∀ x ∈ l, x ≤ l.foldl max a) ∧ (l.foldl max a = a ∨ l.foldl max a ∈ l) := by
  induction l generalizing a with
  | nil => simp
  | cons x l ih =>
    obtain ⟨h1, h2, h3⟩ := ih (max a x)
    refine ⟨by simp only [List.foldl_cons]; omega, ?_, ?_⟩
    · intro y hy
      rcases List.mem_cons.1 hy with rfl | hy
      · simp only [List.foldl_cons]; omega
      · exact h2 y hy
    · simp only [List.foldl_cons, List.mem_cons]
      rcases h3 with h3 | h3
      · rw [h3]; omega
      · exact .inr (.inr h3)

theorem lines_perm (sigs : List Signal) :
    ((sigs.filter (·.byteOrder = .big)).map formatBig ++
      (sigs.filter (·.byteOrder = .little)).map formatLittle).Perm (sigs.map formatSignal) := by
  have h1 : (sigs.filter (·.byteOrder = .big)).map formatBig =
      (sigs.filter (·.byteOrder = .big)).map formatSignal := by
    apply List.map_congr_left
    intro s hs
    simp only [List.mem_filter, decide_eq_true_eq] at hs
    simp [formatSignal, hs.2]
  have h2 : (sigs.filter (·.byteOrder = .little)).map formatLittle =
      (sigs.filter (·.byteOrder = .little)).map formatSignal := by
    apply List.map_congr_left
    intro s hs
    simp only [List.mem_filter, decide_eq_true_eq] at hs
    simp [formatSignal, hs.2]
  have h3 : sigs.filter (·.byteOrder = .little) = sigs.filter (fun s => !decide (s.byteOrder = .big)) := by
    apply List.filter_congr
    intro s _
    cases s.byteOrder <;> simp
  rw [h1, h2, h3, ← List.map_append]
  exact (List.filter_append_perm _ _).map _

/-- The union line, `N` being the number of bytes up to the end of the last signal. -/
theorem union_spec {sigs : List Signal} (hl : ∀ s ∈ sigs, 0 < s.length) :
    ∃ N, ((columns (signalLines sigs)).map unionChar).length = 24 * N ∧
      (∀ s ∈ sigs, bytesOf s ≤ N) ∧ (N = 0 ∨ ∃ s ∈ sigs, bytesOf s = N) ∧
      ∀ c, ((columns (signalLines sigs)).map unionChar).getD c ' ' =
        unionChar (sigs.map fun s => (formatSignal s).getD c ' ') := by
  have hp := lines_perm sigs
  unfold signalLines
  generalize (sigs.filter (·.byteOrder = .big)).map formatBig ++
      (sigs.filter (·.byteOrder = .little)).map formatLittle = S at hp
  obtain ⟨-, hmax, hatt⟩ := foldl_max_spec (S.map List.length) 0
  generalize hM : (S.map List.length).foldl max 0 = M at hmax hatt
  dsimp only
  rw [hM]
  have hround : (if M % 24 ≠ 0 then M + (24 - M % 24) else M) = 24 * ((M + 23) / 24) := by
    split <;> omega
  rw [hround]
  have hS : ∀ l, l ∈ S ↔ ∃ s ∈ sigs, formatSignal s = l := fun l => by
    rw [hp.mem_iff, List.mem_map]
  have hle : ∀ l ∈ S, l.length ≤ M := fun l hl => hmax _ (List.mem_map.2 ⟨l, hl, rfl⟩)
  have hmin : ((S.map fun l => l ++ blank (24 * ((M + 23) / 24) - l.length)).map List.length).min?.getD 0 =
      24 * ((M + 23) / 24) := by
    generalize hK : 24 * ((M + 23) / 24) = K
    have : (S.map fun l => l ++ blank (K - l.length)).map List.length = List.replicate S.length K := by
      rw [List.eq_replicate_iff]
      refine ⟨by simp, ?_⟩
      intro n hn
      obtain ⟨l', hl', rfl⟩ := List.mem_map.1 hn
      obtain ⟨l, hl, rfl⟩ := List.mem_map.1 hl'
      have := hle l hl
      simp only [List.length_append, blank, List.length_replicate]; omega
    rw [this]
    cases S with
    | nil =>
      simp only [List.map_nil, List.foldl_nil] at hM
      subst hM
      simp at hK; simp [← hK]
    | cons a S => simp
  have hpc : ∀ c, unionChar (sigs.map fun s => (formatSignal s).getD c ' ') =
      unionChar (S.map fun l => l.getD c ' ') := by
    intro c
    have := unionChar_perm (hp.map fun l => l.getD c ' ')
    rw [this, List.map_map]; rfl
  refine ⟨(M + 23) / 24, ?_, ?_, ?_, ?_⟩
  · simp only [columns, List.length_map, List.length_range]
    exact hmin
  · intro s hs
    have h1 := hle _ ((hS _).2 ⟨s, hs, rfl⟩)
    have h2 := length_format (hl s hs)
    omega
  · rcases hatt with h | h
    · left; omega
    · right
      obtain ⟨l, hl', hlen⟩ := List.mem_map.1 h
      obtain ⟨s, hs, rfl⟩ := (hS _).1 hl'
      have h2 := length_format (hl s hs)
      exact ⟨s, hs, by omega⟩
  · intro c
    rw [hpc, columns, hmin, List.map_map]
    by_cases hc : c < 24 * ((M + 23) / 24)
    · rw [List.getD_eq_getElem?_getD, List.getElem?_map, List.getElem?_range hc]
      simp only [Option.map_some, Option.getD_some, Function.comp, List.map_map]
      congr 1
      apply List.map_congr_left
      intro l _
      exact getD_append_blank _ _ _
    · rw [List.getD_eq_default _ _ (by simp; omega), unionChar_blank]
      intro x hx
      obtain ⟨l, hl', rfl⟩ := List.mem_map.1 hx
      have := hle l hl'
      exact List.getD_eq_default _ _ (by omega)

theorem split_exists {α : Type} {P : α → Prop} (l : List α) :
    (∀ x ∈ l, ¬ P x) ∨
    (∃ l₁ x l₂, l = l₁ ++ x :: l₂ ∧ P x ∧ ∀ y ∈ l₁ ++ l₂, ¬ P y) ∨
    ∃ l₁ x l₂ y l₃, l = l₁ ++ x :: (l₂ ++ y :: l₃) ∧ P x ∧ P y := by
  induction l with
  | nil => left; simp
  | cons a l ih =>
    by_cases ha : P a
    · rcases ih with h | ⟨l₁, x, l₂, rfl, hx, h⟩ | ⟨l₁, x, l₂, y, l₃, rfl, hx, hy⟩
      · right; left
        exact ⟨[], a, l, rfl, ha, by simpa using h⟩
      · right; right
        exact ⟨[], a, l₁, x, l₂, rfl, ha, hx⟩
      · right; right
        exact ⟨[], a, l₁, x, l₂ ++ y :: l₃, rfl, ha, hx⟩
    · rcases ih with h | ⟨l₁, x, l₂, rfl, hx, h⟩ | ⟨l₁, x, l₂, y, l₃, rfl, hx, hy⟩
      · left
        intro x hx
        rcases List.mem_cons.1 hx with rfl | hx
        · exact ha
        · exact h x hx
      · right; left
        refine ⟨a :: l₁, x, l₂, rfl, hx, ?_⟩
        intro y hy
        rcases List.mem_cons.1 hy with rfl | hy
        · exact ha
        · exact h y hy
      · right; right
        exact ⟨a :: l₁, x, l₂, y, l₃, rfl, hx, hy⟩

/-- The three characters of a payload bit, for the union of all signals. -/
theorem union_shows {sigs : List Signal} (hl : ∀ s ∈ sigs, 0 < s.length) (p : Nat) :
    Shows sigs p (unionChar (sigs.map fun s => (formatSignal s).getD (3 * net p) ' '))
      (unionChar (sigs.map fun s => (formatSignal s).getD (3 * net p + 1) ' '))
      (unionChar (sigs.map fun s => (formatSignal s).getD (3 * net p + 2) ' ')) := by
  have hblank : ∀ (l : List Signal), (∀ s ∈ l, 0 < s.length) → (∀ s ∈ l, ¬ Occupies s p) →
      ∀ i, i < 3 → ∀ c ∈ l.map (fun s => (formatSignal s).getD (3 * net p + i) ' '), c = ' ' := by
    intro l hl h i hi c hc
    obtain ⟨s, hs, rfl⟩ := List.mem_map.1 hc
    exact (glyph (hl s hs) hi).2 (h s hs)
  refine ⟨?_, ?_, ?_⟩
  · intro h
    exact ⟨unionChar_blank (hblank sigs hl h 0 (by omega)), unionChar_blank (hblank sigs hl h 1 (by omega)),
      unionChar_blank (hblank sigs hl h 2 (by omega))⟩
  · intro l₁ s l₂ hs ho h
    have hl' : ∀ t ∈ l₁ ++ l₂, 0 < t.length := by
      intro t ht
      apply hl; rw [hs]
      simp only [List.mem_append, List.mem_cons] at ht ⊢
      rcases ht with ht | ht <;> simp [ht]
    have hs0 : 0 < s.length := hl s (by simp [hs])
    have key : ∀ i, i < 3 →
        unionChar (sigs.map fun s => (formatSignal s).getD (3 * net p + i) ' ') = mark s p i := by
      intro i hi
      have hb := hblank _ hl' h i hi
      rw [List.map_append] at hb
      rw [hs, List.map_append, List.map_cons, (glyph hs0 hi).1 ho]
      exact unionChar_one hb (mark_cases s p i)
    refine ⟨(key 0 (by omega)).trans ?_, (key 1 (by omega)).trans ?_, (key 2 (by omega)).trans ?_⟩
    · simp [mark]
    · simp [mark]
    · simp [mark]
  · intro l₁ s l₂ t l₃ hs ho1 ho2
    have hs0 : 0 < s.length := hl s (by simp [hs])
    have ht0 : 0 < t.length := hl t (by simp [hs])
    have key : ∀ i, i < 3 →
        unionChar (sigs.map fun s => (formatSignal s).getD (3 * net p + i) ' ') = 'X' := by
      intro i hi
      rw [hs, List.map_append, List.map_cons, List.map_append, List.map_cons, (glyph hs0 hi).1 ho1,
        (glyph ht0 hi).1 ho2]
      exact unionChar_two (mark_cases s p i) (mark_cases t p i)
    exact ⟨key 0 (by omega), key 1 (by omega), key 2 (by omega)⟩

/-! ### Byte lines -/

theorem byteLines_spec {sigs : List Signal} (length : Nat) (hl : ∀ s ∈ sigs, 0 < s.length) :
    let lines := byteLines length sigs
    (length ≤ lines.length ∧ ∀ s ∈ sigs, bytesOf s ≤ lines.length) ∧
    (lines.length = length ∨ ∃ s ∈ sigs, bytesOf s = lines.length) ∧
    (∀ k, k < lines.length → (lines.getD k []).length = 24) ∧
    ∀ k x, k < lines.length → x < 24 → (lines.getD k []).getD x ' ' =
      unionChar (sigs.map fun s => (formatSignal s).getD (24 * k + x) ' ') := by
  obtain ⟨N, hN, h1, h2, h3⟩ := union_spec hl
  unfold byteLines
  generalize (columns (signalLines sigs)).map unionChar = U at hN h3
  dsimp only
  rw [chunks_eq (by omega) hN]
  have hlen : ((List.range N).map fun i => (U.drop (24 * i)).take 24).length = N := by simp
  simp only [List.length_append, hlen, List.length_replicate]
  have hget : ∀ k, k < N → (((List.range N).map fun i => (U.drop (24 * i)).take 24) ++
      List.replicate (length - N) (blank 24)).getD k [] = (U.drop (24 * k)).take 24 := by
    intro k hk
    rw [List.getD_append _ _ _ _ (by rw [hlen]; exact hk), List.getD_eq_getElem?_getD, List.getElem?_map,
      List.getElem?_range hk]; rfl
  have hget2 : ∀ k, N ≤ k → k < N + (length - N) →
      (((List.range N).map fun i => (U.drop (24 * i)).take 24) ++
      List.replicate (length - N) (blank 24)).getD k [] = blank 24 := by
    intro k hk hk2
    rw [List.getD_append_right _ _ _ _ (by rw [hlen]; exact hk), hlen, List.getD_eq_getElem?_getD,
      List.getElem?_replicate, if_pos (by omega)]; rfl
  refine ⟨⟨by omega, fun s hs => by have := h1 s hs; omega⟩, ?_, ?_, ?_⟩
  · by_cases hle : N ≤ length
    · left; omega
    · right
      rcases h2 with h2 | ⟨s, hs, h2⟩
      · omega
      · exact ⟨s, hs, by omega⟩
  · intro k hk
    by_cases hkN : k < N
    · rw [hget k hkN]; exact length_chunk hN hkN
    · rw [hget2 k (by omega) hk]; simp [blank]
  · intro k x hk hx
    rw [← h3]
    by_cases hkN : k < N
    · rw [hget k hkN, getD_drop_take _ _ _ _ _ hx]
    · rw [hget2 k (by omega) hk, getD_blank, List.getD_eq_default _ _ (by omega)]

end Cantools.Dump
