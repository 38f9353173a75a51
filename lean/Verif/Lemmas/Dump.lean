import Verif.Spec.Dump
import Verif.Model.Dump
import Verif.Lemmas.Layout
import Mathlib.Data.List.GetD

/-
Helper lemmas for the picture of a message.
-/

namespace Cantools.Dump
open Cantools Cantools.Spec Cantools.Spec.Picture

/-! ### Lists -/

theorem getD_drop_take {α : Type} (l : List α) (i w j : Nat) (d : α) (h : j < w) :
    ((l.drop i).take w).getD j d = l.getD (i + j) d := by
  simp [List.getD_eq_getElem?_getD, h, List.getElem?_drop]

theorem length_blocks {α : Type} {w n : Nat} {f : Nat → List α} (hf : ∀ i, i < n → (f i).length = w) :
    ((List.range n).map f).flatten.length = w * n := by
  induction n with
  | zero => simp
  | succ n ih =>
    rw [List.range_succ, List.map_append, List.flatten_append, List.length_append,
      ih (fun i hi => hf i (by omega))]
    simp [hf n (by omega), Nat.mul_succ]

theorem getD_blocks {α : Type} {w n c : Nat} {f : Nat → List α} {d : α} (hf : ∀ i, i < n → (f i).length = w)
    (hc : c < w * n) : ((List.range n).map f).flatten.getD c d = (f (c / w)).getD (c % w) d := by
  induction n with
  | zero => simp at hc
  | succ n ih =>
    have hw : 0 < w := by
      rcases Nat.eq_zero_or_pos w with h | h
      · subst h; simp at hc
      · exact h
    have hl := length_blocks (f := f) (n := n) (w := w) (fun i hi => hf i (by omega))
    rw [List.range_succ, List.map_append, List.flatten_append]
    by_cases h : c < w * n
    · rw [List.getD_append _ _ _ _ (by rw [hl]; exact h)]
      exact ih (fun i hi => hf i (by omega)) h
    · rw [List.getD_append_right _ _ _ _ (by rw [hl]; omega), hl]
      have hd : c / w = n := by
        apply Nat.div_eq_of_lt_le
        · rw [Nat.mul_comm]; omega
        · rw [Nat.mul_comm]; exact hc
      have hm : c % w = c - w * n := by
        have := Nat.div_add_mod c w
        rw [hd] at this; omega
      rw [hd, hm]; simp

theorem length_chunk {α : Type} {l : List α} {w n i : Nat} (h : l.length = w * n) (hi : i < n) :
    ((l.drop (w * i)).take w).length = w := by
  have : w * (i + 1) ≤ w * n := Nat.mul_le_mul_left w hi
  rw [Nat.mul_succ] at this
  simp only [List.length_take, List.length_drop, h]; omega

theorem chunks_eq {α : Type} {l : List α} {w n : Nat} (hw : 0 < w) (h : l.length = w * n) :
    chunks w l = (List.range n).map fun i => (l.drop (w * i)).take w := by
  have : (l.length + w - 1) / w = n := by
    rw [h]
    apply Nat.div_eq_of_lt_le
    · rw [Nat.mul_comm]; omega
    · rw [Nat.succ_mul, Nat.mul_comm]; omega
  rw [chunks, this]

theorem getD_reversed {l : Line} {n c : Nat} (h : l.length = 24 * n) (hc : c < 24 * n) :
    ((chunks 24 l).map List.reverse).flatten.getD c ' ' = l.getD (24 * (c / 24) + (23 - c % 24)) ' ' := by
  rw [chunks_eq (by omega) h, List.map_map]
  have hlen : ∀ i, i < n → ((List.reverse ∘ fun i => (l.drop (24 * i)).take 24) i).length = 24 := by
    intro i hi
    simp only [Function.comp, List.length_reverse]
    exact length_chunk h hi
  rw [getD_blocks hlen hc]
  have hi : c / 24 < n := Nat.div_lt_of_lt_mul hc
  have hl := length_chunk h hi
  simp only [Function.comp]
  rw [← getD_drop_take l (24 * (c / 24)) 24 _ ' ' (by omega)]
  generalize hx : (l.drop (24 * (c / 24))).take 24 = x at hl
  rw [List.getD_eq_getElem?_getD, List.getD_eq_getElem?_getD, List.getElem?_reverse (by omega), hl]

theorem length_reversed {l : Line} {n : Nat} (h : l.length = 24 * n) :
    ((chunks 24 l).map List.reverse).flatten.length = 24 * n := by
  rw [chunks_eq (by omega) h, List.map_map]
  apply length_blocks
  intro i hi
  simp only [Function.comp, List.length_reverse]
  exact length_chunk h hi

/-! ### One signal -/

theorem getD_blank (n c : Nat) : (blank n).getD c ' ' = ' ' := by
  simp only [blank, List.getD_eq_getElem?_getD, List.getElem?_replicate]
  split <;> rfl

theorem getD_append_blank (l : Line) (n c : Nat) : (l ++ blank n).getD c ' ' = l.getD c ' ' := by
  by_cases h : c < l.length
  · rw [List.getD_append _ _ _ _ h]
  · rw [List.getD_append_right _ _ _ _ (by omega), getD_blank, List.getD_eq_default _ _ (by omega)]

theorem getD_arrow (a b c : Nat) (x y : Char) :
    (blank a ++ (x :: List.replicate b '-' ++ [y])).getD c ' ' =
      if c < a then ' ' else if c = a then x else if c < a + 1 + b then '-'
      else if c = a + 1 + b then y else ' ' := by
  by_cases h : c < a
  · rw [List.getD_append _ _ _ _ (by simpa [blank] using h), getD_blank, if_pos h]
  · rw [List.getD_append_right _ _ _ _ (by simp [blank]; omega), if_neg h]
    have hl : (blank a).length = a := by simp [blank]
    rw [hl]
    obtain ⟨d, rfl⟩ : ∃ d, c = a + d := ⟨c - a, by omega⟩
    rw [Nat.add_sub_cancel_left]
    cases d with
    | zero => simp
    | succ d =>
      rw [if_neg (by omega), List.cons_append, List.getD_cons_succ]
      by_cases h2 : d < b
      · rw [List.getD_append _ _ _ _ (by simpa using h2), if_pos (by omega)]
        simp [List.getD_eq_getElem?_getD, h2]
      · rw [List.getD_append_right _ _ _ _ (by simp; omega), if_neg (by omega)]
        simp only [List.length_replicate]
        by_cases h3 : d = b
        · subst h3; simp; omega
        · rw [if_neg (by omega), List.getD_eq_default _ _ (by simp; omega)]

/-- The line of a signal. -/
def formatSignal (s : Signal) : Line :=
  match s.byteOrder with
  | .big => formatBig s
  | .little => formatLittle s

/-- The character of a signal in one of the three columns of a bit it occupies. -/
def mark (s : Signal) (p i : Nat) : Char :=
  if i = 0 ∧ bitPos s (s.length - 1) = p then '<'
  else if i = 2 ∧ bitPos s 0 = p then 'x' else '-'

/-- The number of bytes up to the end of a signal. -/
def bytesOf (s : Signal) : Nat := (startBit s + s.length + 7) / 8

theorem length_format {s : Signal} (h : 0 < s.length) :
    24 * bytesOf s < (formatSignal s).length + 24 ∧ (formatSignal s).length ≤ 24 * bytesOf s := by
  unfold formatSignal bytesOf
  cases hb : s.byteOrder with
  | big =>
    simp only [formatBig, blank, List.length_append, List.length_cons, List.length_replicate,
      List.length_nil]
    omega
  | little =>
    rw [startBit_little hb]
    simp only [formatLittle]
    rw [length_reversed (n := (s.start + s.length + 7) / 8)]
    · omega
    · split <;> simp only [blank, List.length_append, List.length_cons, List.length_replicate,
        List.length_nil] <;> omega

theorem glyph_big {s : Signal} (hb : s.byteOrder = .big) (h : 0 < s.length) {p i : Nat} (hi : i < 3) :
    (Occupies s p → (formatSignal s).getD (3 * net p + i) ' ' = mark s p i) ∧
    (¬ Occupies s p → (formatSignal s).getD (3 * net p + i) ' ' = ' ') := by
  have hm : bitPos s (s.length - 1) = p ↔ net p = startBit s := by
    constructor
    · rintro rfl; rw [bitPos_big hb (by omega)]; omega
    · intro hp; apply net_inj; rw [bitPos_big hb (by omega)]; omega
  have hl : bitPos s 0 = p ↔ net p = startBit s + (s.length - 1) := by
    constructor
    · rintro rfl; rw [bitPos_big hb (by omega)]; omega
    · intro hp; apply net_inj; rw [bitPos_big hb (by omega)]; omega
  rw [occupies_big hb]
  simp only [formatSignal, hb, formatBig, getD_arrow, mark, hm, hl]
  constructor
  · rintro ⟨h1, h2⟩
    rw [if_neg (by omega)]
    split
    · rw [if_pos (by omega)]
    · rw [if_neg (c := i = 0 ∧ _) (by omega)]
      split
      · rw [if_neg (by omega)]
      · rw [if_pos (by omega), if_pos (by omega)]
  · intro hn
    repeat' split
    all_goals first | rfl | (exfalso; omega)

theorem glyph_little {s : Signal} (hb : s.byteOrder = .little) (h : 0 < s.length) {p i : Nat}
    (hi : i < 3) :
    (Occupies s p → (formatSignal s).getD (3 * net p + i) ' ' = mark s p i) ∧
    (¬ Occupies s p → (formatSignal s).getD (3 * net p + i) ' ' = ' ') := by
  have hm : bitPos s (s.length - 1) = p ↔ p + 1 = s.start + s.length := by
    rw [bitPos_little hb]; omega
  have hl : bitPos s 0 = p ↔ p = s.start := by rw [bitPos_little hb]; omega
  rw [occupies_little hb]
  have key : (formatSignal s).getD (3 * net p + i) ' ' =
      (blank (3 * s.start) ++ ('x' :: List.replicate (3 * s.length - 2) '-' ++ ['<'])).getD
        (3 * p + (2 - i)) ' ' := by
    simp only [formatSignal, hb, formatLittle]
    have hlen : (if (s.start + s.length) % 8 ≠ 0 then
        (blank (3 * s.start) ++ ('x' :: List.replicate (3 * s.length - 2) '-' ++ ['<'])) ++
          blank (3 * (8 - (s.start + s.length) % 8))
      else blank (3 * s.start) ++ ('x' :: List.replicate (3 * s.length - 2) '-' ++ ['<'])).length =
        24 * ((s.start + s.length + 7) / 8) := by
      split <;> simp only [blank, List.length_append, List.length_cons, List.length_replicate,
        List.length_nil] <;> omega
    have hget : ∀ c, (if (s.start + s.length) % 8 ≠ 0 then
        (blank (3 * s.start) ++ ('x' :: List.replicate (3 * s.length - 2) '-' ++ ['<'])) ++
          blank (3 * (8 - (s.start + s.length) % 8))
      else blank (3 * s.start) ++ ('x' :: List.replicate (3 * s.length - 2) '-' ++ ['<'])).getD c ' ' =
        (blank (3 * s.start) ++ ('x' :: List.replicate (3 * s.length - 2) '-' ++ ['<'])).getD c ' ' := by
      intro c
      split
      · exact getD_append_blank _ _ _
      · rfl
    by_cases hc : 3 * net p + i < 24 * ((s.start + s.length + 7) / 8)
    · rw [getD_reversed hlen hc, hget]
      congr 1
      unfold net; omega
    · rw [List.getD_eq_default _ _ (by rw [length_reversed hlen]; omega), List.getD_eq_default]
      simp only [blank, List.length_append, List.length_cons, List.length_replicate,
        List.length_nil]
      unfold net at hc; omega
  rw [key, getD_arrow]
  simp only [mark, hm, hl]
  constructor
  · rintro ⟨h1, h2⟩
    rw [if_neg (by omega)]
    split
    · rw [if_neg (by omega), if_pos (by omega)]
    · split
      · rw [if_neg (by omega), if_neg (by omega)]
      · rw [if_pos (by omega), if_pos (by omega)]
  · intro hn
    repeat' split
    all_goals first | rfl | (exfalso; omega)

theorem glyph {s : Signal} (h : 0 < s.length) {p i : Nat} (hi : i < 3) :
    (Occupies s p → (formatSignal s).getD (3 * net p + i) ' ' = mark s p i) ∧
    (¬ Occupies s p → (formatSignal s).getD (3 * net p + i) ' ' = ' ') := by
  cases hb : s.byteOrder with
  | big => exact glyph_big hb h hi
  | little => exact glyph_little hb h hi

end Cantools.Dump
