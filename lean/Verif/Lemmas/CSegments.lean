import Verif.Model.CSource
import Verif.Lemmas.Layout
import Verif.Lemmas.Values

namespace Cantools.C
open Cantools Spec

/-! ### Masks -/

theorem mask_testBit (a b k : Nat) :
    ((2 ^ a - 1) * 2 ^ b).testBit k = true ↔ b ≤ k ∧ k < a + b := by
  rw [Nat.testBit_mul_two_pow, Nat.testBit_two_pow_sub_one]
  simp only [Bool.and_eq_true, decide_eq_true_eq]
  omega

/-- How bit `k` of the byte and bit `j` of the value correspond. -/
def ShiftRel (invert : Bool) (seg : Segment) (j k : Nat) : Prop :=
  if seg.left = invert then j = k + seg.shift else j + seg.shift = k

theorem shiftRel_mk {invert : Bool} {index mask : Nat} {shift : Int} {j k : Nat}
    (h : (j : Int) = k - shift) : ShiftRel invert (mkSegment invert index shift mask) j k := by
  unfold ShiftRel mkSegment
  cases invert <;> by_cases hs : shift < 0 <;> simp [hs] <;> omega

/-- What a list of segments does for a set of bits of the signal. -/
structure SegsOk (s : Signal) (invert : Bool) (bits : Nat → Prop) (l : List Segment) : Prop where
  sound : ∀ seg ∈ l, ∀ k, seg.mask.testBit k = true → k < 8 ∧
    ∃ j, j < s.length ∧ bitPos s j = 8 * seg.index + k ∧ ShiftRel invert seg j k
  nonempty : ∀ seg ∈ l, ∃ k, seg.mask.testBit k = true
  complete : ∀ j, bits j → ∃ seg ∈ l, seg.index = bitPos s j / 8 ∧
    seg.mask.testBit (bitPos s j % 8) = true

theorem bitPos_of_net {s : Signal} (hb : s.byteOrder = .big) {j p : Nat} (hj : j < s.length)
    (h : net p = startBit s + (s.length - 1 - j)) : bitPos s j = p := by
  apply net_inj
  rw [bitPos_big hb hj, h]

theorem segLoop_big {s : Signal} {invert : Bool} (hb : s.byteOrder = .big) :
    ∀ (fuel index pos left : Nat), left ≤ fuel → left ≤ s.length → pos < 8 →
      (0 < left → 8 * index + (7 - pos) = startBit s + (s.length - left)) →
      SegsOk s invert (fun j => j < left) (segLoop s invert fuel index pos left) := by
  intro fuel
  induction fuel with
  | zero =>
    intro index pos left h _ _ _
    exact ⟨by simp [segLoop], by simp [segLoop], fun j hj => by omega⟩
  | succ fuel ih =>
    intro index pos left hf hl hpos hinv
    unfold segLoop
    split
    · rename_i h0
      exact ⟨by simp, by simp, fun j hj => by omega⟩
    · rename_i h0
      have hinv := hinv (by omega)
      by_cases hge : pos + 1 ≤ left
      · have hstep : segStep s pos left =
            (pos + 1, 7, -((left : Int) - (pos + 1)), 2 ^ (pos + 1) - 1) := by
          unfold segStep; rw [hb]; simp only; rw [if_pos hge]
        simp only [hstep]
        have hrec := ih (index + 1) 7 (left - (pos + 1)) (by omega) (by omega) (by omega)
          (by intro h; omega)
        have hm : ∀ k, (2 ^ (pos + 1) - 1).testBit k = true ↔ k < pos + 1 := by
          intro k; rw [Nat.testBit_two_pow_sub_one]; simp
        refine ⟨?_, ?_, ?_⟩
        · intro seg hseg k hk
          rcases List.mem_cons.1 hseg with rfl | hseg
          · have hk' : k < pos + 1 := (hm k).1 hk
            refine ⟨by omega, left - 1 - (pos - k), by omega, ?_, ?_⟩
            · apply bitPos_of_net hb (by omega)
              simp only [mkSegment, net]
              omega
            · apply shiftRel_mk; omega
          · exact hrec.sound seg hseg k hk
        · intro seg hseg
          rcases List.mem_cons.1 hseg with rfl | hseg
          · exact ⟨0, (hm 0).2 (by omega)⟩
          · exact hrec.nonempty seg hseg
        · intro j hj
          by_cases hj' : j < left - (pos + 1)
          · obtain ⟨seg, h1, h2⟩ := hrec.complete j hj'
            exact ⟨seg, List.mem_cons_of_mem _ h1, h2⟩
          · refine ⟨_, List.mem_cons_self, ?_⟩
            have : bitPos s j = 8 * index + (pos - (left - 1 - j)) := by
              apply bitPos_of_net hb (by omega)
              simp only [net]
              omega
            rw [this]
            refine ⟨by simp only [mkSegment]; omega, (hm _).2 (by omega)⟩
      · have hstep : segStep s pos left =
            (left, pos, (pos : Int) - left + 1, (2 ^ left - 1) * 2 ^ (pos + 1 - left)) := by
          unfold segStep; rw [hb]; simp only; rw [if_neg hge]
        simp only [hstep]
        have hrec := ih (index + 1) pos (left - left) (by omega) (by omega) (by omega)
          (by intro h; omega)
        refine ⟨?_, ?_, ?_⟩
        · intro seg hseg k hk
          rcases List.mem_cons.1 hseg with rfl | hseg
          · have hk' := (mask_testBit _ _ k).1 hk
            refine ⟨by omega, k - (pos + 1 - left), by omega, ?_, ?_⟩
            · apply bitPos_of_net hb (by omega)
              simp only [mkSegment, net]
              omega
            · apply shiftRel_mk; omega
          · exact hrec.sound seg hseg k hk
        · intro seg hseg
          rcases List.mem_cons.1 hseg with rfl | hseg
          · exact ⟨pos, (mask_testBit _ _ _).2 (by omega)⟩
          · exact hrec.nonempty seg hseg
        · intro j hj
          refine ⟨_, List.mem_cons_self, ?_⟩
          have : bitPos s j = 8 * index + (pos + 1 - left + j) := by
            apply bitPos_of_net hb (by omega)
            simp only [net]
            omega
          rw [this]
          refine ⟨by simp only [mkSegment]; omega, (mask_testBit _ _ _).2 (by omega)⟩

theorem segLoop_little {s : Signal} {invert : Bool} (hb : s.byteOrder = .little) :
    ∀ (fuel index pos left : Nat), left ≤ fuel → left ≤ s.length → pos < 8 →
      (0 < left → 8 * index + pos = s.start + (s.length - left)) →
      SegsOk s invert (fun j => s.length - left ≤ j ∧ j < s.length)
        (segLoop s invert fuel index pos left) := by
  intro fuel
  induction fuel with
  | zero =>
    intro index pos left h _ _ _
    exact ⟨by simp [segLoop], by simp [segLoop], fun j hj => by omega⟩
  | succ fuel ih =>
    intro index pos left hf hl hpos hinv
    unfold segLoop
    split
    · rename_i h0
      exact ⟨by simp, by simp, fun j hj => by omega⟩
    · rename_i h0
      have hinv := hinv (by omega)
      by_cases hge : 8 - pos ≤ left
      · have hstep : segStep s pos left = (8 - pos, 0, (left : Int) - s.length + pos,
            (2 ^ (8 - pos) - 1) * 2 ^ pos) := by
          unfold segStep; rw [hb]; simp only; rw [if_pos hge]
        simp only [hstep]
        have hrec := ih (index + 1) 0 (left - (8 - pos)) (by omega) (by omega) (by omega)
          (by intro h; omega)
        refine ⟨?_, ?_, ?_⟩
        · intro seg hseg k hk
          rcases List.mem_cons.1 hseg with rfl | hseg
          · have hk' := (mask_testBit _ _ k).1 hk
            refine ⟨by omega, s.length - left + (k - pos), by omega, ?_, ?_⟩
            · rw [bitPos_little hb]
              simp only [mkSegment]
              omega
            · apply shiftRel_mk; omega
          · exact hrec.sound seg hseg k hk
        · intro seg hseg
          rcases List.mem_cons.1 hseg with rfl | hseg
          · exact ⟨pos, (mask_testBit _ _ _).2 (by omega)⟩
          · exact hrec.nonempty seg hseg
        · intro j hj
          by_cases hj' : s.length - (left - (8 - pos)) ≤ j
          · obtain ⟨seg, h1, h2⟩ := hrec.complete j ⟨hj', hj.2⟩
            exact ⟨seg, List.mem_cons_of_mem _ h1, h2⟩
          · refine ⟨_, List.mem_cons_self, ?_⟩
            rw [bitPos_little hb]
            refine ⟨by simp only [mkSegment]; omega, (mask_testBit _ _ _).2 (by omega)⟩
      · have hstep : segStep s pos left = (left, pos, (left : Int) - s.length + pos,
            (2 ^ left - 1) * 2 ^ pos) := by
          unfold segStep; rw [hb]; simp only; rw [if_neg hge]
        simp only [hstep]
        have hrec := ih (index + 1) pos (left - left) (by omega) (by omega) (by omega)
          (by intro h; omega)
        refine ⟨?_, ?_, ?_⟩
        · intro seg hseg k hk
          rcases List.mem_cons.1 hseg with rfl | hseg
          · have hk' := (mask_testBit _ _ k).1 hk
            refine ⟨by omega, s.length - left + (k - pos), by omega, ?_, ?_⟩
            · rw [bitPos_little hb]
              simp only [mkSegment]
              omega
            · apply shiftRel_mk; omega
          · exact hrec.sound seg hseg k hk
        · intro seg hseg
          rcases List.mem_cons.1 hseg with rfl | hseg
          · exact ⟨pos, (mask_testBit _ _ _).2 (by omega)⟩
          · exact hrec.nonempty seg hseg
        · intro j hj
          refine ⟨_, List.mem_cons_self, ?_⟩
          rw [bitPos_little hb]
          refine ⟨by simp only [mkSegment]; omega, (mask_testBit _ _ _).2 (by omega)⟩

theorem segments_ok (s : Signal) (invert : Bool) :
    SegsOk s invert (fun j => j < s.length) (segments s invert) := by
  cases hb : s.byteOrder with
  | big =>
    exact segLoop_big hb _ _ _ _ (le_refl _) (le_refl _) (by omega)
      (by intro h; rw [startBit_big hb]; simp [net])
  | little =>
    have := segLoop_little (invert := invert) hb s.length (s.start / 8) (s.start % 8) s.length
      (le_refl _) (le_refl _) (by omega) (by intro h; omega)
    exact ⟨this.sound, this.nonempty, fun j hj => this.complete j ⟨by omega, hj⟩⟩

theorem SegsOk.shift_lt {s : Signal} {invert : Bool} {bits : Nat → Prop} {l : List Segment}
    (h : SegsOk s invert bits l) {seg : Segment} (hs : seg ∈ l) :
    if seg.left = invert then seg.shift < s.length else seg.shift < 8 := by
  obtain ⟨k, hk⟩ := h.nonempty seg hs
  obtain ⟨hk8, j, hj, _, hr⟩ := h.sound seg hs k hk
  unfold ShiftRel at hr
  split
  · rename_i he; rw [if_pos he] at hr; omega
  · rename_i he; rw [if_neg he] at hr; omega

theorem SegsOk.mask_lt {s : Signal} {invert : Bool} {bits : Nat → Prop} {l : List Segment}
    (h : SegsOk s invert bits l) {seg : Segment} (hs : seg ∈ l) : seg.mask < 256 := by
  apply Nat.lt_of_not_le
  intro hge
  have : seg.mask < 2 ^ 8 := by
    apply Nat.lt_pow_two_of_testBit
    intro i hi
    rw [← Bool.not_eq_true]
    intro hk
    have := (h.sound seg hs i hk).1
    omega
  omega

/-! ### Widths -/

theorem typeLength_cases (s : Signal) :
    typeLength s = 8 ∨ typeLength s = 16 ∨ typeLength s = 32 ∨ typeLength s = 64 := by
  unfold typeLength; split <;> [skip; split <;> [skip; split]] <;> simp

theorem length_le_typeLength {s : Signal} (h : s.length ≤ 64) : s.length ≤ typeLength s := by
  unfold typeLength; split <;> [skip; split <;> [skip; split]] <;> omega

/-! ### Helpers -/

theorem packHelper_ok {s : Signal} {bits : Nat → Prop} {l : List Segment} (h : SegsOk s false bits l)
    {seg : Segment} (hs : seg ∈ l) (hl : s.length ≤ 64) {v : Nat} (hv : v < 2 ^ typeLength s) :
    ∃ r, packHelper (typeLength s) v seg = .ok r ∧ r < 256 ∧ ∀ k, r.testBit k = true ↔
      seg.mask.testBit k = true ∧ ∃ j, ShiftRel false seg j k ∧ v.testBit j = true := by
  have hsh := h.shift_lt hs
  have hm := h.mask_lt hs
  have hlt := length_le_typeLength hl
  have hshift : seg.shift % 256 = seg.shift := by
    apply Nat.mod_eq_of_lt; split at hsh <;> omega
  have hmask : seg.mask % 256 = seg.mask := Nat.mod_eq_of_lt hm
  unfold packHelper
  rw [hshift, hmask]
  have h256 : (256 : Nat) = 2 ^ 8 := rfl
  have fin : ∀ r0 : Nat, (∀ k, k < 8 → (r0.testBit k = true ↔
      ∃ j, ShiftRel false seg j k ∧ v.testBit j = true)) →
      r0 % 256 &&& seg.mask < 256 ∧ ∀ k, (r0 % 256 &&& seg.mask).testBit k = true ↔
      seg.mask.testBit k = true ∧ ∃ j, ShiftRel false seg j k ∧ v.testBit j = true := by
    intro r0 h0
    refine ⟨lt_of_le_of_lt Nat.and_le_right hm, fun k => ?_⟩
    rw [Nat.testBit_and, h256, Nat.testBit_mod_two_pow]
    simp only [Bool.and_eq_true, decide_eq_true_eq]
    constructor
    · rintro ⟨⟨h1, h2⟩, h3⟩; exact ⟨h3, (h0 k h1).1 h2⟩
    · rintro ⟨h3, h4⟩
      have h1 := (h.sound seg hs k h3).1
      exact ⟨⟨h1, (h0 k h1).2 h4⟩, h3⟩
  cases hd : seg.left with
  | true =>
    rw [hd] at hsh
    simp only [Bool.true_eq_false, if_false] at hsh
    have hrel : ∀ j k, ShiftRel false seg j k ↔ j + seg.shift = k := by
      intro j k; simp [ShiftRel, hd]
    have hval : ∀ k, k < 8 → ∀ n, 8 ≤ n → ((v * 2 ^ seg.shift % 2 ^ n).testBit k = true ↔
        ∃ j, ShiftRel false seg j k ∧ v.testBit j = true) := by
      intro k hk n hn
      rw [Nat.testBit_mod_two_pow, Nat.testBit_mul_two_pow]
      simp only [Bool.and_eq_true, decide_eq_true_eq, hrel]
      constructor
      · rintro ⟨_, h1, h2⟩; exact ⟨_, by omega, h2⟩
      · rintro ⟨j, rfl, h2⟩; exact ⟨by omega, by omega, by simpa using h2⟩
    have hpow : 2 ^ seg.shift ≤ 2 ^ 7 := Nat.pow_le_pow_right (by omega) (by omega)
    simp only [if_true]
    unfold shl
    rw [if_neg (by omega)]
    by_cases hn : typeLength s < 32
    · have hv' : v * 2 ^ seg.shift < 2 ^ 31 := by
        have : 2 ^ typeLength s ≤ 2 ^ 16 :=
          Nat.pow_le_pow_right (by omega) (by rcases typeLength_cases s with h | h | h | h <;> omega)
        calc v * 2 ^ seg.shift ≤ 2 ^ 16 * 2 ^ 7 := Nat.mul_le_mul (by omega) hpow
          _ < 2 ^ 31 := by norm_num
      rw [if_pos hn, if_neg (by omega)]
      refine ⟨_, rfl, fin _ fun k hk => ?_⟩
      have := hval k hk 31 (by omega)
      rwa [Nat.mod_eq_of_lt hv'] at this
    · rw [if_neg hn]
      exact ⟨_, rfl, fin _ fun k hk => hval k hk _ (by omega)⟩
  | false =>
    rw [hd] at hsh
    simp only [if_true] at hsh
    simp only [Bool.false_eq_true, if_false]
    unfold shr
    rw [if_neg (by omega)]
    refine ⟨_, rfl, fin _ fun k hk => ?_⟩
    rw [Nat.testBit_div_two_pow]
    simp [ShiftRel, hd]

theorem unpackHelper_ok {s : Signal} {bits : Nat → Prop} {l : List Segment} (h : SegsOk s true bits l)
    {seg : Segment} (hs : seg ∈ l) (hl : s.length ≤ 64) (v : Nat) :
    ∃ r, unpackHelper (typeLength s) v seg = .ok r ∧ ∀ j, r.testBit j = true ↔
      ∃ k, ShiftRel true seg j k ∧ seg.mask.testBit k = true ∧ v.testBit k = true := by
  have hsh := h.shift_lt hs
  have hm := h.mask_lt hs
  have hlt := length_le_typeLength hl
  have hshift : seg.shift % 256 = seg.shift := by
    apply Nat.mod_eq_of_lt; split at hsh <;> omega
  have hmask : seg.mask % 256 = seg.mask := Nat.mod_eq_of_lt hm
  have h8 : 2 ^ 8 ≤ 2 ^ typeLength s :=
    Nat.pow_le_pow_right (by omega) (by rcases typeLength_cases s with h | h | h | h <;> omega)
  have hand : v &&& seg.mask < 256 := lt_of_le_of_lt Nat.and_le_right hm
  have hvm : (v &&& seg.mask) % 2 ^ typeLength s = v &&& seg.mask :=
    Nat.mod_eq_of_lt (by omega)
  unfold unpackHelper
  rw [hshift, hmask, hvm]
  have hbound : ∀ j k, ShiftRel true seg j k → seg.mask.testBit k = true → j < typeLength s := by
    intro j k hr hk
    obtain ⟨_, j', hj', _, hr'⟩ := h.sound seg hs k hk
    have : j = j' := by
      unfold ShiftRel at hr hr'
      split at hr
      · rename_i he; rw [if_pos he] at hr'; omega
      · rename_i he; rw [if_neg he] at hr'; omega
    omega
  have fin : ∀ r0 : Nat, (∀ j, j < typeLength s → (r0.testBit j = true ↔
      ∃ k, ShiftRel true seg j k ∧ (v &&& seg.mask).testBit k = true)) →
      ∀ j, (r0 % 2 ^ typeLength s).testBit j = true ↔
        ∃ k, ShiftRel true seg j k ∧ seg.mask.testBit k = true ∧ v.testBit k = true := by
    intro r0 h0 j
    rw [Nat.testBit_mod_two_pow]
    simp only [Bool.and_eq_true, decide_eq_true_eq]
    constructor
    · rintro ⟨h1, h2⟩
      obtain ⟨k, h3, h4⟩ := (h0 j h1).1 h2
      rw [Nat.testBit_and] at h4
      simp only [Bool.and_eq_true] at h4
      exact ⟨k, h3, h4.2, h4.1⟩
    · rintro ⟨k, h3, h4, h5⟩
      have h1 := hbound j k h3 h4
      refine ⟨h1, (h0 j h1).2 ⟨k, h3, ?_⟩⟩
      rw [Nat.testBit_and]; simp [h4, h5]
  cases hd : seg.left with
  | true =>
    rw [hd] at hsh
    simp only [if_true] at hsh
    have hrel : ∀ j k, ShiftRel true seg j k ↔ j = k + seg.shift := by
      intro j k; simp [ShiftRel, hd]
    have hval : ∀ j, ((v &&& seg.mask) * 2 ^ seg.shift).testBit j = true ↔
        ∃ k, ShiftRel true seg j k ∧ (v &&& seg.mask).testBit k = true := by
      intro j
      rw [Nat.testBit_mul_two_pow]
      simp only [Bool.and_eq_true, decide_eq_true_eq, hrel]
      constructor
      · rintro ⟨h1, h2⟩; exact ⟨_, by omega, h2⟩
      · rintro ⟨k, rfl, h2⟩; exact ⟨by omega, by simpa using h2⟩
    simp only [if_true]
    unfold shl
    rw [if_neg (by omega)]
    by_cases hn : typeLength s < 32
    · have hpow : 2 ^ seg.shift ≤ 2 ^ 15 := Nat.pow_le_pow_right (by omega)
        (by rcases typeLength_cases s with h | h | h | h <;> omega)
      have hv' : (v &&& seg.mask) * 2 ^ seg.shift < 2 ^ 31 := by
        calc (v &&& seg.mask) * 2 ^ seg.shift ≤ 2 ^ 8 * 2 ^ 15 := Nat.mul_le_mul (by omega) hpow
          _ < 2 ^ 31 := by norm_num
      rw [if_pos hn, if_neg (by omega)]
      exact ⟨_, rfl, fin _ fun j _ => hval j⟩
    · rw [if_neg hn]
      refine ⟨_, rfl, fin _ fun j hj => ?_⟩
      rw [Nat.testBit_mod_two_pow]
      simp only [hj, decide_true, Bool.true_and]
      exact hval j
  | false =>
    rw [hd] at hsh
    simp only [Bool.false_eq_true, if_false] at hsh
    simp only [Bool.false_eq_true, if_false]
    unfold shr
    rw [if_neg (by omega)]
    refine ⟨_, rfl, fin _ fun j _ => ?_⟩
    rw [Nat.testBit_div_two_pow]
    simp [ShiftRel, hd]

end Cantools.C
