import Verif.Model.EndToEnd
import Verif.Spec.EndToEnd
import Verif.Lemmas.Bits

namespace Cantools

/-- The register with only the top bit set, or 0. -/
def topBit (w : Nat) (b : Bool) : BitVec w := if b then BitVec.twoPow w (w - 1) else 0#w

/-- Feeding the register bit by bit. -/
def feed {w : Nat} (poly : BitVec w) : BitVec w → List Bool → BitVec w
  | r, [] => r
  | r, b :: bs => feed poly (crcShift poly (r ^^^ topBit w b)) bs

theorem topBit_msb {w : Nat} (hw : 0 < w) (b : Bool) : (topBit w b).msb = b := by
  unfold topBit
  cases b
  · simp
  · simp [BitVec.msb_eq_getLsbD_last]; omega

theorem topBit_shift {w : Nat} (b : Bool) : topBit w b <<< 1 = 0#w := by
  unfold topBit
  cases b
  · simp
  · apply BitVec.eq_of_getLsbD_eq
    intro i hi
    simp only [if_true, BitVec.getLsbD_shiftLeft, BitVec.getLsbD_twoPow, BitVec.getLsbD_zero, hi]
    by_cases h : i < 1
    · simp [h]
    · simp; omega

theorem topBit_xor {w : Nat} (a b : Bool) : topBit w a ^^^ topBit w b = topBit w (a ^^ b) := by
  unfold topBit
  cases a <;> cases b <;> simp

theorem crcShift_xor {w : Nat} (poly a b : BitVec w) :
    crcShift poly (a ^^^ b) = crcShift poly a ^^^ crcShift poly b := by
  unfold crcShift
  rw [BitVec.shiftLeft_xor_distrib, BitVec.msb_xor]
  apply BitVec.eq_of_getLsbD_eq
  intro i hi
  cases a.msb <;> cases b.msb <;>
    simp only [Bool.xor_false, Bool.false_xor, Bool.xor_self, BitVec.getLsbD_xor, if_true, Bool.false_eq_true, if_false,
      BitVec.getLsbD_zero] <;>
    cases (a <<< 1).getLsbD i <;> cases (b <<< 1).getLsbD i <;> cases poly.getLsbD i <;> rfl

theorem crcShift_split {w : Nat} (hw : 0 < w) (poly r x : BitVec w) :
    crcShift poly (r ^^^ x) = crcShift poly (r ^^^ topBit w x.msb) ^^^ (x <<< 1) := by
  unfold crcShift
  rw [BitVec.shiftLeft_xor_distrib, BitVec.shiftLeft_xor_distrib, topBit_shift, BitVec.msb_xor, BitVec.msb_xor,
    topBit_msb hw]
  rw [BitVec.xor_zero]
  rw [BitVec.xor_assoc, BitVec.xor_assoc, BitVec.xor_comm (x <<< 1)]

theorem natBits_succ (k v : Nat) : natBits (k + 1) v = v.testBit k :: natBits k v := by
  apply List.ext_getElem
  · simp
  · intro i h1 h2
    rw [natBits_getElem]
    cases i with
    | zero => simp
    | succ i =>
      rw [List.getElem_cons_succ, natBits_getElem]
      congr 1; simp at h1; omega

theorem crcShifts_eq_feed {w : Nat} (poly : BitVec w) (k : Nat) (hk : k ≤ w) (r : BitVec w) (v : Nat) :
    crcShifts poly k (r ^^^ (BitVec.ofNat w v <<< (w - k))) = feed poly r (natBits k v) := by
  induction k generalizing r with
  | zero =>
    simp only [crcShifts, Nat.sub_zero, natBits, List.range_zero, List.map_nil, feed]
    rw [BitVec.shiftLeft_eq_zero (by omega)]; simp
  | succ k ih =>
    rw [crcShifts, natBits_succ, feed, crcShift_split (by omega)]
    have h1 : (BitVec.ofNat w v <<< (w - (k + 1))) <<< 1 = BitVec.ofNat w v <<< (w - k) := by
      rw [← BitVec.shiftLeft_add]; congr 1; omega
    have h2 : (BitVec.ofNat w v <<< (w - (k + 1))).msb = v.testBit k := by
      rw [BitVec.msb_eq_getLsbD_last, BitVec.getLsbD_shiftLeft, BitVec.getLsbD_ofNat]
      have h3 : w - 1 < w := by omega
      have h4 : ¬ w - 1 < w - (k + 1) := by omega
      have h5 : w - 1 - (w - (k + 1)) = k := by omega
      have h6 : k < w := by omega
      simp [h3, h4, h5, h6]
    rw [h1, h2, ih (by omega)]

theorem feed_append {w : Nat} (poly r : BitVec w) (a b : List Bool) :
    feed poly r (a ++ b) = feed poly (feed poly r a) b := by
  induction a generalizing r with
  | nil => rfl
  | cons x a ih => simp only [List.cons_append, feed, ih]

theorem crcProcess_eq_feed {w : Nat} (hw : 8 ≤ w) (poly r : BitVec w) (data : Bytes) :
    crcProcess poly r data = feed poly r (bytesToBits data) := by
  induction data generalizing r with
  | nil => rfl
  | cons b data ih =>
    have e : bytesToBits (b :: data) = natBits 8 b.toNat ++ bytesToBits data := by simp [bytesToBits]
    rw [e, feed_append, ← crcShifts_eq_feed poly 8 hw, ← ih]
    rfl

theorem feed_xor {w : Nat} (poly r1 r2 : BitVec w) (a b : List Bool) (h : a.length = b.length) :
    feed poly r1 a ^^^ feed poly r2 b = feed poly (r1 ^^^ r2) (List.zipWith (· ^^ ·) a b) := by
  induction a generalizing r1 r2 b with
  | nil =>
    cases b with
    | nil => rfl
    | cons y b => cases h
  | cons x a ih =>
    cases b with
    | nil => cases h
    | cons y b =>
      simp only [feed, List.zipWith_cons_cons]
      rw [ih _ _ b (by simpa using h), ← crcShift_xor, ← topBit_xor]
      congr 2
      rw [BitVec.xor_assoc, BitVec.xor_assoc, ← BitVec.xor_assoc (topBit w x) r2, BitVec.xor_comm (topBit w x) r2,
        BitVec.xor_assoc]

theorem crcShift_eq_zero_msb {w : Nat} (hw : 0 < w) {poly x : BitVec w} (hp : poly.getLsbD 0 = true)
    (h : (crcShift poly x).getLsbD 0 = false) : x.msb = false ∧ crcShift poly x = x <<< 1 := by
  unfold crcShift at h ⊢
  cases hm : x.msb
  · simp
  · rw [hm] at h
    simp [hp] at h

/-- Running the register backwards from zero shows the bits fed into it. -/
theorem feed_eq_zero {w : Nat} {poly : BitVec w} (hp : poly.getLsbD 0 = true) (bs : List Bool)
    (hl : bs.length ≤ w) (r : BitVec w) (h : feed poly r bs = 0#w) (i : Nat) (hi : i < w) :
    r.getMsbD i = bs.getD i false := by
  induction bs generalizing r i with
  | nil =>
    simp only [feed] at h
    subst h
    simp
  | cons b bs ih =>
    simp only [List.length_cons] at hl
    have hw : 0 < w := by omega
    have ih' := fun i hi => ih (by omega) (crcShift poly (r ^^^ topBit w b)) h i hi
    have hlast := ih' (w - 1) (by omega)
    rw [List.getD_eq_getElem?_getD, List.getElem?_eq_none (by omega), BitVec.getMsbD] at hlast
    have e0 : w - 1 - (w - 1) = 0 := by omega
    simp only [e0, Option.getD_none, show w - 1 < w by omega, decide_true, Bool.true_and] at hlast
    obtain ⟨h1, h2⟩ := crcShift_eq_zero_msb hw hp hlast
    rw [BitVec.msb_xor, topBit_msb hw] at h1
    cases i with
    | zero =>
      have : r.getMsbD 0 = r.msb := rfl
      rw [this]
      cases hr : r.msb <;> cases b <;> simp_all
    | succ i =>
      have h3 := ih' i (by omega)
      rw [h2, BitVec.shiftLeft_xor_distrib, topBit_shift, BitVec.xor_zero] at h3
      rw [List.getD_cons_succ, ← h3]
      rw [BitVec.getMsbD_shiftLeft]

theorem feed_zeros {w : Nat} (poly : BitVec w) (bs : List Bool) (h : ∀ b ∈ bs, b = false) : feed poly 0#w bs = 0#w := by
  induction bs with
  | nil => rfl
  | cons b bs ih =>
    have hb : b = false := h b (by simp)
    subst hb
    have : crcShift poly (0#w ^^^ topBit w false) = 0#w := by simp [topBit, crcShift]
    rw [feed, this]
    exact ih fun b hb => h b (by simp [hb])

theorem feed_zeros_inj {w : Nat} {poly : BitVec w} (hp : poly.getLsbD 0 = true) (hw : 0 < w) (bs : List Bool)
    (hz : ∀ b ∈ bs, b = false) (r : BitVec w) (h : feed poly r bs = 0#w) : r = 0#w := by
  induction bs generalizing r with
  | nil => exact h
  | cons b bs ih =>
    have hb : b = false := hz b (by simp)
    subst hb
    have h1 := ih (fun b hb => hz b (by simp [hb])) _ h
    have h2 := feed_eq_zero hp [false] (by simp; omega) r (by simpa [feed] using h1)
    apply BitVec.eq_of_getMsbD_eq
    intro i hi
    rw [h2 i hi]
    cases i <;> simp

/-- A non-zero burst that fits in the register does not leave it zero. -/
theorem feed_burst {w : Nat} {poly : BitVec w} (hp : poly.getLsbD 0 = true) (hw : 0 < w) (e : List Bool) (s : Nat)
    (hs : ∀ i, e.getD i false = true → s ≤ i ∧ i < s + w) (h : feed poly 0#w e = 0#w) : ∀ i, e.getD i false = false := by
  have hsplit : e = e.take s ++ ((e.drop s).take w ++ e.drop (s + w)) := by
    rw [← List.drop_drop, List.take_append_drop, List.take_append_drop]
  have hmem : ∀ (l : List Bool), (∀ i, l.getD i false = false) → ∀ b ∈ l, b = false := by
    intro l hl b hb
    obtain ⟨i, hi, rfl⟩ := List.getElem_of_mem hb
    have := hl i
    rwa [List.getD_eq_getElem?_getD, List.getElem?_eq_getElem hi] at this
  have hpre : ∀ b ∈ e.take s, b = false := by
    apply hmem
    intro i
    by_contra hc
    rw [Bool.not_eq_false, List.getD_eq_getElem?_getD] at hc
    by_cases hi : i < s
    · rw [List.getElem?_take_of_lt hi] at hc
      have := hs i (by rw [List.getD_eq_getElem?_getD]; exact hc)
      omega
    · rw [List.getElem?_take_eq_none (by omega)] at hc; cases hc
  have hpost : ∀ b ∈ e.drop (s + w), b = false := by
    apply hmem
    intro i
    by_contra hc
    rw [Bool.not_eq_false, List.getD_eq_getElem?_getD, List.getElem?_drop] at hc
    have := hs (s + w + i) (by rw [List.getD_eq_getElem?_getD]; exact hc)
    omega
  rw [hsplit, feed_append, feed_zeros _ _ hpre, feed_append] at h
  have h1 := feed_zeros_inj hp hw _ hpost _ h
  have h2 := feed_eq_zero hp _ (by simp; omega) _ h1
  intro i
  by_contra hc
  rw [Bool.not_eq_false] at hc
  obtain ⟨h3, h4⟩ := hs i hc
  have := h2 (i - s) (by omega)
  rw [List.getD_eq_getElem?_getD, List.getElem?_take_of_lt (by omega), List.getElem?_drop,
    show s + (i - s) = i by omega, ← List.getD_eq_getElem?_getD, hc] at this
  simp at this

open Spec

theorem bytes_eq_of_wireBit {p q : Bytes} (hl : p.length = q.length) (h : ∀ i, wireBit p i = wireBit q i) : p = q := by
  apply List.ext_getElem hl
  intro i h1 h2
  apply UInt8.toNat_inj.1
  apply Nat.eq_of_testBit_eq
  intro k
  by_cases hk : k < 8
  · have := h (8 * i + (7 - k))
    unfold wireBit at this
    rw [show (8 * i + (7 - k)) / 8 = i by omega, show 7 - (8 * i + (7 - k)) % 8 = k by omega] at this
    simpa [List.getD_eq_getElem?_getD, h1, h2] using this
  · have hb : ∀ x : UInt8, x.toNat.testBit k = false := by
      intro x
      apply Nat.testBit_lt_two_pow
      have := x.toNat_lt
      exact Nat.lt_of_lt_of_le this (Nat.pow_le_pow_right (by decide) (by omega : 8 ≤ k))
    rw [hb, hb]

/-- A burst error changes the register. -/
theorem crcProcess_burst {w : Nat} (hw : 8 ≤ w) {poly : BitVec w} (hp : poly.getLsbD 0 = true) (r : BitVec w)
    {p q : Bytes} (h : Burst w p q) : crcProcess poly r p ≠ crcProcess poly r q := by
  obtain ⟨hl, hne, s, hs⟩ := h
  intro he
  apply hne
  apply bytes_eq_of_wireBit hl
  have hbl : (bytesToBits p).length = (bytesToBits q).length := by rw [bytesToBits_length, bytesToBits_length, hl]
  have hx := feed_xor poly r r (bytesToBits p) (bytesToBits q) hbl
  rw [← crcProcess_eq_feed hw, ← crcProcess_eq_feed hw, he, BitVec.xor_self, BitVec.xor_self] at hx
  have hg : ∀ i, (List.zipWith (· ^^ ·) (bytesToBits p) (bytesToBits q)).getD i false = (wireBit p i ^^ wireBit q i) := by
    intro i
    have e1 : wireBit p i = (bytesToBits p).getD i false := (bytesToBits_getD p i).symm
    have e2 : wireBit q i = (bytesToBits q).getD i false := (bytesToBits_getD q i).symm
    rw [e1, e2, List.getD_eq_getElem?_getD, List.getElem?_zipWith, List.getD_eq_getElem?_getD, List.getD_eq_getElem?_getD]
    by_cases hi : i < (bytesToBits p).length
    · rw [List.getElem?_eq_getElem hi, List.getElem?_eq_getElem (hbl ▸ hi)]; simp
    · rw [List.getElem?_eq_none (by omega), List.getElem?_eq_none (by omega)]; simp
  have hz := feed_burst hp (by omega) _ s (by
    intro i hi
    rw [hg] at hi
    apply hs i
    intro hc
    rw [hc] at hi
    simp at hi) hx.symm
  intro i
  have := hz i
  rw [hg] at this
  cases h1 : wireBit p i <;> cases h2 : wireBit q i <;> simp_all

/-- The protected part of a payload after a burst error that hits only that part, with something
appended. -/
theorem burst_part {n lo hi : Nat} {p q : Bytes} (h : Burst n p q) (ho : SameOutside lo hi p q) (t : Bytes) :
    Burst n ((p.take hi).drop lo ++ t) ((q.take hi).drop lo ++ t) := by
  obtain ⟨hl, hne, s, hs⟩ := h
  have hll : ((p.take hi).drop lo).length = ((q.take hi).drop lo).length := by simp [hl]
  have hget : ∀ (x : Bytes) i, i < ((x.take hi).drop lo).length → ((x.take hi).drop lo ++ t)[i]? = x[lo + i]? := by
    intro x i hx
    rw [List.getElem?_append_left hx, List.getElem?_drop, List.getElem?_take_of_lt]
    simp at hx; omega
  refine ⟨by simp [hl], ?_, s - 8 * lo, ?_⟩
  · intro he
    apply hne
    apply List.ext_getElem?
    intro i
    by_cases hi' : i < lo ∨ hi ≤ i
    · exact ho i hi'
    · by_cases hlen : i < p.length
      · have h1 : i - lo < ((p.take hi).drop lo).length := by simp; omega
        have := congrArg (fun l : Bytes => l[i - lo]?) he
        beta_reduce at this
        rw [hget p _ h1, hget q _ (hll ▸ h1), show lo + (i - lo) = i by omega] at this
        exact this
      · rw [List.getElem?_eq_none (by omega), List.getElem?_eq_none (by omega)]
  · intro i hi'
    have hlt : i / 8 < ((p.take hi).drop lo).length := by
      by_contra hc
      apply hi'
      unfold wireBit
      rw [List.getD_eq_getElem?_getD, List.getD_eq_getElem?_getD, List.getElem?_append_right (by omega),
        List.getElem?_append_right (by omega), hll]
    have hw : ∀ x : Bytes, i / 8 < ((x.take hi).drop lo).length →
        wireBit ((x.take hi).drop lo ++ t) i = wireBit x (8 * lo + i) := by
      intro x hx
      unfold wireBit
      rw [List.getD_eq_getElem?_getD, List.getD_eq_getElem?_getD, hget x _ hx,
        show (8 * lo + i) / 8 = lo + i / 8 by omega, show (8 * lo + i) % 8 = i % 8 by omega]
    rw [hw p hlt, hw q (hll ▸ hlt)] at hi'
    have := hs _ hi'
    omega

end Cantools
