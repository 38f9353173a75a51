import Verif.Model.Bitstruct
import Verif.Lemmas.Basic
import Mathlib.Data.List.Induction

namespace Cantools

@[simp] theorem natBits_length (n v : Nat) : (natBits n v).length = n := by simp [natBits]

theorem natBits_getElem (n v i : Nat) (h : i < (natBits n v).length) :
    (natBits n v)[i] = v.testBit (n - 1 - i) := by simp [natBits]

theorem testBit_two_mul_add (a : Nat) (b : Bool) (p : Nat) :
    (2 * a + b.toNat).testBit p = if p = 0 then b else a.testBit (p - 1) := by
  cases p with
  | zero => cases b <;> simp [Nat.testBit_zero]
  | succ p =>
    have : (2 * a + b.toNat) / 2 = a := by cases b <;> (simp; try omega)
    simp [Nat.testBit_succ, this]

theorem natOfBits_append (l m : List Bool) :
    natOfBits (l ++ m) = natOfBits l * 2 ^ m.length + natOfBits m := by
  unfold natOfBits
  rw [List.foldl_append]
  generalize List.foldl (fun acc b => 2 * acc + b.toNat) 0 l = a
  induction m generalizing a with
  | nil => simp
  | cons b r ih =>
    simp only [List.foldl_cons, List.length_cons]
    rw [ih (2 * a + b.toNat), ih (2 * 0 + b.toNat)]
    rw [Nat.pow_succ, Nat.add_mul]
    have : 2 * a * 2 ^ r.length = a * (2 ^ r.length * 2) := by
      rw [Nat.mul_comm (2 ^ r.length) 2, ← Nat.mul_assoc, Nat.mul_comm a 2]
    simp only [Nat.mul_zero, Nat.zero_add]
    omega

theorem natOfBits_snoc (l : List Bool) (b : Bool) :
    natOfBits (l ++ [b]) = 2 * natOfBits l + b.toNat := by
  simp [natOfBits]

theorem natOfBits_lt (l : List Bool) : natOfBits l < 2 ^ l.length := by
  induction l using List.reverseRecOn with
  | nil => simp [natOfBits]
  | append_singleton l b ih =>
    rw [natOfBits_snoc]
    simp only [List.length_append, List.length_cons, List.length_nil, Nat.pow_succ]
    cases b <;> simp <;> omega

theorem natOfBits_testBit (l : List Bool) (p : Nat) :
    (natOfBits l).testBit p = (decide (p < l.length) && l.getD (l.length - 1 - p) false) := by
  induction l using List.reverseRecOn generalizing p with
  | nil => simp [natOfBits]
  | append_singleton l b ih =>
    rw [natOfBits_snoc, testBit_two_mul_add]
    cases p with
    | zero => simp
    | succ p =>
      simp only [Nat.add_one_ne_zero, if_false, Nat.add_sub_cancel, ih, List.length_append,
        List.length_cons, List.length_nil]
      by_cases h : p < l.length
      · have e : l.length - (p + 1) = l.length - 1 - p := by omega
        have h2 : l.length - 1 - p < l.length := by omega
        simp only [h, e, decide_true, Bool.true_and, Nat.add_lt_add_iff_right,
          Nat.zero_add]
        rw [List.getD_eq_getElem?_getD, List.getD_eq_getElem?_getD, List.getElem?_append_left h2]
      · have : ¬ (p + 1 < l.length + 1) := by omega
        simp [h]

theorem natBits_natOfBits (l : List Bool) : natBits l.length (natOfBits l) = l := by
  apply List.ext_getElem
  · simp
  · intro i h1 h2
    rw [natBits_getElem, natOfBits_testBit]
    have : l.length - 1 - (l.length - 1 - i) = i := by omega
    simp only [this]
    have h3 : l.length - 1 - i < l.length := by omega
    simp [h3, h2]

theorem natOfBits_natBits (n v : Nat) (h : v < 2 ^ n) : natOfBits (natBits n v) = v := by
  apply Nat.eq_of_testBit_eq
  intro p
  rw [natOfBits_testBit]
  by_cases hp : p < n
  · have h3 : n - 1 - p < n := by omega
    have h4 : n - 1 - (n - 1 - p) = p := by omega
    simp [hp, natBits, h3, h4]
  · have : v.testBit p = false := by
      apply Nat.testBit_lt_two_pow
      exact Nat.lt_of_lt_of_le h (Nat.pow_le_pow_right (by omega) (by omega))
    simp [hp, this]

theorem testBit_mul_256_add (a b p : Nat) (hb : b < 256) :
    (a * 256 + b).testBit p = if p < 8 then b.testBit p else a.testBit (p - 8) := by
  have : a * 256 + b = 2 ^ 8 * a + b := by omega
  rw [this, Nat.testBit_two_pow_mul_add _ (by simpa using hb)]

theorem fromBytesBig_snoc (bs : Bytes) (b : UInt8) :
    fromBytesBig (bs ++ [b]) = fromBytesBig bs * 256 + b.toNat := by
  simp [fromBytesBig]

theorem fromBytesBig_testBit (bs : Bytes) (p : Nat) :
    (fromBytesBig bs).testBit p =
      (decide (p < 8 * bs.length) && (bs.getD (bs.length - 1 - p / 8) 0).toNat.testBit (p % 8)) := by
  induction bs using List.reverseRecOn generalizing p with
  | nil => simp [fromBytesBig]
  | append_singleton l b ih =>
    rw [fromBytesBig_snoc, testBit_mul_256_add _ _ _ (UInt8.toNat_lt b)]
    by_cases h : p < 8
    · have h1 : p / 8 = 0 := by omega
      have h2 : p % 8 = p := by omega
      have h3 : p < 8 * (l.length + 1) := by omega
      simp [h, h1, h2, h3]
    · rw [if_neg h, ih]
      have e1 : (p - 8) / 8 = p / 8 - 1 := by omega
      have e2 : (p - 8) % 8 = p % 8 := by omega
      have e3 : l.length - 1 - (p / 8 - 1) = (l ++ [b]).length - 1 - p / 8 := by
        simp; omega
      rw [e1, e2, e3]
      by_cases hp : p < 8 * (l.length + 1)
      · have hp' : p - 8 < 8 * l.length := by omega
        have hi : (l ++ [b]).length - 1 - p / 8 < l.length := by simp; omega
        have : (l ++ [b]).getD ((l ++ [b]).length - 1 - p / 8) 0
            = l.getD ((l ++ [b]).length - 1 - p / 8) 0 := by
          rw [List.getD_eq_getElem?_getD, List.getD_eq_getElem?_getD, List.getElem?_append_left hi]
        rw [this]
        simp [hp, hp']
      · have hp' : ¬ (p - 8 < 8 * l.length) := by omega
        simp [hp, hp']

theorem fromBytesLittle_testBit (bs : Bytes) (p : Nat) :
    (fromBytesLittle bs).testBit p =
      (decide (p < 8 * bs.length) && (bs.getD (p / 8) 0).toNat.testBit (p % 8)) := by
  unfold fromBytesLittle
  rw [fromBytesBig_testBit]
  by_cases h : p < 8 * bs.length
  · have h1 : p / 8 < bs.length := by omega
    have h2 : bs.length - 1 - p / 8 < bs.length := by omega
    have h3 : bs.length - 1 - (bs.length - 1 - p / 8) = p / 8 := by omega
    simp [h, h1, h2, h3]
  · simp [h]

theorem bitsToBytes_length (bs : List Bool) : (bitsToBytes bs).length = (bs.length + 7) / 8 := by
  simp [bitsToBytes]

theorem bitsToBytes_testBit (bs : List Bool) (i k : Nat) (hk : k < 8) :
    ((bitsToBytes bs).getD i 0).toNat.testBit k =
      bs.getD (8 * i + (7 - k)) false := by
  unfold bitsToBytes
  by_cases hi : i < (bs.length + 7) / 8
  · rw [List.getD_eq_getElem?_getD]
    simp only [List.getElem?_map, List.getElem?_range hi, Option.map_some, Option.getD_some]
    generalize hl : (List.map (fun k => bs.getD (8 * i + k) false) (List.range 8)) = l
    have hlen : l.length = 8 := by simp [← hl]
    have hlt : natOfBits l < 256 := by
      have := natOfBits_lt l; rw [hlen] at this; simpa using this
    have e : (UInt8.ofNat (natOfBits l)).toNat = natOfBits l := by
      simp; omega
    rw [e, natOfBits_testBit, hlen]
    have h7 : 8 - 1 - k < 8 := by omega
    subst hl
    simp [hk, List.getElem?_range h7]
  · have h1 : ((List.range ((bs.length + 7) / 8)).map fun i =>
      UInt8.ofNat (natOfBits ((List.range 8).map fun k => bs.getD (8 * i + k) false))).getD i 0
        = 0 := by
      rw [List.getD_eq_getElem?_getD, List.getElem?_eq_none (by simp; omega)]; rfl
    rw [h1]
    have h2 : bs.length ≤ 8 * i + (7 - k) := by omega
    rw [List.getD_eq_getElem?_getD, List.getElem?_eq_none h2]
    simp

/-- Bits of the integer read big endian from a packed bit string. -/
theorem fromBytesBig_bitsToBytes_testBit (bs : List Bool) (p : Nat) :
    (fromBytesBig (bitsToBytes bs)).testBit p =
      (decide (p < 8 * ((bs.length + 7) / 8)) &&
        bs.getD (8 * ((bs.length + 7) / 8) - 1 - p) false) := by
  rw [fromBytesBig_testBit, bitsToBytes_length]
  by_cases h : p < 8 * ((bs.length + 7) / 8)
  · rw [bitsToBytes_testBit _ _ _ (Nat.mod_lt _ (by omega))]
    have : 8 * ((bs.length + 7) / 8 - 1 - p / 8) + (7 - p % 8)
        = 8 * ((bs.length + 7) / 8) - 1 - p := by omega
    rw [this]
  · simp [h]

/-- Bits of the integer read little endian from a packed bit string. -/
theorem fromBytesLittle_bitsToBytes_testBit (bs : List Bool) (p : Nat) :
    (fromBytesLittle (bitsToBytes bs)).testBit p =
      (decide (p < 8 * ((bs.length + 7) / 8)) && bs.getD (8 * (p / 8) + (7 - p % 8)) false) := by
  rw [fromBytesLittle_testBit, bitsToBytes_length]
  by_cases h : p < 8 * ((bs.length + 7) / 8)
  · rw [bitsToBytes_testBit _ _ _ (Nat.mod_lt _ (by omega))]
  · simp [h]

theorem bytesBig_length (v n : Nat) : (bytesBig v n).length = n := by simp [bytesBig]

theorem bytesBig_testBit (v n i k : Nat) (hi : i < n) (hk : k < 8) :
    ((bytesBig v n).getD i 0).toNat.testBit k = v.testBit (8 * (n - 1 - i) + k) := by
  unfold bytesBig
  rw [List.getD_eq_getElem?_getD]
  simp only [List.getElem?_map, List.getElem?_range hi, Option.map_some, Option.getD_some,
    UInt8.toNat_ofNat', Nat.testBit_mod_two_pow, Nat.testBit_shiftRight]
  simp [hk]

theorem bytesToBits_length (bs : Bytes) : (bytesToBits bs).length = 8 * bs.length := by
  unfold bytesToBits
  induction bs with
  | nil => rfl
  | cons b r ih => simp [ih]; omega

theorem bytesToBits_getD (bs : Bytes) (i : Nat) :
    (bytesToBits bs).getD i false = (bs.getD (i / 8) 0).toNat.testBit (7 - i % 8) := by
  induction bs generalizing i with
  | nil => simp [bytesToBits]
  | cons b r ih =>
    have e : bytesToBits (b :: r) = natBits 8 b.toNat ++ bytesToBits r := by simp [bytesToBits]
    rw [e]
    by_cases h : i < 8
    · have h1 : i / 8 = 0 := by omega
      have h2 : i % 8 = i := by omega
      rw [List.getD_eq_getElem?_getD, List.getElem?_append_left (by simpa using h), h1, h2]
      simp [natBits, List.getElem?_range h]
    · have h1 : i / 8 = (i - 8) / 8 + 1 := by omega
      have h2 : i % 8 = (i - 8) % 8 := by omega
      rw [List.getD_eq_getElem?_getD, List.getElem?_append_right (by simpa using h), h1, h2,
        ← List.getD_eq_getElem?_getD, natBits_length, ih]
      simp

end Cantools
