import Verif.Model.J1939
import Verif.Lemmas.Bits

namespace Cantools

theorem bytesToBits_bitsToBytes (bs : List Bool) :
    bytesToBits (bitsToBytes bs) = bs ++ List.replicate (8 * ((bs.length + 7) / 8) - bs.length) false := by
  apply List.ext_getElem
  · rw [bytesToBits_length, bitsToBytes_length, List.length_append, List.length_replicate]; omega
  · intro i h1 h2
    rw [bytesToBits_length, bitsToBytes_length] at h1
    have e1 : ∀ (l : List Bool) (h : i < l.length), l[i] = l.getD i false := by
      intro l h; simp [List.getD_eq_getElem?_getD, h]
    rw [e1, e1, bytesToBits_getD, bitsToBytes_testBit _ _ _ (by omega)]
    have e2 : 8 * (i / 8) + (7 - (7 - i % 8)) = i := by omega
    simp only [List.getD_eq_getElem?_getD, List.getElem?_append, List.getElem?_replicate]
    rw [e2]
    split
    · rfl
    · rw [List.getElem?_eq_none (by omega)]
      split <;> rfl

theorem natOfBits_slice (N v k n : Nat) (pad : List Bool) (h : k + n ≤ N) :
    natOfBits (((natBits N v ++ pad).drop k).take n) = v / 2 ^ (N - k - n) % 2 ^ n := by
  have hl : (((natBits N v ++ pad).drop k).take n).length = n := by
    simp only [List.length_take, List.length_drop, List.length_append, natBits_length]; omega
  apply Nat.eq_of_testBit_eq
  intro p
  rw [natOfBits_testBit, hl, Nat.testBit_mod_two_pow, Nat.testBit_div_two_pow]
  by_cases hp : p < n
  · simp only [hp, decide_true, Bool.true_and, List.getD_eq_getElem?_getD]
    rw [List.getElem?_take_of_lt (by omega), List.getElem?_drop, List.getElem?_append_left (by simp; omega),
      List.getElem?_eq_getElem (by simp; omega), natBits_getElem]
    simp only [Option.getD_some]
    congr 1; omega
  · simp [hp]

theorem packU_ok {fields : List (Nat × Int)} (h : ∀ f ∈ fields, 0 ≤ f.2 ∧ f.2 < 2 ^ f.1) :
    packU fields = .ok (bitsToBytes (fields.flatMap fun f => natBits f.1 f.2.toNat)) := by
  unfold packU
  rw [if_pos (List.all_eq_true.2 fun f hf => decide_eq_true (h f hf))]

theorem packU_error {fields : List (Nat × Int)} (h : ¬ ∀ f ∈ fields, 0 ≤ f.2 ∧ f.2 < 2 ^ f.1) :
    packU fields = .error .packError := by
  unfold packU
  rw [if_neg (fun hc => h fun f hf => of_decide_eq_true (List.all_eq_true.1 hc f hf))]

theorem packU_single (n : Nat) (v : Int) :
    packU [(n, v)] = if 0 ≤ v ∧ v < 2 ^ n then .ok (bitsToBytes (natBits n v.toNat)) else .error .packError := by
  simp [packU]

end Cantools
