import Verif.Lemmas.DbcKept

/-
A text of numbers that has the properties assumed of floating point numbers: multiples of one half,
written as "1.5".
-/

namespace Cantools.Dbc
open Cantools Spec

def showHalves (n : Int) : Chars :=
  numberText (decide (n < 0)) (decimal (n.natAbs / 2)) (some [if n.natAbs % 2 = 1 then '5' else '0']) none

/-- Multiples of one half, each given by its double. -/
def halves : FloatText Int where
  show_ := showHalves
  read t := (readDecimal t).map fun q => (2 * q).floor
  ofInt i := 2 * i
  value n := n / 2

theorem digitsValue_append (d : Chars) (c : Char) : digitsValue (d ++ [c]) = 10 * digitsValue d + (c.toNat - 48) := by
  unfold digitsValue
  rw [List.foldl_append]
  rfl

theorem digits_half (n : Int) : Digits [if n.natAbs % 2 = 1 then '5' else '0'] := by
  refine ⟨by simp, fun c hc => ?_⟩
  split at hc <;> simp at hc <;> subst hc <;> rfl

theorem readDecimal_halves (n : Int) : readDecimal (showHalves n) = .ok ((n : Rat) / 2) := by
  unfold showHalves
  rw [readDecimal_of (decimal_digits _) (fun f hf => by cases hf; exact digits_half n) (fun _ _ h => by cases h)]
  simp only [Option.getD_some, digitsValue_append, digitsValue_decimal, List.length_singleton, pow_one]
  congr 1
  have h1 : (((10 * (n.natAbs / 2) + ((if n.natAbs % 2 = 1 then '5' else '0').toNat - 48) : Nat)) : Rat) / 10 =
      (n.natAbs : Rat) / 2 := by
    rcases Nat.mod_two_eq_zero_or_one n.natAbs with h | h
    · obtain ⟨k, hk⟩ : ∃ k, n.natAbs = 2 * k := ⟨n.natAbs / 2, by omega⟩
      rw [h, hk, if_neg (by decide), Nat.mul_div_cancel_left _ (by decide)]
      rw [show ('0'.toNat - 48) = 0 from rfl]
      push_cast
      ring
    · obtain ⟨k, hk⟩ : ∃ k, n.natAbs = 2 * k + 1 := ⟨n.natAbs / 2, by omega⟩
      rw [h, hk, if_pos rfl, show (2 * k + 1) / 2 = k by omega, show ('5'.toNat - 48) = 5 from rfl]
      push_cast
      ring
  rw [h1]
  by_cases hn : n < 0
  · have : ((n.natAbs : Int) : Rat) = ((-n : Int) : Rat) := by rw [Int.ofNat_natAbs_of_nonpos (by omega)]
    rw [decide_eq_true hn, if_pos rfl]
    rw [Int.cast_natCast] at this
    rw [this]
    push_cast
    ring
  · have : ((n.natAbs : Int) : Rat) = ((n : Int) : Rat) := by rw [Int.natAbs_of_nonneg (by omega)]
    rw [decide_eq_false hn, if_neg (by simp)]
    rw [Int.cast_natCast] at this
    rw [this]

theorem halves_laws : FloatLaws halves where
  syntax_ n := ⟨_, _, _, _, rfl, decimal_digits _, fun f hf => (by cases hf; exact digits_half n),
    fun _ _ h => (by cases h), .inl rfl⟩
  read_show n := by
    show (readDecimal (showHalves n)).map _ = _
    rw [readDecimal_halves]
    show Except.ok _ = Except.ok n
    dsimp only
    rw [show (2 : Rat) * (n / 2) = n by ring]
    simp
  read_int i := by
    show (readDecimal (intText i)).map _ = _
    rw [readDecimal_intText]
    show Except.ok _ = Except.ok (2 * i)
    dsimp only
    rw [show (2 : Rat) * i = ((2 * i : Int) : Rat) by push_cast; rfl, Rat.floor_intCast]
  value_int i _ := by
    show (((2 * i : Int) : Rat)) / 2 = i
    push_cast
    ring
  show_int i _ := by
    show readDecimal (showHalves (2 * i)) = _
    rw [readDecimal_halves]
    push_cast
    congr 1
    ring

end Cantools.Dbc
