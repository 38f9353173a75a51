import Verif.Model.Ieee
import Verif.Spec.Ieee
import Verif.Lemmas.Values
import Mathlib.Tactic.Positivity
import Mathlib.Tactic.NormNum
import Mathlib.Algebra.Order.Field.Power

namespace Cantools.Ieee
open Spec

/-! ### Rounding to integers -/

theorem le_pyRound {x : Rat} {k : Int} (h : (k : Rat) ≤ x) : k ≤ pyRound x := by
  obtain ⟨h1, h2, _⟩ := pyRound_nearest x
  by_contra hk
  have : pyRound x + 1 ≤ k := by omega
  have : ((pyRound x + 1 : Int) : Rat) ≤ k := by exact_mod_cast this
  push_cast at this
  linarith

theorem pyRound_le {x : Rat} {k : Int} (h : x ≤ (k : Rat)) : pyRound x ≤ k := by
  obtain ⟨h1, h2, _⟩ := pyRound_nearest x
  by_contra hk
  have : k + 1 ≤ pyRound x := by omega
  have : ((k + 1 : Int) : Rat) ≤ (pyRound x : Int) := by exact_mod_cast this
  push_cast at this
  linarith

theorem pyRound_error (x : Rat) : |(pyRound x : Rat) - x| ≤ 1 / 2 := by
  obtain ⟨h1, h2, _⟩ := pyRound_nearest x
  rw [abs_le]
  constructor <;> linarith

theorem pyRound_best (x : Rat) (k : Int) : |(pyRound x : Rat) - x| ≤ |(k : Rat) - x| := by
  by_cases h : k = pyRound x
  · rw [h]
  · have h1 := pyRound_error x
    have h2 : (1 : Rat) ≤ |(k : Rat) - pyRound x| := by
      have : 1 ≤ |k - pyRound x| := Int.one_le_abs (by omega)
      exact_mod_cast this
    have h3 : |(k : Rat) - pyRound x| ≤ |(k : Rat) - x| + |x - pyRound x| := abs_sub_le _ _ _
    rw [abs_sub_comm x] at h3
    linarith

theorem pyRound_tie {x : Rat} {k : Int} (hk : k ≠ pyRound x) (h : |(k : Rat) - x| = |(pyRound x : Rat) - x|) :
    pyRound x % 2 = 0 := by
  obtain ⟨n1, n2, n3⟩ := pyRound_nearest x
  have h1 := pyRound_error x
  have h2 : (1 : Rat) ≤ |(k : Rat) - pyRound x| := by
    have : 1 ≤ |k - pyRound x| := Int.one_le_abs (by omega)
    exact_mod_cast this
  have h3 : |(k : Rat) - pyRound x| ≤ |(k : Rat) - x| + |x - pyRound x| := abs_sub_le _ _ _
  rw [abs_sub_comm x] at h3
  have h4 : |(pyRound x : Rat) - x| = 1 / 2 := by linarith
  apply n3
  rcases abs_cases ((pyRound x : Rat) - x) with ⟨e, _⟩ | ⟨e, _⟩
  · right; linarith
  · left; linarith

theorem pyRound_mono {x y : Rat} (h : x ≤ y) : pyRound x ≤ pyRound y := by
  by_contra hlt
  have hlt : pyRound y < pyRound x := by omega
  obtain ⟨a1, a2, a3⟩ := pyRound_nearest x
  obtain ⟨b1, b2, b3⟩ := pyRound_nearest y
  have h1 : ((pyRound y + 1 : Int) : Rat) ≤ pyRound x := by exact_mod_cast hlt
  push_cast at h1
  -- x = y in the middle
  have e : x = y := by linarith
  rw [e] at hlt
  omega

theorem pyRound_neg (x : Rat) : pyRound (-x) = -pyRound x := by
  rw [pyRound_iff]
  obtain ⟨a1, a2, a3⟩ := pyRound_nearest x
  unfold NearestEven
  push_cast
  refine ⟨by linarith, by linarith, ?_⟩
  intro h
  have : pyRound x % 2 = 0 := a3 (by rcases h with h | h; right; linarith; left; linarith)
  omega

/-! ### Logarithms -/

theorem log2_bounds {n : Nat} (h : 0 < n) : (2 : Rat) ^ (Nat.log2 n : Int) ≤ n ∧ (n : Rat) < 2 ^ ((Nat.log2 n : Int) + 1) := by
  constructor
  · rw [zpow_natCast]
    exact_mod_cast Nat.log2_self_le (by omega)
  · have : ((Nat.log2 n : Int) + 1) = ((Nat.log2 n + 1 : Nat) : Int) := by push_cast; rfl
    rw [this, zpow_natCast]
    exact_mod_cast Nat.lt_log2_self

theorem ilog2_spec {q : Rat} (h : 0 < q) : (2 : Rat) ^ ilog2 q ≤ q ∧ q < 2 ^ (ilog2 q + 1) := by
  have hnum : 0 < q.num := Rat.num_pos.2 h
  obtain ⟨n1, n2⟩ := log2_bounds (n := q.num.natAbs) (by omega)
  obtain ⟨d1, d2⟩ := log2_bounds q.den_pos
  have hq : q = (q.num.natAbs : Rat) / q.den := by
    conv_lhs => rw [← Rat.num_div_den q]
    have : (q.num : Rat) = (q.num.natAbs : Rat) := by
      have : q.num = (q.num.natAbs : Int) := by omega
      conv_lhs => rw [this]
      simp
    rw [this]
  have hden : (0 : Rat) < q.den := by exact_mod_cast q.den_pos
  have two : (2 : Rat) ≠ 0 := by norm_num
  have up : q < 2 ^ ((Nat.log2 q.num.natAbs : Int) - (Nat.log2 q.den : Int) + 1) := by
    have e : ((Nat.log2 q.num.natAbs : Int) - (Nat.log2 q.den : Int) + 1) =
      ((Nat.log2 q.num.natAbs : Int) + 1) - (Nat.log2 q.den : Int) := by ring
    rw [e, zpow_sub₀ two]
    conv_lhs => rw [hq]
    calc (q.num.natAbs : Rat) / q.den ≤ (q.num.natAbs : Rat) / 2 ^ (Nat.log2 q.den : Int) :=
          div_le_div_of_nonneg_left (by positivity) (by positivity) d1
      _ < _ := div_lt_div_of_pos_right n2 (by positivity)
  have low : 2 ^ ((Nat.log2 q.num.natAbs : Int) - (Nat.log2 q.den : Int) - 1) ≤ q := by
    have e : ((Nat.log2 q.num.natAbs : Int) - (Nat.log2 q.den : Int) - 1) =
      (Nat.log2 q.num.natAbs : Int) - ((Nat.log2 q.den : Int) + 1) := by ring
    rw [e, zpow_sub₀ two]
    conv_rhs => rw [hq]
    calc (2 : Rat) ^ (Nat.log2 q.num.natAbs : Int) / 2 ^ ((Nat.log2 q.den : Int) + 1)
        ≤ (q.num.natAbs : Rat) / 2 ^ ((Nat.log2 q.den : Int) + 1) := div_le_div_of_nonneg_right n1 (by positivity)
      _ ≤ _ := div_le_div_of_nonneg_left (by positivity) hden d2.le
  unfold ilog2
  dsimp only
  split
  · rename_i h'
    refine ⟨low, ?_⟩
    rwa [sub_add_cancel]
  · rename_i h'
    exact ⟨not_lt.1 h', up⟩

theorem ilog2_unique {q : Rat} {l : Int} (h1 : (2 : Rat) ^ l ≤ q) (h2 : q < 2 ^ (l + 1)) : ilog2 q = l := by
  have hq : 0 < q := lt_of_lt_of_le (by positivity) h1
  obtain ⟨a, b⟩ := ilog2_spec hq
  have one : (1 : Rat) < 2 := by norm_num
  have x := (zpow_lt_zpow_iff_right₀ one).1 (lt_of_le_of_lt h1 b)
  have y := (zpow_lt_zpow_iff_right₀ one).1 (lt_of_le_of_lt a h2)
  omega

theorem ilog2_lt {q : Rat} {l : Int} (h : 0 < q) (h2 : q < 2 ^ l) : ilog2 q < l := by
  obtain ⟨a, _⟩ := ilog2_spec h
  exact (zpow_lt_zpow_iff_right₀ (by norm_num : (1 : Rat) < 2)).1 (lt_of_le_of_lt a h2)

theorem le_ilog2 {q : Rat} {l : Int} (h2 : 2 ^ l ≤ q) : l ≤ ilog2 q := by
  have hq : 0 < q := lt_of_lt_of_le (by positivity) h2
  obtain ⟨_, b⟩ := ilog2_spec hq
  have := (zpow_lt_zpow_iff_right₀ (by norm_num : (1 : Rat) < 2)).1 (lt_of_le_of_lt h2 b)
  omega

/-! ### Exponent and significand -/

variable {f : Fmt}

theorem emin_le_exp (a : Rat) : f.emin ≤ f.exp a := le_max_right _ _

theorem sig_lt {a : Rat} (h : 0 < a) : a / 2 ^ f.exp a < 2 ^ (f.t + 1) := by
  rw [div_lt_iff₀ (by positivity)]
  obtain ⟨_, h2⟩ := ilog2_spec h
  refine h2.trans_le ?_
  have e : (2 : Rat) ^ (f.t + 1) * 2 ^ f.exp a = 2 ^ (((f.t + 1 : Nat) : Int) + f.exp a) := by
    rw [zpow_add₀ (by norm_num), zpow_natCast]
  rw [e]
  refine zpow_le_zpow_right₀ (by norm_num) ?_
  have : ilog2 a - f.t ≤ f.exp a := le_max_left _ _
  push_cast
  omega

theorem le_sig {a : Rat} (h : 0 < a) (he : f.emin < f.exp a) : 2 ^ f.t ≤ a / 2 ^ f.exp a := by
  rw [le_div_iff₀ (by positivity)]
  obtain ⟨h1, _⟩ := ilog2_spec h
  refine le_trans ?_ h1
  have e : (2 : Rat) ^ f.t * 2 ^ f.exp a = 2 ^ ((f.t : Int) + f.exp a) := by
    rw [zpow_add₀ (by norm_num), zpow_natCast]
  rw [e]
  refine zpow_le_zpow_right₀ (by norm_num) ?_
  have : f.exp a = ilog2 a - f.t ∨ f.exp a = f.emin := by unfold Fmt.exp; omega
  omega

/-- The significand as an integer. -/
def sig (f : Fmt) (a : Rat) : Int := pyRound (a / 2 ^ f.exp a)

theorem sig_le {a : Rat} (h : 0 < a) : sig f a ≤ 2 ^ (f.t + 1) :=
  pyRound_le (by push_cast; exact (sig_lt h).le)

theorem sig_nonneg {a : Rat} (h : 0 < a) : 0 ≤ sig f a := le_pyRound (by push_cast; positivity)

theorem le_sig' {a : Rat} (h : 0 < a) (he : f.emin < f.exp a) : 2 ^ f.t ≤ sig f a :=
  le_pyRound (by push_cast; exact le_sig h he)

theorem code_eq {a : Rat} (h : 0 < a) : (f.code a : Int) = (f.exp a - f.emin) * 2 ^ f.t + sig f a := by
  unfold Fmt.code
  rw [if_neg h.ne']
  have h1 := sig_nonneg (f := f) h
  have h2 := emin_le_exp (f := f) a
  have h3 : 0 ≤ (f.exp a - f.emin) * 2 ^ f.t := mul_nonneg (by omega) (by positivity)
  exact Int.toNat_of_nonneg (add_nonneg h3 h1)

theorem value_of {k m : Nat} (h : m ≤ 2 ^ (f.t + 1)) (h' : k = 0 ∨ 2 ^ f.t ≤ m) :
    f.value (k * 2 ^ f.t + m) = (m : Rat) * 2 ^ ((k : Int) + f.emin) := by
  have hp : 0 < 2 ^ f.t := by positivity
  have hs : 2 ^ (f.t + 1) = 2 ^ f.t + 2 ^ f.t := by rw [pow_succ]; omega
  unfold Fmt.value
  by_cases h1 : m < 2 ^ f.t
  · obtain rfl : k = 0 := by omega
    rw [zero_mul, zero_add, Nat.div_eq_of_lt h1, if_pos rfl, Nat.mod_eq_of_lt h1]
    simp
  · by_cases h2 : m = 2 ^ (f.t + 1)
    · have e : k * 2 ^ f.t + m = (k + 2) * 2 ^ f.t := by rw [h2, hs]; ring
      rw [e, Nat.mul_div_cancel _ hp, Nat.mul_mod_left, if_neg (by omega), h2]
      push_cast
      have e2 : (k : Int) + 2 - 1 + f.emin = (k + f.emin) + 1 := by ring
      rw [e2, zpow_add₀ (by norm_num)]
      ring
    · have h3 : m - 2 ^ f.t < 2 ^ f.t := by omega
      have e : k * 2 ^ f.t + m = (m - 2 ^ f.t) + (k + 1) * 2 ^ f.t := by
        rw [add_mul]; omega
      rw [e, Nat.add_mul_div_right _ _ hp, Nat.add_mul_mod_self_right, Nat.div_eq_of_lt h3, Nat.mod_eq_of_lt h3,
        if_neg (by omega)]
      congr 2
      · omega
      · push_cast; ring

/-- The number of a code is the rounded number. -/
theorem value_code {a : Rat} (h : 0 < a) : f.value (f.code a) = (sig f a : Rat) * 2 ^ f.exp a := by
  have h1 := sig_nonneg (f := f) h
  have h2 := emin_le_exp (f := f) a
  have hc := code_eq (f := f) h
  obtain ⟨k, hk⟩ := Int.eq_ofNat_of_zero_le (by omega : 0 ≤ f.exp a - f.emin)
  obtain ⟨m, hm⟩ := Int.eq_ofNat_of_zero_le h1
  have e : f.code a = k * 2 ^ f.t + m := by
    rw [hk, hm] at hc
    exact_mod_cast hc
  have hle := sig_le (f := f) h
  rw [hm] at hle
  rw [e, value_of (by exact_mod_cast hle), hm]
  · have : (k : Int) + f.emin = f.exp a := by omega
    rw [this]
    simp
  · by_cases h0 : f.exp a = f.emin
    · left; omega
    · right
      have := le_sig' (f := f) h (by omega)
      rw [hm] at this
      exact_mod_cast this

theorem value_zero : f.value 0 = 0 := by
  unfold Fmt.value
  simp

/-- Every code has an exponent and a significand. -/
theorem value_parts (c : Nat) : ∃ (s : Nat) (k : Nat), s < 2 ^ (f.t + 1) ∧ f.value c = (s : Rat) * 2 ^ ((k : Int) + f.emin) ∧
    c = k * 2 ^ f.t + s ∧ (k = 0 ∨ 2 ^ f.t ≤ s) := by
  have hp : 0 < 2 ^ f.t := by positivity
  have hs : 2 ^ (f.t + 1) = 2 ^ f.t + 2 ^ f.t := by rw [pow_succ]; omega
  have hm := Nat.mod_lt c hp
  have hd := Nat.div_add_mod c (2 ^ f.t)
  by_cases h : c / 2 ^ f.t = 0
  · refine ⟨c % 2 ^ f.t, 0, by omega, ?_, ?_, .inl rfl⟩
    · unfold Fmt.value
      rw [if_pos h]
      simp
    · rw [h] at hd
      omega
  · obtain ⟨k, hk⟩ := Nat.exists_eq_succ_of_ne_zero h
    refine ⟨2 ^ f.t + c % 2 ^ f.t, k, by omega, ?_, ?_, .inr (by omega)⟩
    · unfold Fmt.value
      rw [if_neg h, hk]
      push_cast
      congr 2
      omega
    · rw [hk, mul_comm, Nat.succ_mul] at hd
      omega

theorem value_nonneg (c : Nat) : 0 ≤ f.value c := by
  obtain ⟨s, k, -, h, -⟩ := value_parts (f := f) c
  rw [h]
  positivity

/-- The code of a number of the format is that number. -/
theorem code_value (c : Nat) (hc : c ≠ 0) : f.code (f.value c) = c := by
  obtain ⟨s, k, h1, h2, h3, h4⟩ := value_parts (f := f) c
  have hs : 0 < s := by
    rcases h4 with h | h
    · subst h; omega
    · exact lt_of_lt_of_le (by positivity) h
  have hpos : 0 < f.value c := by rw [h2]; positivity
  have hexp : f.exp (f.value c) = (k : Int) + f.emin := by
    unfold Fmt.exp
    have up : f.value c < 2 ^ ((f.t : Int) + 1 + (k + f.emin)) := by
      rw [h2, zpow_add₀ (by norm_num) ((f.t : Int) + 1)]
      have : (2 : Rat) ^ ((f.t : Int) + 1) = 2 ^ (f.t + 1) := by
        rw [← zpow_natCast]; push_cast; rfl
      rw [this]
      exact mul_lt_mul_of_pos_right (by exact_mod_cast h1) (by positivity)
    have hl := ilog2_lt hpos up
    rcases h4 with h | h
    · subst h
      rw [max_eq_right (by push_cast at hl ⊢; omega)]
      simp
    · have low : 2 ^ ((f.t : Int) + (k + f.emin)) ≤ f.value c := by
        rw [h2, zpow_add₀ (by norm_num), zpow_natCast]
        exact mul_le_mul_of_nonneg_right (by exact_mod_cast h) (by positivity)
      have := le_ilog2 low
      rw [max_eq_left (by omega)]
      omega
  have hsig : sig f (f.value c) = s := by
    unfold sig
    rw [hexp, h2, mul_div_assoc, div_self (by positivity), mul_one]
    exact pyRound_int s
  have := code_eq (f := f) hpos
  rw [hexp, hsig] at this
  have e : (k : Int) + f.emin - f.emin = k := by ring
  rw [e] at this
  rw [h3]
  rw [h3] at this
  exact_mod_cast this

end Cantools.Ieee
