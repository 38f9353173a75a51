import Verif.Lemmas.Ieee
import Mathlib.Algebra.Order.Ring.Abs

namespace Cantools.Ieee
open Spec

variable {f : Fmt}

/-- Numbers of the format with a smaller exponent are below, all others are multiples. -/
theorem value_multiple {a : Rat} (h : 0 < a) (c : Nat) :
    (∃ j : Int, f.value c = (j : Rat) * 2 ^ f.exp a) ∨
      (f.value c < 2 ^ f.t * 2 ^ f.exp a ∧ (2 : Rat) ^ f.t * 2 ^ f.exp a ≤ a) := by
  obtain ⟨s, k, h1, h2, h3, h4⟩ := value_parts (f := f) c
  by_cases hk : f.exp a ≤ (k : Int) + f.emin
  · left
    obtain ⟨d, hd⟩ := Int.eq_ofNat_of_zero_le (by omega : 0 ≤ (k : Int) + f.emin - f.exp a)
    refine ⟨s * 2 ^ d, ?_⟩
    have e : (k : Int) + f.emin = d + f.exp a := by omega
    rw [h2, e, zpow_add₀ (by norm_num), zpow_natCast]
    push_cast
    ring
  · right
    have hl := le_sig (f := f) h (by omega)
    rw [le_div_iff₀ (by positivity)] at hl
    refine ⟨?_, hl⟩
    rw [h2]
    have e1 : (2 : Rat) ^ ((k : Int) + f.emin) ≤ 2 ^ (f.exp a - 1) :=
      zpow_le_zpow_right₀ (by norm_num) (by omega)
    have e2 : (2 : Rat) ^ f.exp a = 2 * 2 ^ (f.exp a - 1) := by
      rw [zpow_sub_one₀ (by norm_num)]; ring
    have hs : (s : Rat) < 2 ^ (f.t + 1) := by exact_mod_cast h1
    calc (s : Rat) * 2 ^ ((k : Int) + f.emin) ≤ s * 2 ^ (f.exp a - 1) :=
          mul_le_mul_of_nonneg_left e1 (by positivity)
      _ < 2 ^ (f.t + 1) * 2 ^ (f.exp a - 1) := mul_lt_mul_of_pos_right hs (by positivity)
      _ = _ := by rw [e2]; ring

theorem abs_scaled {a e : Rat} (he : 0 < e) (x : Rat) : |x * e - a| = |x - a / e| * e := by
  have : x * e - a = (x - a / e) * e := by field_simp
  rw [this, abs_mul, abs_of_pos he]

/-- The number of the code is the nearest one. -/
theorem code_best {a : Rat} (h : 0 < a) (c : Nat) : |f.value (f.code a) - a| ≤ |f.value c - a| := by
  have hp : (0 : Rat) < 2 ^ f.exp a := by positivity
  rw [value_code h]
  have best : ∀ j : Int, |(sig f a : Rat) * 2 ^ f.exp a - a| ≤ |(j : Rat) * 2 ^ f.exp a - a| := by
    intro j
    rw [abs_scaled hp, abs_scaled hp]
    exact mul_le_mul_of_nonneg_right (pyRound_best _ _) hp.le
  rcases value_multiple (f := f) h c with ⟨j, hj⟩ | ⟨h1, h2⟩
  · rw [hj]
    exact best j
  · refine (best (2 ^ f.t)).trans ?_
    push_cast
    rw [abs_of_nonpos (by linarith), abs_of_nonpos (by linarith)]
    linarith

theorem code_even {a : Rat} (h : 0 < a) (ht : 1 ≤ f.t) (hs : sig f a % 2 = 0) : f.code a % 2 = 0 := by
  have hc := code_eq (f := f) h
  obtain ⟨t, rfl'⟩ : ∃ t, f.t = t + 1 := ⟨f.t - 1, by omega⟩
  rw [rfl', pow_succ] at hc
  have e : (f.exp a - f.emin) * (2 ^ t * 2) = ((f.exp a - f.emin) * 2 ^ t) * 2 := by ring
  rw [e] at hc
  omega

/-- Of two nearest numbers, the code is the even one. -/
theorem code_tie {a : Rat} (h : 0 < a) (ht : 1 ≤ f.t) (c : Nat) (hne : f.value c ≠ f.value (f.code a))
    (he : |f.value c - a| = |f.value (f.code a) - a|) : f.code a % 2 = 0 := by
  have hp : (0 : Rat) < 2 ^ f.exp a := by positivity
  rw [value_code h] at hne he
  apply code_even h ht
  rcases value_multiple (f := f) h c with ⟨j, hj⟩ | ⟨h1, h2⟩
  · rw [hj] at hne he
    rw [abs_scaled hp, abs_scaled hp] at he
    refine pyRound_tie (k := j) (fun hh => hne (by rw [hh]; rfl)) ?_
    exact mul_right_cancel₀ hp.ne' he
  · exfalso
    have b : |(sig f a : Rat) * 2 ^ f.exp a - a| ≤ |((2 ^ f.t : Int) : Rat) * 2 ^ f.exp a - a| := by
      rw [abs_scaled hp, abs_scaled hp]
      exact mul_le_mul_of_nonneg_right (pyRound_best _ _) hp.le
    rw [← he] at b
    push_cast at b
    rw [abs_of_nonpos (by linarith), abs_of_nonpos (by linarith)] at b
    linarith

/-! ### Rounding -/

theorem round_pos {a : Rat} (h : 0 < a) : f.round a = f.value (f.code a) := by
  rw [value_code h]
  unfold Fmt.round
  rw [if_neg h.ne', abs_of_pos h]
  rfl

theorem round_zero : f.round 0 = 0 := if_pos rfl

theorem round_neg (q : Rat) : f.round (-q) = -f.round q := by
  unfold Fmt.round
  by_cases h : q = 0
  · simp [h]
  · rw [if_neg h, if_neg (by simpa using h), abs_neg, neg_div, pyRound_neg]
    push_cast
    ring

theorem round_nonneg {q : Rat} (h : 0 ≤ q) : 0 ≤ f.round q := by
  rcases h.eq_or_lt with h | h
  · rw [← h, round_zero]
  · rw [round_pos h]; exact value_nonneg _

theorem abs_round (q : Rat) : |f.round q| = f.round |q| := by
  rcases le_total 0 q with h | h
  · rw [abs_of_nonneg h, abs_of_nonneg (round_nonneg h)]
  · rw [abs_of_nonpos h, round_neg, abs_of_nonpos]
    have := round_nonneg (f := f) (q := -q) (by linarith)
    rw [round_neg] at this
    linarith

/-- The number of the code of a magnitude. -/
theorem value_code_abs (q : Rat) : f.value (f.code |q|) = f.round |q| := by
  by_cases h : q = 0
  · subst h
    rw [abs_zero, round_zero]
    unfold Fmt.code
    rw [if_pos rfl, value_zero]
  · rw [round_pos (abs_pos.2 h)]

/-- A number of the format, of any exponent. -/
def In (f : Fmt) (q : Rat) : Prop := ∃ c, f.value c = |q|

theorem round_of_in {q : Rat} (h : In f q) : f.round q = q := by
  have pos : ∀ a : Rat, 0 < a → In f a → f.round a = a := by
    intro a ha ⟨c, hc⟩
    rw [abs_of_pos ha] at hc
    have hc0 : c ≠ 0 := by rintro rfl; rw [value_zero] at hc; linarith
    have := code_value (f := f) c hc0
    rw [hc] at this
    rw [round_pos ha, this, hc]
  rcases lt_trichotomy q 0 with hq | hq | hq
  · have := pos (-q) (by linarith) (by obtain ⟨c, hc⟩ := h; exact ⟨c, by rw [hc, abs_neg]⟩)
    rw [round_neg] at this
    linarith
  · rw [hq, round_zero]
  · exact pos q hq h

theorem round_in (q : Rat) : In f (f.round q) := ⟨f.code |q|, by rw [value_code_abs, abs_round]⟩

theorem round_best {q v : Rat} (h : In f v) : |f.round q - q| ≤ |v - q| := by
  have pos : ∀ a : Rat, 0 < a → ∀ v, In f v → |f.round a - a| ≤ |v - a| := by
    intro a ha v ⟨c, hc⟩
    rw [round_pos ha]
    have h0 := code_best (f := f) ha 0
    rw [value_zero, zero_sub, abs_neg, abs_of_pos ha] at h0
    rcases le_total 0 v with hv | hv
    · rw [abs_of_nonneg hv] at hc
      rw [← hc]
      exact code_best ha c
    · refine h0.trans ?_
      rw [abs_of_nonpos (by linarith)]
      linarith
  rcases lt_trichotomy q 0 with hq | hq | hq
  · have := pos (-q) (by linarith) (-v) (by obtain ⟨c, hc⟩ := h; exact ⟨c, by rw [hc, abs_neg]⟩)
    rw [round_neg] at this
    have e1 : -f.round q - -q = -(f.round q - q) := by ring
    have e2 : -v - -q = -(v - q) := by ring
    rwa [e1, e2, abs_neg, abs_neg] at this
  · rw [hq, round_zero]; simp
  · exact pos q hq v h

/-- Rounding keeps the order. -/
theorem round_mono {x y : Rat} (h : x ≤ y) : f.round x ≤ f.round y := by
  by_contra hlt
  push Not at hlt
  have h1 := round_best (f := f) (q := x) (round_in y)
  have h2 := round_best (f := f) (q := y) (round_in x)
  rcases h.eq_or_lt with h | h
  · rw [h] at hlt; exact lt_irrefl _ hlt
  · rcases abs_cases (f.round x - x) with ⟨a1, _⟩ | ⟨a1, _⟩ <;>
    rcases abs_cases (f.round y - x) with ⟨a2, _⟩ | ⟨a2, _⟩ <;>
    rcases abs_cases (f.round y - y) with ⟨a3, _⟩ | ⟨a3, _⟩ <;>
    rcases abs_cases (f.round x - y) with ⟨a4, _⟩ | ⟨a4, _⟩ <;>
    rw [a1, a2] at h1 <;> rw [a3, a4] at h2 <;> linarith

/-! ### Errors -/

theorem round_error_ulp {q : Rat} (h : q ≠ 0) : |f.round q - q| ≤ 1 / 2 * 2 ^ f.exp |q| := by
  unfold Fmt.round
  rw [if_neg h, abs_scaled (by positivity)]
  exact mul_le_mul_of_nonneg_right (pyRound_error _) (by positivity)

/-- The relative error for numbers that are not too small. -/
theorem round_error {q : Rat} (h : (2 : Rat) ^ (f.emin + f.t) ≤ |q|) : |f.round q - q| ≤ |q| / 2 ^ (f.t + 1) := by
  have hq : q ≠ 0 := by
    rintro rfl
    rw [abs_zero] at h
    have : (0 : Rat) < 2 ^ (f.emin + f.t) := by positivity
    linarith
  have hp : 0 < |q| := abs_pos.2 hq
  have hl := le_ilog2 h
  have he : f.exp |q| = ilog2 |q| - f.t := max_eq_left (by omega)
  refine (round_error_ulp hq).trans ?_
  rw [he, zpow_sub₀ (by norm_num), zpow_natCast]
  have := (ilog2_spec hp).1
  rw [pow_succ]
  have e : 1 / 2 * ((2 : Rat) ^ ilog2 |q| / 2 ^ f.t) = 2 ^ ilog2 |q| / (2 ^ f.t * 2) := by field_simp
  rw [e]
  exact div_le_div_of_nonneg_right this (by positivity)

/-- Multiples of the smallest number are exact as long as they are small. -/
theorem in_of_multiple {q : Rat} (j : Int) (h : q = j * 2 ^ f.emin) (hj : |j| ≤ 2 ^ (f.t + 1)) : In f q := by
  refine ⟨j.natAbs, ?_⟩
  have e : j.natAbs = 0 * 2 ^ f.t + j.natAbs := by simp
  rw [e, value_of (by zify; exact hj) (.inl rfl), h, abs_mul, abs_of_pos (by positivity : (0 : Rat) < 2 ^ f.emin)]
  simp

theorem multiple_of_in {q : Rat} (h : In f q) : ∃ j : Int, q = j * 2 ^ f.emin := by
  obtain ⟨c, hc⟩ := h
  obtain ⟨s, k, -, h2, -⟩ := value_parts (f := f) c
  have e : |q| = ((s * 2 ^ k : Int) : Rat) * 2 ^ f.emin := by
    rw [← hc, h2, zpow_add₀ (by norm_num), zpow_natCast]
    push_cast
    ring
  rcases abs_cases q with ⟨e1, _⟩ | ⟨e1, _⟩
  · exact ⟨_, e1 ▸ e⟩
  · refine ⟨-(s * 2 ^ k), ?_⟩
    push_cast at e ⊢
    rw [e1] at e
    linarith

/-- The relative error of sums. -/
theorem round_error_multiple {q : Rat} (j : Int) (h : q = j * 2 ^ f.emin) : |f.round q - q| ≤ |q| / 2 ^ (f.t + 1) := by
  by_cases hj : |j| ≤ 2 ^ (f.t + 1)
  · rw [round_of_in (in_of_multiple j h hj)]
    simp only [sub_self, abs_zero]
    positivity
  · apply round_error
    rw [h, abs_mul, abs_of_pos (by positivity : (0 : Rat) < 2 ^ f.emin), zpow_add₀ (by norm_num), zpow_natCast, mul_comm]
    refine mul_le_mul_of_nonneg_right ?_ (by positivity)
    push Not at hj
    have : (2 : Int) ^ f.t ≤ |j| := le_trans (pow_le_pow_right₀ (by norm_num) (by omega)) hj.le
    exact_mod_cast this

theorem round_add_error {x y : Rat} (hx : In f x) (hy : In f y) : |f.round (x + y) - (x + y)| ≤ |x + y| / 2 ^ (f.t + 1) := by
  obtain ⟨j, hj⟩ := multiple_of_in hx
  obtain ⟨i, hi⟩ := multiple_of_in hy
  have e : x + y = ((j + i : Int) : Rat) * 2 ^ f.emin := by
    rw [hj, hi]
    push_cast
    ring
  exact round_error_multiple (f := f) (j + i) e

theorem In.neg {x : Rat} (h : In f x) : In f (-x) := by
  obtain ⟨c, hc⟩ := h
  exact ⟨c, by rw [hc, abs_neg]⟩

theorem round_sub_error {x y : Rat} (hx : In f x) (hy : In f y) : |f.round (x - y) - (x - y)| ≤ |x - y| / 2 ^ (f.t + 1) := by
  have := round_add_error hx hy.neg
  rwa [← sub_eq_add_neg] at this

/-! ### Overflow -/

theorem code_mono {a b : Rat} (ha : 0 < a) (h : a ≤ b) : f.code a ≤ f.code b := by
  have hb : 0 < b := lt_of_lt_of_le ha h
  have ca := code_eq (f := f) ha
  have cb := code_eq (f := f) hb
  have hlog : f.exp a ≤ f.exp b := by
    unfold Fmt.exp
    have : ilog2 a ≤ ilog2 b := le_ilog2 ((ilog2_spec ha).1.trans h)
    omega
  rcases hlog.eq_or_lt with e | e
  · have : sig f a ≤ sig f b := by
      unfold sig
      rw [e]
      exact pyRound_mono (div_le_div_of_nonneg_right h (by positivity))
    rw [e] at ca
    omega
  · have h1 := sig_le (f := f) ha
    have h2 := le_sig' (f := f) hb (lt_of_le_of_lt (emin_le_exp a) e)
    have h3 : (f.exp a - f.emin + 1) * 2 ^ f.t ≤ (f.exp b - f.emin) * 2 ^ f.t :=
      mul_le_mul_of_nonneg_right (by omega) (by positivity)
    have h4 : (2 : Int) ^ (f.t + 1) = 2 ^ f.t + 2 ^ f.t := by rw [pow_succ]; ring
    have h5 : (f.exp a - f.emin + 1) * 2 ^ f.t = (f.exp a - f.emin) * 2 ^ f.t + 2 ^ f.t := by ring
    omega

theorem pyRound_lt_even {x : Rat} {n : Int} (hn : n % 2 = 0) : pyRound x < n ↔ x < n - 1 / 2 := by
  obtain ⟨a1, a2, a3⟩ := pyRound_nearest x
  constructor
  · intro h
    have h1 : ((pyRound x + 1 : Int) : Rat) ≤ n := by exact_mod_cast h
    push_cast at h1
    by_contra hx
    push Not at hx
    have e : x - pyRound x = 1 / 2 := by linarith
    have := a3 (.inl e)
    have e2 : (n : Rat) = ((pyRound x + 1 : Int) : Rat) := by push_cast; linarith
    have e3 : n = pyRound x + 1 := by exact_mod_cast e2
    omega
  · intro h
    have h1 : (pyRound x : Rat) < n := by linarith
    exact_mod_cast h1

/-- The exponent of the largest numbers. -/
def emax (f : Fmt) : Int := 2 ^ f.w - 3 + f.emin

theorem code_lt_top (hw : 2 ≤ f.w) {a : Rat} (ha : 0 < a) :
    f.code a < f.top ↔ a < (2 ^ (f.t + 1) - 1 / 2) * 2 ^ emax f := by
  have hw4 : (4 : Int) ≤ 2 ^ f.w := by
    calc (4 : Int) = 2 ^ 2 := by norm_num
      _ ≤ _ := pow_le_pow_right₀ (by norm_num) hw
  have htop : (f.top : Int) = (2 ^ f.w - 1) * 2 ^ f.t := by
    unfold Fmt.top
    have : 1 ≤ 2 ^ f.w := Nat.one_le_two_pow
    push_cast [Nat.cast_sub this]
    rfl
  have ca := code_eq (f := f) ha
  have hs : (2 : Int) ^ (f.t + 1) = 2 ^ f.t + 2 ^ f.t := by rw [pow_succ]; ring
  have hpt : (0 : Int) < 2 ^ f.t := by positivity
  have hem : f.emin ≤ emax f := by unfold emax; omega
  have l0 := sig_le (f := f) ha
  rcases lt_trichotomy (f.exp a) (emax f) with he | he | he
  · -- smaller
    constructor
    · intro _
      have h1 := sig_lt (f := f) ha
      rw [div_lt_iff₀ (by positivity)] at h1
      refine h1.trans_le ?_
      have e1 : (2 : Rat) ^ f.exp a ≤ 2 ^ (emax f - 1) := zpow_le_zpow_right₀ (by norm_num) (by omega)
      have e2 : (2 : Rat) ^ emax f = 2 * 2 ^ (emax f - 1) := by rw [zpow_sub_one₀ (by norm_num)]; ring
      have e3 : (1 : Rat) ≤ 2 ^ (f.t + 1) := one_le_pow₀ (by norm_num)
      calc (2 : Rat) ^ (f.t + 1) * 2 ^ f.exp a ≤ 2 ^ (f.t + 1) * 2 ^ (emax f - 1) :=
            mul_le_mul_of_nonneg_left e1 (by positivity)
        _ ≤ (2 * 2 ^ (f.t + 1) - 1) * 2 ^ (emax f - 1) := mul_le_mul_of_nonneg_right (by linarith) (by positivity)
        _ = _ := by rw [e2]; ring
    · intro _
      have h3 : (f.exp a - f.emin) * 2 ^ f.t ≤ (2 ^ f.w - 4) * 2 ^ f.t :=
        mul_le_mul_of_nonneg_right (by unfold emax at he; omega) (by positivity)
      have h4 : ((2 : Int) ^ f.w - 1) * 2 ^ f.t = (2 ^ f.w - 4) * 2 ^ f.t + 2 ^ f.t + 2 ^ f.t + 2 ^ f.t := by ring
      omega
  · -- equal
    have h4 : (f.exp a - f.emin) * 2 ^ f.t = (2 ^ f.w - 3) * 2 ^ f.t := by rw [he]; unfold emax; ring
    have h5 : ((2 : Int) ^ f.w - 1) * 2 ^ f.t = (2 ^ f.w - 3) * 2 ^ f.t + 2 ^ (f.t + 1) := by rw [hs]; ring
    have h6 : f.code a < f.top ↔ sig f a < 2 ^ (f.t + 1) := by omega
    rw [h6]
    unfold sig
    rw [pyRound_lt_even (by rw [pow_succ]; omega), div_lt_iff₀ (by positivity), he]
    push_cast
    rfl
  · -- larger
    constructor
    · intro hlt
      exfalso
      have h2 := le_sig' (f := f) ha (by omega)
      have h3 : (2 ^ f.w - 2) * 2 ^ f.t ≤ (f.exp a - f.emin) * 2 ^ f.t :=
        mul_le_mul_of_nonneg_right (by unfold emax at he; omega) (by positivity)
      have h4 : ((2 : Int) ^ f.w - 1) * 2 ^ f.t = (2 ^ f.w - 2) * 2 ^ f.t + 2 ^ f.t := by ring
      omega
    · intro hlt
      exfalso
      have h2 := le_sig (f := f) ha (by omega)
      rw [le_div_iff₀ (by positivity)] at h2
      have e1 : (2 : Rat) ^ (emax f + 1) ≤ 2 ^ f.exp a := zpow_le_zpow_right₀ (by norm_num) (by omega)
      rw [zpow_add_one₀ (by norm_num)] at e1
      have : (2 : Rat) ^ f.t * (2 ^ emax f * 2) ≤ 2 ^ f.t * 2 ^ f.exp a := mul_le_mul_of_nonneg_left e1 (by positivity)
      have e2 : (2 : Rat) ^ f.t * (2 ^ emax f * 2) = 2 ^ (f.t + 1) * 2 ^ emax f := by ring
      have : (0 : Rat) < 1 / 2 * 2 ^ emax f := by positivity
      linarith

end Cantools.Ieee
