import Verif.Lemmas.IeeeBits
import Mathlib.Tactic.GCongr

namespace Cantools.Ieee
open Spec

variable {f : Fmt}

/-- Integers with few bits, times a power of two, are numbers of the format. -/
theorem in_of_scaled {q : Rat} (j e : Int) (h : q = j * 2 ^ e) (hj : |j| < 2 ^ (f.t + 1)) (he : f.emin ≤ e) : In f q := by
  by_cases h0 : q = 0
  · rw [h0]; exact ⟨0, by rw [value_zero, abs_zero]⟩
  have hp : 0 < |q| := abs_pos.2 h0
  have hlt : |q| < 2 ^ (((f.t + 1 : Nat) : Int) + e) := by
    rw [h, abs_mul, abs_of_pos (by positivity : (0 : Rat) < 2 ^ e), zpow_add₀ (by norm_num), zpow_natCast]
    exact mul_lt_mul_of_pos_right (by exact_mod_cast hj) (by positivity)
  have hl := ilog2_lt hp hlt
  have hexp : f.exp |q| ≤ e := max_le (by push_cast at hl; omega) he
  obtain ⟨d, hd⟩ := Int.eq_ofNat_of_zero_le (by omega : 0 ≤ e - f.exp |q|)
  have hq : q / 2 ^ f.exp |q| = ((j * 2 ^ d : Int) : Rat) := by
    have e1 : e = d + f.exp |q| := by omega
    rw [div_eq_iff (by positivity)]
    conv_lhs => rw [h, e1, zpow_add₀ (by norm_num), zpow_natCast]
    push_cast
    ring
  have hr : f.round q = q := by
    unfold Fmt.round
    rw [if_neg h0, hq, pyRound_int, ← hq]
    field_simp
  rw [← hr]
  exact round_in q

theorem emin64 : binary64.emin = -1074 := by decide

theorem int_in {i : Int} (h : |i| < 2 ^ 53) : In binary64 (i : Rat) :=
  in_of_scaled i 0 (by simp) h (by rw [emin64]; norm_num)

theorem round_error64 {q : Rat} (h : (2 : Rat) ^ (-1022 : Int) ≤ |q|) : |binary64.round q - q| ≤ |q| / 2 ^ 53 :=
  round_error (f := binary64) (by rw [emin64]; exact h)

/-- The error for every number. -/
theorem round_error_any (q : Rat) : |binary64.round q - q| ≤ |q| / 2 ^ 53 + 2 ^ (-1074 : Int) := by
  have hp : (0 : Rat) < 2 ^ (-1074 : Int) := by positivity
  by_cases h : (2 : Rat) ^ (-1022 : Int) ≤ |q|
  · have := round_error64 h
    linarith
  · by_cases h0 : q = 0
    · rw [h0, round_zero]
      simp
    · have h1 := round_error_ulp (f := binary64) h0
      have hl := ilog2_lt (abs_pos.2 h0) (not_le.1 h)
      have he : binary64.exp |q| = -1074 := by
        unfold Fmt.exp
        rw [emin64]
        have : (binary64.t : Int) = 52 := rfl
        omega
      rw [he] at h1
      have : 0 ≤ |q| / 2 ^ 53 := by positivity
      linarith

theorem limit_big : (2 : Rat) ^ (1000 : Int) < Spec.Ieee.double.limit := by
  have h := limit_eq (f := binary64) (by decide)
  have e : emax binary64 = 971 := by decide
  rw [e] at h
  have h' : Spec.Ieee.double.limit = (2 ^ (52 + 1) - 1 / 2) * 2 ^ (971 : Int) := h
  rw [h']
  have e2 : (2 : Rat) ^ (1000 : Int) = 2 ^ 29 * 2 ^ (971 : Int) := by
    rw [show (1000 : Int) = ((29 : Nat) : Int) + 971 by norm_num, zpow_add₀ (by norm_num), zpow_natCast]
  rw [e2]
  exact mul_lt_mul_of_pos_right (by norm_num) (by positivity)

theorem double_eq (q : Rat) : double q = if |q| < Spec.Ieee.double.limit then some (binary64.round q) else none := by
  unfold double
  have := code_abs_lt_top (f := binary64) (by decide) q
  by_cases h : |q| < Spec.Ieee.double.limit
  · rw [if_pos h, if_pos (this.2 h)]
  · rw [if_neg h, if_neg (fun hh => h (this.1 hh))]

theorem double_ok {q : Rat} (h : |q| ≤ 2 ^ (1000 : Int)) : double q = some (binary64.round q) := by
  rw [double_eq, if_pos (h.trans_lt limit_big)]

theorem pow900 : (2 : Rat) ^ (-1022 : Int) ≤ 2 ^ (-900 : Int) := zpow_le_zpow_right₀ (by norm_num) (by norm_num)

theorem pow_big (a : Nat) (h : a ≤ 100) : (2 : Rat) ^ a * 2 ^ (900 : Int) ≤ 2 ^ (1000 : Int) := by
  rw [← zpow_natCast, ← zpow_add₀ (by norm_num)]
  exact zpow_le_zpow_right₀ (by norm_num) (by omega)

/-- The product of a raw value and the scale. -/
theorem product_error {scale : Rat} {raw : Int} (h1 : (2 : Rat) ^ (-900 : Int) ≤ |scale|) :
    |binary64.round (raw * scale) - raw * scale| ≤ |raw * scale| / 2 ^ 53 := by
  by_cases h0 : raw = 0
  · rw [h0]
    simp [round_zero]
  · apply round_error64
    have : (1 : Rat) ≤ |(raw : Rat)| := by
      have : 1 ≤ |raw| := Int.one_le_abs h0
      exact_mod_cast this
    rw [abs_mul]
    calc (2 : Rat) ^ (-1022 : Int) ≤ 2 ^ (-900 : Int) := pow900
      _ ≤ |scale| := h1
      _ ≤ _ := le_mul_of_one_le_left (abs_nonneg _) this

theorem tri3 {x y e : Rat} (h : |x - y| ≤ e) : |x| ≤ |y| + e := by
  have := abs_sub_abs_le_abs_sub x y
  linarith

/-- The scaled value and its error, and the way back. -/
theorem scaling {scale offset : Rat} {raw : Int} (hs1 : (2 : Rat) ^ (-900 : Int) ≤ |scale|)
    (hs2 : |scale| ≤ 2 ^ (900 : Int)) (hoin : In binary64 offset) (hr : |raw| ≤ 2 ^ 49)
    (ho : |offset| ≤ 2 ^ 49 * |scale|) :
    ∃ v, rawToScaled scale offset raw = some v ∧
      |v - (raw * scale + offset)| ≤ (|raw * scale| + |offset|) / 2 ^ 51 ∧
      scaledToRaw scale offset v = some raw := by
  have hS : 0 < |scale| := lt_of_lt_of_le (by positivity) hs1
  have hsne : scale ≠ 0 := abs_pos.1 hS
  have hrR : |(raw : Rat)| ≤ 2 ^ 49 := by exact_mod_cast hr
  -- the raw value
  have e0 : double raw = some (raw : Rat) := by
    rw [double_ok, round_of_in (int_in (lt_of_le_of_lt hr (by norm_num)))]
    refine hrR.trans ?_
    rw [← zpow_natCast]
    exact zpow_le_zpow_right₀ (by norm_num) (by norm_num)
  -- the product
  set S := |scale| with hSdef
  have hx : |raw * scale| ≤ 2 ^ 49 * S := by
    rw [abs_mul]
    exact mul_le_mul_of_nonneg_right hrR (abs_nonneg _)
  have big : ∀ {x : Rat}, |x| ≤ 2 ^ 60 * S → |x| ≤ 2 ^ (1000 : Int) := by
    intro x h
    refine h.trans (le_trans ?_ (pow_big 60 (by norm_num)))
    exact mul_le_mul_of_nonneg_left hs2 (by positivity)
  have e1 : double (raw * scale) = some (binary64.round (raw * scale)) := double_ok (big (by linarith))
  have er1 := product_error (raw := raw) hs1
  set p := binary64.round (raw * scale) with hp
  have hpin : In binary64 p := round_in _
  have hpb := tri3 er1
  have hsum : |p + offset| ≤ |p| + |offset| := abs_add_le _ _
  -- the sum
  have e2 : double (p + offset) = some (binary64.round (p + offset)) := double_ok (big (by linarith))
  have er2 := round_add_error hpin hoin
  have e53 : (2 : Rat) ^ (binary64.t + 1) = 2 ^ 53 := rfl
  rw [e53] at er2
  set v := binary64.round (p + offset) with hv
  have hvin : In binary64 v := round_in _
  have hvo : |v - offset| ≤ |p| + |p + offset| / 2 ^ 53 := by
    have : v - offset = p + (v - (p + offset)) := by ring
    rw [this]
    refine (abs_add_le _ _).trans ?_
    linarith
  -- the difference
  have e3 : double (v - offset) = some (binary64.round (v - offset)) := double_ok (big (by linarith))
  have er3 := round_sub_error hvin hoin
  rw [e53] at er3
  set d := binary64.round (v - offset) with hd
  have hdb := tri3 er3
  -- the quotient
  have hdS : |d| ≤ 2 ^ 50 * S := by linarith
  have hdq : |d / scale| ≤ 2 ^ 50 := by
    rw [abs_div, div_le_iff₀ hS]
    exact hdS
  have e4 : double (d / scale) = some (binary64.round (d / scale)) := by
    apply double_ok
    refine hdq.trans ?_
    rw [← zpow_natCast]
    exact zpow_le_zpow_right₀ (by norm_num) (by norm_num)
  have er4 := round_error_any (d / scale)
  set q := binary64.round (d / scale) with hq
  refine ⟨v, ?_, ?_, ?_⟩
  · unfold rawToScaled
    rw [e0]
    show (double (raw * scale)).bind (fun p => double (p + offset)) = _
    rw [e1]
    exact e2
  · have : v - (raw * scale + offset) = (v - (p + offset)) + (p - raw * scale) := by ring
    rw [this]
    refine (abs_add_le _ _).trans ?_
    have n1 := abs_nonneg (raw * scale)
    have n2 := abs_nonneg offset
    linarith
  · unfold scaledToRaw
    rw [e3]
    show (double (d / scale)).bind (fun q => some (pyRound q)) = _
    rw [e4]
    show some (pyRound q) = some raw
    refine congrArg some ?_
    -- d is near the product
    have hdx : |d - raw * scale| ≤ 5 * 2 ^ 49 / 2 ^ 53 * S := by
      have : d - raw * scale = (d - (v - offset)) + (v - (p + offset)) + (p - raw * scale) := by ring
      rw [this]
      refine (abs_add_le _ _).trans ?_
      have := abs_add_le (d - (v - offset)) (v - (p + offset))
      linarith
    have hdr : |d / scale - raw| ≤ 5 * 2 ^ 49 / 2 ^ 53 := by
      have : d / scale - raw = (d - raw * scale) / scale := by field_simp
      rw [this, abs_div, div_le_iff₀ hS]
      exact hdx
    have tiny : (2 : Rat) ^ (-1074 : Int) ≤ 1 / 32 := by
      have : (2 : Rat) ^ (-1074 : Int) ≤ 2 ^ (-5 : Int) := zpow_le_zpow_right₀ (by norm_num) (by norm_num)
      refine this.trans ?_
      norm_num
    have hqr : |q - raw| < 1 / 2 := by
      have : q - raw = (q - d / scale) + (d / scale - raw) := by ring
      rw [this]
      refine (abs_add_le _ _).trans_lt ?_
      clear_value q d v p
      clear e0 e1 e2 e3 e4 hs1 hs2 big
      linarith
    rw [abs_lt] at hqr
    rw [pyRound_iff]
    refine ⟨by linarith [hqr.1], by linarith [hqr.2], fun h => ?_⟩
    rcases h with h | h <;> linarith [hqr.1, hqr.2]

/-! ### Limits -/

theorem pow20 : (2 : Rat) ^ (-1022 : Int) ≤ 2 ^ (-900 : Int) / 2 ^ 21 := by
  rw [← zpow_natCast, ← zpow_sub₀ (by norm_num)]
  exact zpow_le_zpow_right₀ (by norm_num) (by norm_num)

theorem millionth_near : |millionth - 1 / 1000000| ≤ 1 / 1000000 / 2 ^ 53 := by
  have h := round_error64 (q := 1 / 1000000) (by
    rw [abs_of_pos (by norm_num)]
    have : (2 : Rat) ^ (-1022 : Int) ≤ 2 ^ (-20 : Int) := zpow_le_zpow_right₀ (by norm_num) (by norm_num)
    refine this.trans ?_
    norm_num)
  rwa [abs_of_pos (by norm_num : (0 : Rat) < 1 / 1000000)] at h

/-- The tolerance is close to a millionth of the scale. -/
theorem tolerance {scale : Rat} (hs1 : (2 : Rat) ^ (-900 : Int) ≤ |scale|) (hs2 : |scale| ≤ 2 ^ (900 : Int)) :
    ∃ tol, double (|scale| * millionth) = some tol ∧ In binary64 tol ∧ |scale| * (99 / 100000000) ≤ tol ∧
      tol ≤ |scale| * (3 / 2000000) := by
  have hS : 0 < |scale| := lt_of_lt_of_le (by positivity) hs1
  have hm := abs_le.1 millionth_near
  have hm1 : (1 : Rat) / 2 ^ 21 ≤ millionth := by
    have : (1 : Rat) / 2 ^ 21 ≤ 1 / 1000000 - 1 / 1000000 / 2 ^ 53 := by norm_num
    linarith [hm.1]
  have hm2 : millionth ≤ 1 := by
    have : (1 : Rat) / 1000000 + 1 / 1000000 / 2 ^ 53 ≤ 1 := by norm_num
    linarith [hm.2]
  have hmpos : 0 < millionth := lt_of_lt_of_le (by norm_num) hm1
  have habs : |(|scale| * millionth)| = |scale| * millionth := abs_of_pos (mul_pos hS hmpos)
  have hok : double (|scale| * millionth) = some (binary64.round (|scale| * millionth)) := by
    apply double_ok
    rw [habs]
    calc |scale| * millionth ≤ |scale| * 1 := mul_le_mul_of_nonneg_left hm2 hS.le
      _ ≤ 2 ^ (900 : Int) := by rw [mul_one]; exact hs2
      _ ≤ _ := zpow_le_zpow_right₀ (by norm_num) (by norm_num)
  have her := round_error64 (q := |scale| * millionth) (by
    rw [habs]
    refine pow20.trans ?_
    calc (2 : Rat) ^ (-900 : Int) / 2 ^ 21 ≤ |scale| / 2 ^ 21 := div_le_div_of_nonneg_right hs1 (by positivity)
      _ = |scale| * (1 / 2 ^ 21) := by ring
      _ ≤ _ := mul_le_mul_of_nonneg_left hm1 hS.le)
  rw [habs] at her
  have her := abs_le.1 her
  refine ⟨_, hok, round_in _, ?_, ?_⟩
  · have h1 : |scale| * (1 / 1000000 - 1 / 1000000 / 2 ^ 53) ≤ |scale| * millionth :=
      mul_le_mul_of_nonneg_left (by linarith [hm.1]) hS.le
    have h2 : |scale| * (99 / 100000000) ≤ |scale| * (1 / 1000000 - 1 / 1000000 / 2 ^ 53) * (1 - 1 / 2 ^ 53) := by
      rw [mul_assoc]
      exact mul_le_mul_of_nonneg_left (by norm_num) hS.le
    have h3 : |scale| * (1 / 1000000 - 1 / 1000000 / 2 ^ 53) * (1 - 1 / 2 ^ 53) ≤ |scale| * millionth * (1 - 1 / 2 ^ 53) :=
      mul_le_mul_of_nonneg_right h1 (by norm_num)
    have h4 : |scale| * millionth * (1 - 1 / 2 ^ 53) = |scale| * millionth - |scale| * millionth / 2 ^ 53 := by ring
    linarith [her.1]
  · have h1 : |scale| * millionth ≤ |scale| * (1 / 1000000 + 1 / 1000000 / 2 ^ 53) :=
      mul_le_mul_of_nonneg_left (by linarith [hm.2]) hS.le
    have h2 : |scale| * (1 / 1000000 + 1 / 1000000 / 2 ^ 53) * (1 + 1 / 2 ^ 53) ≤ |scale| * (3 / 2000000) := by
      rw [mul_assoc]
      exact mul_le_mul_of_nonneg_left (by norm_num) hS.le
    have h3 : |scale| * millionth * (1 + 1 / 2 ^ 53) ≤ |scale| * (1 / 1000000 + 1 / 1000000 / 2 ^ 53) * (1 + 1 / 2 ^ 53) :=
      mul_le_mul_of_nonneg_right h1 (by norm_num)
    have h4 : |scale| * millionth * (1 + 1 / 2 ^ 53) = |scale| * millionth + |scale| * millionth / 2 ^ 53 := by ring
    linarith [her.2]

theorem double_some {q v : Rat} (h : double q = some v) : v = binary64.round q := by
  unfold double at h
  split at h
  · injection h with h; exact h.symm
  · cases h

theorem rawToScaled_some {scale offset v : Rat} {raw : Int} (h : rawToScaled scale offset raw = some v)
    (hr : |raw| < 2 ^ 53) : v = binary64.round (binary64.round (raw * scale) + offset) := by
  unfold rawToScaled at h
  cases h1 : double raw with
  | none => rw [h1] at h; cases h
  | some r =>
    have e1 := double_some h1
    rw [round_of_in (int_in hr)] at e1
    rw [h1] at h
    change (double (r * scale)).bind (fun p => double (p + offset)) = some v at h
    cases h2 : double (r * scale) with
    | none => rw [h2] at h; cases h
    | some p =>
      rw [h2] at h
      change double (p + offset) = some v at h
      rw [double_some h, double_some h2, e1]

/-- Values within the limits are never rejected. -/
theorem not_outside {scale offset v : Rat} {raw : Int} {minimum maximum : Option Rat}
    (hs1 : (2 : Rat) ^ (-900 : Int) ≤ |scale|) (hs2 : |scale| ≤ 2 ^ (900 : Int)) (hr : |raw| ≤ 2 ^ 33)
    (hv : rawToScaled scale offset raw = some v)
    (hmin : ∀ m, minimum = some m → m ≤ raw * scale + offset)
    (hmax : ∀ m, maximum = some m → raw * scale + offset ≤ m) :
    outside scale minimum maximum v = some false := by
  obtain ⟨tol, ht, -, ht1, -⟩ := tolerance hs1 hs2
  have hv' := rawToScaled_some hv (lt_of_le_of_lt hr (by norm_num))
  have er := product_error (raw := raw) hs1
  have hrR : |(raw : Rat)| ≤ 2 ^ 33 := by exact_mod_cast hr
  have hp : |binary64.round (raw * scale) - raw * scale| ≤ tol := by
    refine er.trans (le_trans ?_ ht1)
    rw [abs_mul]
    have := mul_le_mul_of_nonneg_right hrR (abs_nonneg scale)
    have := abs_nonneg scale
    linarith
  have hp := abs_le.1 hp
  have b : below minimum tol v = false := by
    unfold below
    cases minimum with
    | none => rfl
    | some m =>
      dsimp only
      cases hd : double (m - tol) with
      | none => rfl
      | some x =>
        have := hmin m rfl
        have hx : x ≤ v := by
          rw [double_some hd, hv']
          exact round_mono (by linarith [hp.1])
        exact decide_eq_false (not_lt.2 hx)
  have a : above maximum tol v = false := by
    unfold above
    cases maximum with
    | none => rfl
    | some m =>
      dsimp only
      cases hd : double (m + tol) with
      | none => rfl
      | some x =>
        have := hmax m rfl
        have hx : v ≤ x := by
          rw [double_some hd, hv']
          exact round_mono (by linarith [hp.2])
        exact decide_eq_false (not_lt.2 hx)
  unfold outside
  rw [ht]
  show some (below minimum tol v || above maximum tol v) = some false
  rw [b, a]
  rfl

/-- Values clearly outside of the limits are rejected. -/
theorem outside_true {scale v m : Rat} {minimum maximum : Option Rat}
    (hs1 : (2 : Rat) ^ (-900 : Int) ≤ |scale|) (hs2 : |scale| ≤ 2 ^ (900 : Int))
    (hin : In binary64 m) (hm : |m| ≤ 2 ^ (900 : Int))
    (h : (minimum = some m ∧ v + |scale| / 500000 + |m| / 2 ^ 53 < m) ∨
      (maximum = some m ∧ m + |scale| / 500000 + |m| / 2 ^ 53 < v)) :
    outside scale minimum maximum v = some true := by
  have hS : 0 < |scale| := lt_of_lt_of_le (by positivity) hs1
  obtain ⟨tol, ht, htin, ht1, ht2⟩ := tolerance hs1 hs2
  have htpos : 0 < tol := lt_of_lt_of_le (by positivity) ht1
  have htb : tol ≤ 2 ^ (900 : Int) := by
    refine ht2.trans (le_trans ?_ hs2)
    have : |scale| * (3 / 2000000) ≤ |scale| * 1 := mul_le_mul_of_nonneg_left (by norm_num) hS.le
    linarith
  have hbig : |m| + tol ≤ 2 ^ (1000 : Int) := by
    refine (add_le_add hm htb).trans ?_
    rw [← two_mul]
    have := pow_big 1 (by norm_num)
    rwa [pow_one] at this
  unfold outside
  rw [ht]
  show some (below minimum tol v || above maximum tol v) = some true
  rcases h with ⟨rfl, h⟩ | ⟨rfl, h⟩
  · have e := round_sub_error hin htin
    have e53 : (2 : Rat) ^ (binary64.t + 1) = 2 ^ 53 := rfl
    rw [e53] at e
    have hab : |m - tol| ≤ |m| + tol := by
      have := abs_sub m tol
      rwa [abs_of_pos htpos] at this
    have e := (abs_le.1 e).1
    have b : below (some m) tol v = true := by
      unfold below
      dsimp only
      rw [double_ok (hab.trans hbig)]
      exact decide_eq_true (by linarith)
    rw [b]
    rfl
  · have e := round_add_error hin htin
    have e53 : (2 : Rat) ^ (binary64.t + 1) = 2 ^ 53 := rfl
    rw [e53] at e
    have hab : |m + tol| ≤ |m| + tol := by
      have := abs_add_le m tol
      rwa [abs_of_pos htpos] at this
    have e := (abs_le.1 e).2
    have b : above (some m) tol v = true := by
      unfold above
      dsimp only
      rw [double_ok (hab.trans hbig)]
      exact decide_eq_true (by linarith)
    rw [b]
    simp

/-! ### Decimal numbers -/

theorem floatOf_in {q v : Rat} (h : Spec.Ieee.IsFloatOf q v) : In binary64 v := by
  obtain ⟨l, h⟩ := h
  exact in_of_number (f := binary64) h.length h.value

/-- A pattern for every number of the format that is small enough. -/
theorem number_of_in {v : Rat} (h : In binary64 v) (hb : |v| < Spec.Ieee.double.limit) :
    ∃ l, l.length = Spec.Ieee.double.length ∧ Spec.Ieee.double.number? l = some v := by
  obtain ⟨l, h1, h2⟩ := (isDouble_iff v).2 ⟨h, hb⟩
  exact ⟨l, h1, h2⟩

theorem limit_lt_in {v : Rat} (h : In binary64 v) (hb : |v| ≤ 2 ^ (1000 : Int)) :
    ∃ l, l.length = Spec.Ieee.double.length ∧ Spec.Ieee.double.number? l = some v :=
  number_of_in h (hb.trans_lt limit_big)

theorem in_pow1000 : In binary64 ((2 : Rat) ^ (1000 : Int)) :=
  in_of_scaled 1 1000 (by norm_num) (by decide) (by rw [emin64]; norm_num)

theorem round_big {q : Rat} (h : |q| ≤ 2 ^ (1000 : Int)) : |binary64.round q| ≤ 2 ^ (1000 : Int) := by
  rw [abs_round, ← round_of_in in_pow1000]
  exact round_mono h

theorem floatOf_best {q v : Rat} (h : Spec.Ieee.IsFloatOf q v) (hq : |q| ≤ 2 ^ (1000 : Int)) :
    |v - q| ≤ |binary64.round q - q| := by
  obtain ⟨l, h⟩ := h
  obtain ⟨l', h1, h2⟩ := limit_lt_in (round_in (f := binary64) q) (round_big hq)
  exact h.closest l' _ h1 h2

/-- The number for a decimal number above `x` is not much below `x`. -/
theorem le_floatOf {m' m x : Rat} (h : Spec.Ieee.IsFloatOf m' m) (hx : x ≤ m') (hxb : |x| ≤ 2 ^ (1000 : Int)) :
    x - |binary64.round x - x| ≤ m := by
  by_contra hlt
  push Not at hlt
  obtain ⟨l, h⟩ := h
  obtain ⟨l', h1, h2⟩ := limit_lt_in (round_in (f := binary64) x) (round_big hxb)
  have hc := h.closest l' _ h1 h2
  have n0 := abs_nonneg (binary64.round x - x)
  rw [abs_of_neg (by linarith : m - m' < 0)] at hc
  rcases le_total (binary64.round x) m' with hr | hr
  · rw [abs_of_nonpos (by linarith)] at hc
    have := neg_abs_le (binary64.round x - x)
    linarith
  · rw [abs_of_nonneg (by linarith)] at hc
    have := le_abs_self (binary64.round x - x)
    linarith

theorem floatOf_le {m' m x : Rat} (h : Spec.Ieee.IsFloatOf m' m) (hx : m' ≤ x) (hxb : |x| ≤ 2 ^ (1000 : Int)) :
    m ≤ x + |binary64.round x - x| := by
  by_contra hlt
  push Not at hlt
  obtain ⟨l, h⟩ := h
  obtain ⟨l', h1, h2⟩ := limit_lt_in (round_in (f := binary64) x) (round_big hxb)
  have hc := h.closest l' _ h1 h2
  have n0 := abs_nonneg (binary64.round x - x)
  rw [abs_of_pos (by linarith : 0 < m - m')] at hc
  rcases le_total m' (binary64.round x) with hr | hr
  · rw [abs_of_nonneg (by linarith)] at hc
    have := le_abs_self (binary64.round x - x)
    linarith
  · rw [abs_of_nonpos (by linarith)] at hc
    have := neg_abs_le (binary64.round x - x)
    linarith

theorem tiny_scale {S : Rat} (h : (2 : Rat) ^ (-899 : Int) ≤ S) : (2 : Rat) ^ (-1074 : Int) ≤ S / 2 ^ 40 := by
  rw [le_div_iff₀ (by positivity), ← zpow_natCast, ← zpow_add₀ (by norm_num)]
  exact le_trans (zpow_le_zpow_right₀ (by norm_num) (by norm_num)) h

/-- The bounds of the scale. -/
theorem decimal_scale {scale' scale : Rat}
    (hs1 : (2 : Rat) ^ (-899 : Int) ≤ |scale'|) (hs2 : |scale'| ≤ 2 ^ (899 : Int))
    (hsc : Spec.Ieee.IsFloatOf scale' scale) :
    |scale - scale'| ≤ |scale'| / 2 ^ 53 ∧ |scale'| * (1 - 1 / 2 ^ 53) ≤ |scale| ∧
      (2 : Rat) ^ (-900 : Int) ≤ |scale| ∧ |scale| ≤ 2 ^ (900 : Int) := by
  have hS : 0 < |scale'| := lt_of_lt_of_le (by positivity) hs1
  have big : ∀ {x : Rat}, |x| ≤ 2 ^ 60 * |scale'| → |x| ≤ 2 ^ (1000 : Int) := by
    intro x h
    refine h.trans (le_trans ?_ (pow_big 60 (by norm_num)))
    refine mul_le_mul_of_nonneg_left (hs2.trans ?_) (by positivity)
    exact zpow_le_zpow_right₀ (by norm_num) (by norm_num)
  -- the scale
  have es : |scale - scale'| ≤ |scale'| / 2 ^ 53 := by
    refine (floatOf_best hsc (big (by linarith))).trans ?_
    apply round_error64
    exact le_trans (zpow_le_zpow_right₀ (by norm_num) (by norm_num)) hs1
  have es' := abs_sub_abs_le_abs_sub scale' scale
  rw [abs_sub_comm scale'] at es'
  have es'' := abs_sub_abs_le_abs_sub scale scale'
  have hl : |scale'| * (1 - 1 / 2 ^ 53) ≤ |scale| := by linarith
  have hs1' : (2 : Rat) ^ (-900 : Int) ≤ |scale| := by
    have : (2 : Rat) ^ (-900 : Int) = 2 ^ (-899 : Int) / 2 := by
      rw [show (-900 : Int) = -899 - 1 by norm_num, zpow_sub_one₀ (by norm_num)]; ring
    rw [this]
    have : |scale'| / 2 ≤ |scale'| * (1 - 1 / 2 ^ 53) := by
      rw [div_eq_mul_one_div]
      exact mul_le_mul_of_nonneg_left (by norm_num) hS.le
    have : (2 : Rat) ^ (-899 : Int) / 2 ≤ |scale'| / 2 := div_le_div_of_nonneg_right hs1 (by norm_num)
    linarith
  have hs2' : |scale| ≤ 2 ^ (900 : Int) := by
    have : (2 : Rat) ^ (900 : Int) = 2 ^ (899 : Int) * 2 := by
      rw [show (900 : Int) = 899 + 1 by norm_num, zpow_add_one₀ (by norm_num)]
    rw [this]
    refine le_trans (b := |scale'| * 2) (by linarith) ?_
    exact mul_le_mul_of_nonneg_right hs2 (by norm_num)
  exact ⟨es, hl, hs1', hs2'⟩

/-- The scaled value of decimal numbers. -/
theorem decimal_scaling {scale' offset' scale offset : Rat} {raw : Int}
    (hs1 : (2 : Rat) ^ (-899 : Int) ≤ |scale'|) (hs2 : |scale'| ≤ 2 ^ (899 : Int))
    (hr : 3 * |(raw : Rat) * scale'| + 2 * |offset'| ≤ 2 ^ 33 * |scale'|)
    (hsc : Spec.Ieee.IsFloatOf scale' scale) (hof : Spec.Ieee.IsFloatOf offset' offset) :
    ∃ v, rawToScaled scale offset raw = some v ∧ |v - (raw * scale' + offset')| ≤ |scale'| / 2 ^ 18 ∧
      scaledToRaw scale offset v = some raw := by
  have hS : 0 < |scale'| := lt_of_lt_of_le (by positivity) hs1
  have tiny := tiny_scale hs1
  have big : ∀ {x : Rat}, |x| ≤ 2 ^ 60 * |scale'| → |x| ≤ 2 ^ (1000 : Int) := by
    intro x h
    refine h.trans (le_trans ?_ (pow_big 60 (by norm_num)))
    refine mul_le_mul_of_nonneg_left (hs2.trans ?_) (by positivity)
    exact zpow_le_zpow_right₀ (by norm_num) (by norm_num)
  have n1 := abs_nonneg ((raw : Rat) * scale')
  have n2 := abs_nonneg offset'
  obtain ⟨es, hl, hs1', hs2'⟩ := decimal_scale hs1 hs2 hsc
  have e2 : |raw * scale - raw * scale'| ≤ |(raw : Rat) * scale'| / 2 ^ 53 := by
    rw [← mul_sub, abs_mul, abs_mul, mul_div_assoc]
    exact mul_le_mul_of_nonneg_left es (abs_nonneg _)
  have e3 := tri3 e2
  have e4 : |offset - offset'| ≤ |offset'| / 2 ^ 53 + 2 ^ (-1074 : Int) :=
    (floatOf_best hof (big (by linarith))).trans (round_error_any _)
  have e5 := tri3 e4
  have hraw : |raw| ≤ 2 ^ 49 := by
    have h1 : |(raw : Rat)| * |scale'| ≤ 2 ^ 33 * |scale'| := by rw [← abs_mul]; linarith
    have h2 : |(raw : Rat)| ≤ 2 ^ 33 := le_of_mul_le_mul_right h1 hS
    have h3 : |raw| ≤ 2 ^ 33 := by exact_mod_cast h2
    exact h3.trans (by norm_num)
  have ho : |offset| ≤ 2 ^ 49 * |scale| := by linarith
  obtain ⟨v, h1, h2, h3⟩ := scaling hs1' hs2' (floatOf_in hof) hraw ho
  refine ⟨v, h1, ?_, h3⟩
  have : v - (raw * scale' + offset') = (v - (raw * scale + offset)) + (raw * scale - raw * scale') + (offset - offset') := by ring
  rw [this]
  refine (abs_add_le _ _).trans ?_
  have := abs_add_le (v - (raw * scale + offset)) (raw * scale - raw * scale')
  linarith

/-- Values within the limits of the file are never rejected. -/
theorem decimal_not_outside {scale' offset' scale offset v : Rat} {raw : Int} {minimum' maximum' minimum maximum : Option Rat}
    (hs1 : (2 : Rat) ^ (-899 : Int) ≤ |scale'|) (hs2 : |scale'| ≤ 2 ^ (899 : Int))
    (hr : 3 * |(raw : Rat) * scale'| + 2 * |offset'| ≤ 2 ^ 33 * |scale'|)
    (hsc : Spec.Ieee.IsFloatOf scale' scale) (hof : Spec.Ieee.IsFloatOf offset' offset)
    (hmn : ∀ m, minimum = some m → ∃ m', minimum' = some m' ∧ Spec.Ieee.IsFloatOf m' m)
    (hmx : ∀ m, maximum = some m → ∃ m', maximum' = some m' ∧ Spec.Ieee.IsFloatOf m' m)
    (hv : rawToScaled scale offset raw = some v)
    (hmin : ∀ m, minimum' = some m → m ≤ raw * scale' + offset')
    (hmax : ∀ m, maximum' = some m → raw * scale' + offset' ≤ m) :
    outside scale minimum maximum v = some false := by
  have hS : 0 < |scale'| := lt_of_lt_of_le (by positivity) hs1
  have tiny := tiny_scale hs1
  have big : ∀ {x : Rat}, |x| ≤ 2 ^ 60 * |scale'| → |x| ≤ 2 ^ (1000 : Int) := by
    intro x h
    refine h.trans (le_trans ?_ (pow_big 60 (by norm_num)))
    refine mul_le_mul_of_nonneg_left (hs2.trans ?_) (by positivity)
    exact zpow_le_zpow_right₀ (by norm_num) (by norm_num)
  have n1 := abs_nonneg ((raw : Rat) * scale')
  have n2 := abs_nonneg offset'
  obtain ⟨es, hl, hs1', hs2'⟩ := decimal_scale hs1 hs2 hsc
  obtain ⟨tol, ht, -, ht1, -⟩ := tolerance hs1' hs2'
  -- the product
  have e1 := product_error (raw := raw) hs1'
  have e2 : |raw * scale - raw * scale'| ≤ |(raw : Rat) * scale'| / 2 ^ 53 := by
    rw [← mul_sub, abs_mul, abs_mul, mul_div_assoc]
    exact mul_le_mul_of_nonneg_left es (abs_nonneg _)
  have e3 := tri3 e2
  -- the offset
  have e4 : |offset - offset'| ≤ |offset'| / 2 ^ 53 + 2 ^ (-1074 : Int) :=
    (floatOf_best hof (big (by linarith))).trans (round_error_any _)
  -- the exact value
  have e5 : |raw * scale' + offset'| ≤ |(raw : Rat) * scale'| + |offset'| := abs_add_le _ _
  have e6 := round_error_any (raw * scale' + offset')
  have xb : |raw * scale' + offset'| ≤ 2 ^ (1000 : Int) := big (by linarith)
  have hr53 : |raw| < 2 ^ 53 := by
    have h1 : |(raw : Rat)| * |scale'| ≤ 2 ^ 33 * |scale'| := by rw [← abs_mul]; linarith
    have h2 : |(raw : Rat)| ≤ 2 ^ 33 := le_of_mul_le_mul_right h1 hS
    have h3 : |raw| ≤ 2 ^ 33 := by exact_mod_cast h2
    exact lt_of_le_of_lt h3 (by norm_num)
  have hv' := rawToScaled_some hv hr53
  set x := raw * scale' + offset' with hx
  set p := binary64.round (raw * scale) with hp
  set r := |binary64.round x - x| with hrr
  have a1 := abs_le.1 e1
  have a2 := abs_le.1 e2
  have a4 := abs_le.1 e4
  have near : p + offset ≤ x - r + tol ∧ x + r - tol ≤ p + offset := by
    constructor
    · linarith [a1.2, a2.2, a4.2]
    · linarith [a1.1, a2.1, a4.1]
  have b : below minimum tol v = false := by
    unfold below
    cases hm : minimum with
    | none => rfl
    | some m =>
      dsimp only
      cases hd : double (m - tol) with
      | none => rfl
      | some y =>
        obtain ⟨m', h1, h2⟩ := hmn m hm
        have h3 := floatOf_le h2 (hmin m' h1) xb
        have hy : y ≤ v := by
          rw [double_some hd, hv']
          exact round_mono (by linarith [near.2])
        exact decide_eq_false (not_lt.2 hy)
  have a : above maximum tol v = false := by
    unfold above
    cases hm : maximum with
    | none => rfl
    | some m =>
      dsimp only
      cases hd : double (m + tol) with
      | none => rfl
      | some y =>
        obtain ⟨m', h1, h2⟩ := hmx m hm
        have h3 := le_floatOf h2 (hmax m' h1) xb
        have hy : v ≤ y := by
          rw [double_some hd, hv']
          exact round_mono (by linarith [near.1])
        exact decide_eq_false (not_lt.2 hy)
  unfold outside
  rw [ht]
  show some (below minimum tol v || above maximum tol v) = some false
  rw [b, a]
  rfl

theorem floatOf_round {q v : Rat} (h : binary64.code |q| < binary64.top) (hv : binary64.round q = v) :
    Spec.Ieee.IsFloatOf q v := ⟨packed binary64 q, hv ▸ nearest_packed (by decide) h⟩

end Cantools.Ieee
