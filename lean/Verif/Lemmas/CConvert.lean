import Verif.Model.CConvert
import Verif.Lemmas.IeeeScaling
import Verif.Lemmas.CSegments
import Verif.Spec.CConvert

namespace Cantools.C
open Cantools Ieee

/-! ### Integers -/

theorem pyInt_mono {x y : Rat} (h : x ≤ y) : pyInt x ≤ pyInt y := by
  unfold pyInt
  by_cases hx : 0 ≤ x
  · rw [if_pos hx, if_pos (hx.trans h)]
    exact Rat.floor_monotone h
  · rw [if_neg hx]
    by_cases hy : 0 ≤ y
    · rw [if_pos hy]
      have h1 : x.ceil ≤ 0 := Rat.ceil_le_iff.2 (by push_cast; linarith)
      have h2 : 0 ≤ y.floor := Rat.le_floor_iff.2 (by push_cast; exact hy)
      omega
    · rw [if_neg hy]
      exact Rat.ceil_le_iff.2 (h.trans Rat.le_ceil)

theorem cRound_mono {x y : Rat} (h : x ≤ y) : cRound x ≤ cRound y := by
  unfold cRound
  by_cases hx : x < 0
  · rw [if_pos hx]
    by_cases hy : y < 0
    · rw [if_pos hy]
      exact Rat.ceil_le_iff.2 (le_trans (by linarith) Rat.le_ceil)
    · rw [if_neg hy]
      have h1 : (x - 1 / 2).ceil ≤ 0 := Rat.ceil_le_iff.2 (by push_cast; linarith)
      have h2 : 0 ≤ (y + 1 / 2).floor := Rat.le_floor_iff.2 (by push_cast; linarith)
      omega
  · rw [if_neg hx, if_neg (by linarith)]
    exact Rat.floor_monotone (by linarith)

/-- Rounding gives the integer that is near. -/
theorem cRound_near {q : Rat} {i : Int} (h : |q - i| < 1 / 2) : cRound q = i := by
  rw [abs_lt] at h
  unfold cRound
  by_cases hq : q < 0
  · rw [if_pos hq]
    apply le_antisymm
    · exact Rat.ceil_le_iff.2 (by linarith [h.2])
    · have : i - 1 < (q - 1 / 2).ceil := Rat.lt_ceil_iff.2 (by push_cast; linarith [h.1])
      omega
  · rw [if_neg hq]
    apply le_antisymm
    · have : (q + 1 / 2).floor < i + 1 := Rat.floor_lt_iff.2 (by push_cast; linarith [h.2])
      omega
    · exact Rat.le_floor_iff.2 (by linarith [h.1])

/-- The distance of rounding. -/
theorem cRound_error (q : Rat) : |q - cRound q| ≤ 1 / 2 := by
  unfold cRound
  rw [abs_le]
  by_cases hq : q < 0
  · rw [if_pos hq]
    have h1 : q - 1 / 2 ≤ ((q - 1 / 2).ceil : Rat) := Rat.le_ceil
    have h2 : ((q - 1 / 2).ceil : Rat) < (q - 1 / 2) + 1 := Rat.ceil_lt
    constructor <;> linarith
  · rw [if_neg hq]
    have h1 := Rat.floor_le (q + 1 / 2)
    have h2 := Rat.lt_floor_add_one (q + 1 / 2)
    push_cast at h2
    constructor <;> linarith

/-- Without rounding, an integer that is near is missed by one at most. -/
theorem pyInt_near {q : Rat} {i : Int} (h : |q - i| < 1 / 2) :
    |pyInt q| ≤ |i| ∧ |i| ≤ |pyInt q| + 1 ∧ (0 ≤ i → 0 ≤ pyInt q) ∧ (i ≤ 0 → pyInt q ≤ 0) := by
  rw [abs_lt] at h
  unfold pyInt
  by_cases hq : 0 ≤ q
  · rw [if_pos hq]
    have h1 : 0 ≤ q.floor := Rat.le_floor_iff.2 (by push_cast; exact hq)
    have h2 : q.floor < i + 1 := Rat.floor_lt_iff.2 (by push_cast; linarith [h.2])
    have h3 : i - 1 ≤ q.floor := Rat.le_floor_iff.2 (by push_cast; linarith [h.1])
    have h4 : 0 ≤ i := by omega
    rw [abs_of_nonneg h1, abs_of_nonneg h4]
    omega
  · rw [if_neg hq]
    have h1 : q.ceil ≤ 0 := Rat.ceil_le_iff.2 (by push_cast; linarith)
    have h2 : i - 1 < q.ceil := Rat.lt_ceil_iff.2 (by push_cast; linarith [h.1])
    have h3 : q.ceil ≤ i + 1 := Rat.ceil_le_iff.2 (by push_cast; linarith [h.2])
    have h4 : i ≤ 0 := by omega
    rw [abs_of_nonpos h1, abs_of_nonpos h4]
    omega

/-! ### Operations -/

variable {f : Fmt}

theorem arith_double (q : Rat) : arith binary64 q = double q := rfl

theorem arith_some {q v : Rat} (h : arith f q = some v) : v = f.round q := by
  unfold arith at h
  split at h
  · injection h with h; exact h.symm
  · cases h

theorem arith_ok (hw : 2 ≤ f.w) {q : Rat} (h : |q| < f.spec.limit) : arith f q = some (f.round q) :=
  if_pos ((code_abs_lt_top hw q).2 h)

theorem arith_lt (hw : 2 ≤ f.w) {q v : Rat} (h : arith f q = some v) : |q| < f.spec.limit := by
  unfold arith at h
  split at h
  · rename_i h'
    exact (code_abs_lt_top hw q).1 h'
  · cases h

/-- A finite number of the format. -/
def Finite (f : Fmt) (v : Rat) : Prop := In f v ∧ |v| < f.spec.limit

theorem arith_finite (hw : 2 ≤ f.w) {v : Rat} (h : Finite f v) : arith f v = some v := by
  rw [arith_ok hw h.2, round_of_in h.1]

theorem finite_arith (hw : 2 ≤ f.w) {q v : Rat} (h : arith f q = some v) : Finite f v := by
  have hv := arith_some h
  refine ⟨hv ▸ round_in q, ?_⟩
  have hc : f.code |q| < f.top := (code_abs_lt_top hw q).2 (arith_lt hw h)
  rw [← code_abs_lt_top hw, hv, abs_round, ← value_code_abs]
  by_cases h0 : f.code |q| = 0
  · rw [h0, value_zero, code_zero, ← h0]; exact hc
  · rw [code_value _ h0]; exact hc

theorem one_in (h : f.emin ≤ 0) : In f 1 :=
  in_of_scaled 1 0 (by norm_num) (by
    rw [abs_one]
    exact one_lt_pow₀ (by norm_num) (by omega)) h

/-- The formats in use. -/
structure Usable (f : Fmt) : Prop where
  w : 2 ≤ f.w
  t : 9 ≤ f.t
  emin : f.emin ≤ -5
  one : (1 : Rat) < f.spec.limit

theorem usable (b : Bool) : Usable (fpType b) := by
  cases b
  · exact ⟨by decide, by decide, by decide, by decide +kernel⟩
  · exact ⟨by decide, by decide, by decide, by decide +kernel⟩

theorem arith_one (hu : Usable f) : arith f 1 = some 1 :=
  arith_finite hu.w ⟨one_in (by have := hu.emin; omega), by rw [abs_one]; exact hu.one⟩

theorem arith_zero : arith f 0 = if f.code 0 < f.top then some 0 else none := by
  unfold arith
  rw [abs_zero, round_zero]

theorem arith_zero' (hu : Usable f) : arith f 0 = some 0 := by
  rw [arith_ok hu.w (by rw [abs_zero]; linarith [hu.one]), round_zero]

/-! ### Expressions -/

/-- Both operations, whatever the expression looks like. -/
theorem plainEncode_eval (hu : Usable f) {v : Rat} (hv : Finite f v) (scale offset : Rat) :
    (plainEncodeExpr scale offset).eval f v =
      (arith f offset).bind fun o => (arith f (v - o)).bind fun d => (arith f scale).bind fun s => cDiv f d s := by
  have hvv := arith_finite hu.w hv
  unfold plainEncodeExpr
  split
  · rename_i h
    rw [h.1, h.2, arith_zero' hu, arith_one hu]
    simp [sub_zero, hvv, cDiv, div_one, Expr.eval]
  · split
    · cases h1 : arith f offset with
      | none => simp [Expr.eval, h1]
      | some o =>
        cases h2 : arith f (v - o) with
        | none => simp [Expr.eval, h1, h2]
        | some d =>
          cases h3 : arith f scale with
          | none => simp [Expr.eval, h1, h2, h3]
          | some s => simp [Expr.eval, h1, h2, h3]
    · rename_i h1 h2
      split
      · rename_i h3
        have hs : scale = 1 := by
          by_contra hs
          exact h2 ⟨h3, hs⟩
        rw [hs, arith_one hu]
        cases h4 : arith f offset with
        | none => simp [Expr.eval, h4]
        | some o =>
          cases h5 : arith f (v - o) with
          | none => simp [Expr.eval, h4, h5]
          | some d =>
            have := arith_finite hu.w (finite_arith hu.w h5)
            simp [Expr.eval, h4, h5, cDiv, this]
      · rename_i h3
        have ho : offset = 0 := by
          by_contra ho
          exact h3 ho
        rw [ho, arith_zero' hu]
        cases h4 : arith f scale with
        | none => simp [Expr.eval, h4]
        | some s => simp [Expr.eval, h4, hvv]

theorem decode_eval (hu : Usable f) (raw scale offset : Rat) :
    (decodeExpr scale offset).eval f raw =
      (arith f raw).bind fun r => (arith f scale).bind fun s => (arith f (r * s)).bind fun p => (arith f offset).bind fun o =>
        arith f (p + o) := by
  unfold decodeExpr
  cases h0 : arith f raw with
  | none =>
    split
    · simp [Expr.eval, h0]
    · split
      · simp [Expr.eval, h0]
      · split <;> simp [Expr.eval, h0]
  | some r =>
    have hr := arith_finite hu.w (finite_arith hu.w h0)
    split
    · rename_i h
      rw [h.1, h.2, arith_zero' hu, arith_one hu]
      simp [Expr.eval, h0, hr]
    · split
      · cases h1 : arith f scale with
        | none => simp [Expr.eval, h0, h1]
        | some s =>
          cases h2 : arith f (r * s) with
          | none => simp [Expr.eval, h0, h1, h2]
          | some p =>
            cases h3 : arith f offset with
            | none => simp [Expr.eval, h0, h1, h2, h3]
            | some o => simp [Expr.eval, h0, h1, h2, h3]
      · rename_i h1 h2
        split
        · rename_i h3
          have hs : scale = 1 := by
            by_contra hs
            exact h2 ⟨h3, hs⟩
          rw [hs, arith_one hu]
          cases h4 : arith f offset with
          | none => simp [Expr.eval, h0, h4]
          | some o => simp [Expr.eval, h0, h4, hr]
        · rename_i h3
          have ho : offset = 0 := by
            by_contra ho
            exact h3 ho
          rw [ho, arith_zero' hu]
          cases h4 : arith f scale with
          | none => simp [Expr.eval, h0, h4]
          | some s =>
            cases h5 : arith f (r * s) with
            | none => simp [Expr.eval, h0, h4, h5]
            | some p =>
              simp only [Expr.eval, h0, h4, Option.bind_some, h5, add_zero, Option.bind_eq_bind]
              rw [arith_finite hu.w (finite_arith hu.w h5)]

/-! ### There and back -/

theorem round_error_gen (q : Rat) : |f.round q - q| ≤ |q| / 2 ^ (f.t + 1) + 2 ^ f.emin := by
  have hp : (0 : Rat) < 2 ^ f.emin := by positivity
  by_cases h : (2 : Rat) ^ (f.emin + f.t) ≤ |q|
  · have := round_error (f := f) h
    linarith
  · by_cases h0 : q = 0
    · rw [h0, round_zero]
      simp
      exact hp.le
    · have h1 := round_error_ulp (f := f) h0
      have hl := ilog2_lt (abs_pos.2 h0) (not_le.1 h)
      have he : f.exp |q| = f.emin := by
        unfold Fmt.exp
        omega
      rw [he] at h1
      have : 0 ≤ |q| / 2 ^ (f.t + 1) := by positivity
      linarith

theorem product_error_gen {s : Rat} {raw : Int} (h1 : (2 : Rat) ^ (f.emin + f.t) ≤ |s|) :
    |f.round (raw * s) - raw * s| ≤ |raw * s| / 2 ^ (f.t + 1) := by
  by_cases h0 : raw = 0
  · rw [h0]
    simp [round_zero]
  · apply round_error
    have : (1 : Rat) ≤ |(raw : Rat)| := by
      have : 1 ≤ |raw| := Int.one_le_abs h0
      exact_mod_cast this
    rw [abs_mul]
    exact h1.trans (le_mul_of_one_le_left (abs_nonneg _) this)

/-- The way there and back misses the raw value by less than a half. -/
theorem there_and_back (hu : Usable f) {s o M : Rat} {raw : Int} (hs : (2 : Rat) ^ (f.emin + f.t) ≤ |s|)
    (hoin : In f o) (hr : |(raw : Rat)| ≤ M) (ho : |o| ≤ M * |s|) (hM : M = 2 ^ (f.t + 1) / 16)
    (hb1 : M + 1 < f.spec.limit) (hb2 : 8 * M * |s| < f.spec.limit) :
    arith f raw = some (raw : Rat) ∧ ∃ p v d q, arith f (raw * s) = some p ∧ arith f (p + o) = some v ∧
      arith f (v - o) = some d ∧ arith f (d / s) = some q ∧ |q - raw| < 1 / 2 ∧
      |v - (raw * s + o)| ≤ (|raw * s| + |o|) * (4 / 2 ^ (f.t + 1)) := by
  have hP : (1024 : Rat) ≤ 2 ^ (f.t + 1) := by
    calc (1024 : Rat) = 2 ^ 10 := by norm_num
      _ ≤ _ := pow_le_pow_right₀ (by norm_num) (by have := hu.t; omega)
  set P : Rat := 2 ^ (f.t + 1) with hPd
  have hPpos : 0 < P := by linarith
  have hMpos : 0 < M := by rw [hM]; positivity
  have hS : 0 < |s| := lt_of_lt_of_le (by positivity) hs
  have hsne : s ≠ 0 := abs_pos.1 hS
  set S := |s| with hSd
  have tiny : (2 : Rat) ^ f.emin ≤ 1 / 32 := by
    calc (2 : Rat) ^ f.emin ≤ 2 ^ (-5 : Int) := zpow_le_zpow_right₀ (by norm_num) hu.emin
      _ = 1 / 32 := by norm_num
  -- the raw value
  have hrin : In f (raw : Rat) := by
    refine in_of_scaled (f := f) raw 0 (by simp) ?_ (by have := hu.emin; omega)
    have : |(raw : Rat)| < P := by
      have : M < P := by rw [hM]; linarith
      linarith
    rw [hPd] at this
    exact_mod_cast this
  have e0 : arith f raw = some (raw : Rat) := arith_finite hu.w ⟨hrin, by linarith⟩
  refine ⟨e0, ?_⟩
  set E := M * S / P with hE
  have hEeq : E = S / 16 := by
    rw [hE, hM]
    field_simp
  have hEpos : 0 < E := by rw [hEeq]; positivity
  have hMS : M * S = P * E := by rw [hE]; field_simp
  have hEM : 1024 * E ≤ M * S := by
    rw [hMS]
    exact mul_le_mul_of_nonneg_right hP hEpos.le
  -- the product
  have hx : |raw * s| ≤ M * S := by
    rw [abs_mul]
    exact mul_le_mul_of_nonneg_right hr hS.le
  have e1 : arith f (raw * s) = some (f.round (raw * s)) := arith_ok hu.w (by linarith)
  have er1 := product_error_gen (f := f) (raw := raw) hs
  rw [← hPd] at er1
  set p := f.round (raw * s) with hp
  have hpin : In f p := round_in _
  have hdiv : ∀ {x c : Rat}, x ≤ c * (M * S) → x / P ≤ c * E := by
    intro x c h
    rw [hE, div_le_iff₀ hPpos]
    calc x ≤ c * (M * S) := h
      _ = _ := by field_simp
  have hdiv' : ∀ {x c d : Rat}, x ≤ c * (M * S) + d * E → 0 ≤ d → x / P ≤ c * E + d * E / 1024 := by
    intro x c d h hd
    have h1 : (d * E) / P ≤ d * E / 1024 := by
      apply div_le_div_of_nonneg_left (by positivity) (by norm_num) hP
    have h2 : x / P ≤ (c * (M * S)) / P + d * E / P := by
      rw [← add_div]
      exact div_le_div_of_nonneg_right h hPpos.le
    have h3 : c * (M * S) / P = c * E := by rw [hE]; ring
    linarith
  have er1' : |p - raw * s| ≤ E := by
    refine er1.trans ?_
    have := hdiv (c := 1) (x := |raw * s|) (by linarith)
    linarith
  have hpb := tri3 er1
  have hpb' := tri3 er1'
  have hsum : |p + o| ≤ |p| + |o| := abs_add_le _ _
  -- the sum
  have e2 : arith f (p + o) = some (f.round (p + o)) := arith_ok hu.w (by linarith)
  have er2 := round_add_error hpin hoin
  rw [← hPd] at er2
  set v := f.round (p + o) with hv
  have hvin : In f v := round_in _
  have er2' : |v - (p + o)| ≤ 2 * E + E / 1024 := by
    refine er2.trans ?_
    have := hdiv' (x := |p + o|) (c := 2) (d := 1) (by linarith) (by norm_num)
    linarith
  -- the difference
  have hvo : |v - o - p| ≤ 2 * E + E / 1024 := by
    rw [show v - o - p = v - (p + o) by ring]; exact er2'
  have hvob := tri3 hvo
  have e3 : arith f (v - o) = some (f.round (v - o)) := arith_ok hu.w (by linarith)
  have er3 := round_sub_error hvin hoin
  rw [← hPd] at er3
  set d := f.round (v - o) with hd
  have er3' : |d - (v - o)| ≤ E + 4 * E / 1024 := by
    refine er3.trans ?_
    have := hdiv' (x := |v - o|) (c := 1) (d := 4) (by linarith) (by norm_num)
    linarith
  have herr : |d - raw * s| ≤ 5 * E := by
    have h1 : d - raw * s = (d - (v - o)) + ((v - o - p) + (p - raw * s)) := by ring
    rw [h1]
    refine (abs_add_le _ _).trans ?_
    have := abs_add_le (v - o - p) (p - raw * s)
    linarith
  -- the quotient
  have hquo : |d / s - raw| ≤ 5 / 16 := by
    rw [show d / s - raw = (d - raw * s) / s by field_simp, abs_div, div_le_iff₀ hS]
    linarith
  have hqb := tri3 hquo
  have e4 : arith f (d / s) = some (f.round (d / s)) := by
    apply arith_ok hu.w
    linarith
  have er4 := round_error_gen (f := f) (d / s)
  refine ⟨p, v, d, f.round (d / s), e1, e2, e3, e4, ?_, ?_⟩
  · have h1 : f.round (d / s) - raw = (f.round (d / s) - d / s) + (d / s - raw) := by ring
    rw [h1]
    refine lt_of_le_of_lt (abs_add_le _ _) ?_
    have h2 : |d / s| / P ≤ 1 / 16 + 1 / 1024 := by
      rw [div_le_iff₀ hPpos]
      have : M = P * (1 / 16) := by rw [hM]; ring
      nlinarith
    rw [← hPd] at er4
    linarith
  · have h1 : v - (raw * s + o) = (v - (p + o)) + (p - raw * s) := by ring
    rw [h1]
    refine (abs_add_le _ _).trans ?_
    have h2 : |p + o| ≤ |raw * s| * 2 + |o| := by
      have : |raw * s| / P ≤ |raw * s| := div_le_self (abs_nonneg _) (by linarith)
      linarith
    have h3 : |p + o| / P ≤ (|raw * s| * 2 + |o|) / P := div_le_div_of_nonneg_right h2 hPpos.le
    have h4 : (|raw * s| + |o|) * (4 / P) = 4 * (|raw * s| / P) + 4 * (|o| / P) := by ring
    have h5 : (|raw * s| * 2 + |o|) / P = 2 * (|raw * s| / P) + |o| / P := by ring
    have h6 : 0 ≤ |raw * s| / P := by positivity
    have h7 : 0 ≤ |o| / P := by positivity
    rw [h4]
    rw [h5] at h3
    linarith

/-! ### Monotonicity -/

theorem arith_between (hw : 2 ≤ f.w) {x y z a b : Rat} (h1 : x ≤ y) (h2 : y ≤ z) (ha : arith f x = some a)
    (hb : arith f z = some b) : ∃ c, arith f y = some c ∧ a ≤ c ∧ c ≤ b := by
  have hx := arith_lt hw ha
  have hz := arith_lt hw hb
  refine ⟨f.round y, arith_ok hw ?_, ?_, ?_⟩
  · rw [abs_lt] at hx hz ⊢
    exact ⟨lt_of_lt_of_le hx.1 h1, lt_of_le_of_lt h2 hz.2⟩
  · rw [arith_some ha]; exact round_mono h1
  · rw [arith_some hb]; exact round_mono h2

theorem cDiv_between (hw : 2 ≤ f.w) {s x y z a b : Rat} (h1 : x ≤ y) (h2 : y ≤ z) (ha : cDiv f x s = some a)
    (hb : cDiv f z s = some b) : ∃ c, cDiv f y s = some c ∧ min a b ≤ c ∧ c ≤ max a b := by
  unfold cDiv at ha hb ⊢
  split at ha
  · cases ha
  · rename_i hs
    rw [if_neg hs] at hb ⊢
    rcases lt_or_gt_of_ne hs with hs | hs
    · obtain ⟨c, hc, h3, h4⟩ := arith_between hw (div_le_div_of_nonpos_of_le hs.le h2) (div_le_div_of_nonpos_of_le hs.le h1) hb ha
      exact ⟨c, hc, min_le_of_right_le h3, le_max_of_le_left h4⟩
    · obtain ⟨c, hc, h3, h4⟩ := arith_between hw (div_le_div_of_nonneg_right h1 hs.le) (div_le_div_of_nonneg_right h2 hs.le) ha hb
      exact ⟨c, hc, min_le_of_left_le h3, le_max_of_le_right h4⟩

theorem plainEncode_between (hu : Usable f) {x y z : Rat} (hx : Finite f x) (hy : Finite f y) (hz : Finite f z) (h1 : x ≤ y) (h2 : y ≤ z)
    {scale offset a b : Rat} (ha : (plainEncodeExpr scale offset).eval f x = some a)
    (hb : (plainEncodeExpr scale offset).eval f z = some b) :
    ∃ c, (plainEncodeExpr scale offset).eval f y = some c ∧ min a b ≤ c ∧ c ≤ max a b := by
  rw [plainEncode_eval hu hx] at ha
  rw [plainEncode_eval hu hz] at hb
  rw [plainEncode_eval hu hy]
  obtain ⟨o, ho, ha⟩ := Option.bind_eq_some_iff.1 ha
  rw [ho, Option.bind_some] at hb ⊢
  obtain ⟨d1, hd1, ha⟩ := Option.bind_eq_some_iff.1 ha
  obtain ⟨d2, hd2, hb⟩ := Option.bind_eq_some_iff.1 hb
  obtain ⟨d, hd, h3, h4⟩ := arith_between hu.w (sub_le_sub_right h1 o) (sub_le_sub_right h2 o) hd1 hd2
  obtain ⟨s, hs, ha⟩ := Option.bind_eq_some_iff.1 ha
  rw [hs, Option.bind_some] at hb
  obtain ⟨c, hc, h5⟩ := cDiv_between hu.w h3 h4 ha hb
  refine ⟨c, ?_, h5⟩
  simp [hd, hs, hc]

theorem encodeExpr_between (hu : Usable f) {x y z : Rat} (hx : Finite f x) (hy : Finite f y) (hz : Finite f z) (h1 : x ≤ y) (h2 : y ≤ z)
    {scale offset a b : Rat} {isFloat useRound : Bool} (ha : (encodeExpr scale offset isFloat useRound).eval f x = some a)
    (hb : (encodeExpr scale offset isFloat useRound).eval f z = some b) :
    ∃ c, (encodeExpr scale offset isFloat useRound).eval f y = some c ∧ min a b ≤ c ∧ c ≤ max a b := by
  unfold encodeExpr at ha hb ⊢
  split
  · rename_i hc
    rw [if_pos hc] at ha hb
    simp only [Expr.eval] at ha hb ⊢
    obtain ⟨a', ha', ha⟩ := Option.bind_eq_some_iff.1 ha
    obtain ⟨b', hb', hb⟩ := Option.bind_eq_some_iff.1 hb
    obtain ⟨c, hc, h3, h4⟩ := plainEncode_between hu hx hy hz h1 h2 ha' hb'
    injection ha with ha
    injection hb with hb
    refine ⟨(cRound c : Rat), by rw [hc]; rfl, ?_, ?_⟩
    · rw [← ha, ← hb]
      rcases min_le_iff.1 h3 with h | h
      · exact min_le_of_left_le (by exact_mod_cast cRound_mono h)
      · exact min_le_of_right_le (by exact_mod_cast cRound_mono h)
    · rw [← ha, ← hb]
      rcases le_max_iff.1 h4 with h | h
      · exact le_max_of_le_left (by exact_mod_cast cRound_mono h)
      · exact le_max_of_le_right (by exact_mod_cast cRound_mono h)
  · rename_i hc
    rw [if_neg hc] at ha hb
    exact plainEncode_between hu hx hy hz h1 h2 ha hb

theorem toType_between {t : CType} {x y z a b : Rat} (h1 : x ≤ y) (h2 : y ≤ z) (ha : toType t x = .ok a)
    (hb : toType t z = .ok b) : ∃ c, toType t y = .ok c ∧ a ≤ c ∧ c ≤ b := by
  have m1 := pyInt_mono h1
  have m2 := pyInt_mono h2
  cases t with
  | int w =>
    simp only [toType] at ha hb ⊢
    split at ha
    · rename_i c1
      split at hb
      · rename_i c2
        injection ha with ha
        injection hb with hb
        refine ⟨pyInt y, if_pos ⟨by omega, by omega⟩, ?_, ?_⟩
        · rw [← ha]; exact_mod_cast m1
        · rw [← hb]; exact_mod_cast m2
      · cases hb
    · cases ha
  | uint w =>
    simp only [toType] at ha hb ⊢
    split at ha
    · rename_i c1
      split at hb
      · rename_i c2
        injection ha with ha
        injection hb with hb
        refine ⟨pyInt y, if_pos ⟨by omega, by omega⟩, ?_, ?_⟩
        · rw [← ha]; exact_mod_cast m1
        · rw [← hb]; exact_mod_cast m2
      · cases hb
    · cases ha
  | float =>
    simp only [toType] at ha hb ⊢
    split at ha
    · rename_i a' ha'
      split at hb
      · rename_i b' hb'
        obtain ⟨c, hc, h3, h4⟩ := arith_between (f := binary32) (by decide) h1 h2 ha' hb'
        injection ha with ha
        injection hb with hb
        subst ha hb
        exact ⟨c, by rw [hc], h3, h4⟩
      · cases hb
    · cases ha
  | double =>
    injection ha with ha
    injection hb with hb
    subst ha hb
    exact ⟨y, rfl, h1, h2⟩

theorem toType_between' {t : CType} {x y z a b : Rat} (h1 : min x z ≤ y) (h2 : y ≤ max x z) (ha : toType t x = .ok a)
    (hb : toType t z = .ok b) : ∃ c, toType t y = .ok c ∧ min a b ≤ c ∧ c ≤ max a b := by
  rcases le_total x z with h | h
  · rw [min_eq_left h] at h1
    rw [max_eq_right h] at h2
    obtain ⟨c, hc, h3, h4⟩ := toType_between h1 h2 ha hb
    exact ⟨c, hc, min_le_of_left_le h3, le_max_of_le_right h4⟩
  · rw [min_eq_right h] at h1
    rw [max_eq_left h] at h2
    obtain ⟨c, hc, h3, h4⟩ := toType_between h1 h2 hb ha
    exact ⟨c, hc, min_le_of_right_le h3, le_max_of_le_left h4⟩

theorem encode_between {s : Signal} {useFloat useRound : Bool} {x y z a b : Rat}
    (hx : Finite (fpType (usesFloat s useFloat)) x) (hy : Finite (fpType (usesFloat s useFloat)) y)
    (hz : Finite (fpType (usesFloat s useFloat)) z) (h1 : x ≤ y) (h2 : y ≤ z)
    (ha : encode s useFloat useRound x = .ok a) (hb : encode s useFloat useRound z = .ok b) :
    ∃ c, encode s useFloat useRound y = .ok c ∧ min a b ≤ c ∧ c ≤ max a b := by
  unfold encode at ha hb ⊢
  split at ha
  · rename_i a' ha'
    split at hb
    · rename_i b' hb'
      obtain ⟨c, hc, h3, h4⟩ := encodeExpr_between (usable _) hx hy hz h1 h2 ha' hb'
      rw [hc]
      exact toType_between' h3 h4 ha hb
    · cases hb
  · cases ha

/-! ### Limits -/

theorem ge_eval (hu : Usable f) {v m : Rat} (hv : Finite f v) : (Check.ge m).eval f v = true ↔ f.round m ≤ v ∧ m < f.spec.limit := by
  have hvl := abs_lt.1 hv.2
  simp only [Check.eval]
  by_cases h : |m| < f.spec.limit
  · rw [arith_ok hu.w h]
    simp only [decide_eq_true_eq]
    exact ⟨fun h' => ⟨h', (abs_lt.1 h).2⟩, fun h' => h'.1⟩
  · have : arith f m = none := by
      cases e : arith f m with
      | none => rfl
      | some x => exact absurd (arith_lt hu.w e) h
    rw [this]
    simp only [decide_eq_true_eq]
    constructor
    · intro hm
      rw [abs_of_neg hm, not_lt] at h
      refine ⟨?_, by linarith [hu.one]⟩
      rw [← round_of_in hv.1]
      exact round_mono (by linarith)
    · intro hm
      by_contra h0
      rw [abs_of_nonneg (not_lt.1 h0)] at h
      exact h hm.2

theorem le_eval (hu : Usable f) {v m : Rat} (hv : Finite f v) : (Check.le m).eval f v = true ↔ v ≤ f.round m ∧ -f.spec.limit < m := by
  have hvl := abs_lt.1 hv.2
  simp only [Check.eval]
  by_cases h : |m| < f.spec.limit
  · rw [arith_ok hu.w h]
    simp only [decide_eq_true_eq]
    exact ⟨fun h' => ⟨h', (abs_lt.1 h).1⟩, fun h' => h'.1⟩
  · have : arith f m = none := by
      cases e : arith f m with
      | none => rfl
      | some x => exact absurd (arith_lt hu.w e) h
    rw [this]
    simp only [decide_eq_true_eq]
    constructor
    · intro hm
      rw [abs_of_pos hm, not_lt] at h
      refine ⟨?_, by linarith [hu.one]⟩
      rw [← round_of_in hv.1]
      exact round_mono (by linarith)
    · intro hm
      by_contra h0
      rw [abs_of_nonpos (not_lt.1 h0)] at h
      exact h (by linarith [hm.2])

theorem isInPhysRange_iff {s : Signal} {useFloat : Bool} {v : Rat} :
    isInPhysRange s useFloat v = true ↔
      (∀ m, s.minimum = some m → (Check.ge m).eval (fpType (usesFloat s useFloat)) v = true) ∧
      (∀ m, s.maximum = some m → (Check.le m).eval (fpType (usesFloat s useFloat)) v = true) := by
  unfold isInPhysRange physChecks
  cases s.minimum <;> cases s.maximum <;> simp

theorem le_of_ge (hu : Usable f) {v m lo : Rat} (hv : Finite f v) (hlo : In f lo) (h : (Check.ge m).eval f v = true) (hm : lo ≤ m) : lo ≤ v := by
  refine le_trans ?_ ((ge_eval hu hv).1 h).1
  rw [← round_of_in hlo]
  exact round_mono hm

theorem le_of_le (hu : Usable f) {v m hi : Rat} (hv : Finite f v) (hhi : In f hi) (h : (Check.le m).eval f v = true) (hm : m ≤ hi) : v ≤ hi := by
  refine le_trans ((le_eval hu hv).1 h).1 ?_
  rw [← round_of_in hhi]
  exact round_mono hm

/-! ### Formats -/

theorem spec_fpType (b : Bool) : (fpType b).spec = Spec.CConvert.format b := by cases b <;> rfl

theorem precision_eq (b : Bool) : Spec.CConvert.precision b = (fpType b).t + 1 := by cases b <;> rfl

theorem usesFloat_eq (s : Signal) (b : Bool) :
    usesFloat s b = (b && !(s.conversion.isFloat && s.length != 32)) := by
  unfold usesFloat typeName
  by_cases h1 : s.conversion.isFloat = true <;> by_cases h2 : s.length = 32 <;> by_cases h3 : s.isSigned = true <;>
    simp [h1, h2, h3]

theorem physical_eq (s : Signal) (b : Bool) : (fpType (usesFloat s b)).spec = Spec.CConvert.physical s b := by
  rw [spec_fpType, usesFloat_eq]; rfl

theorem usesFloat_int {s : Signal} (h : s.conversion.isFloat = false) (b : Bool) : usesFloat s b = b := by
  rw [usesFloat_eq, h]; simp

theorem finite_iff (hu : Usable f) (q : Rat) : Spec.CConvert.IsNumber f.spec q ↔ Finite f q := by
  constructor
  · rintro ⟨l, hl, hv⟩
    have hin := in_of_number (f := f) hl hv
    refine ⟨hin, ?_⟩
    apply (code_abs_lt_top (f := f) hu.w q).1
    obtain ⟨b, bits, rfl⟩ : ∃ b bits, l = b :: bits := by
      cases l with
      | nil =>
        simp only [Spec.Ieee.Format.length, List.length_nil] at hl
        omega
      | cons b bits => exact ⟨b, bits, rfl⟩
    have hb : bits.length = f.w + f.t := by
      simp only [Spec.Ieee.Format.length, List.length_cons, Fmt.spec] at hl
      omega
    have h2 := number?_cons (f := f) b hb
    rw [hv] at h2
    split at h2
    · rename_i hlt
      injection h2 with h2
      have habs : |q| = f.value (natOfBits bits) := by
        rw [h2]
        cases b <;> simp [abs_of_nonneg (value_nonneg (f := f) _)]
      rw [habs]
      by_cases h0 : natOfBits bits = 0
      · rw [h0, value_zero, code_zero, ← h0]; exact hlt
      · rwa [code_value _ h0]
    · cases h2
  · rintro ⟨hin, hlt⟩
    refine ⟨packed f q, by simp [packed, Spec.Ieee.Format.length, Fmt.spec]; omega, ?_⟩
    have := packed_number (f := f) ((code_abs_lt_top (f := f) hu.w q).2 hlt)
    rw [round_of_in hin] at this
    exact this

/-- Numbers that are far from the limits of a type. -/
structure Roomy (f : Fmt) (n : Nat) : Prop where
  low : f.emin + f.t + 1 ≤ -(n : Int)
  high : (2 : Rat) ^ (f.t + 3 + n) < f.spec.limit
  usable : Usable f

theorem limit_single : (2 : Rat) ^ 127 < Spec.Ieee.single.limit := by decide +kernel

theorem limit_double : (2 : Rat) ^ 1000 < Spec.Ieee.double.limit := by decide +kernel

theorem roomy (b : Bool) : Roomy (fpType b) (if b then 100 else 900) := by
  cases b
  · refine ⟨by decide, lt_of_le_of_lt ?_ limit_double, usable _⟩
    exact pow_le_pow_right₀ (by norm_num) (by decide)
  · refine ⟨by decide, lt_of_le_of_lt ?_ limit_single, usable _⟩
    exact pow_le_pow_right₀ (by norm_num) (by decide)

theorem exponents_eq (b : Bool) : Spec.CConvert.exponents b = ((if b then 100 else 900 : Nat) : Int) := by cases b <;> rfl

/-! ### Raw values -/

theorem toType_raw {s : Signal} (hf : s.conversion.isFloat = false) (hl : s.length ≤ 64) {i : Int} (hi : Spec.InRange s i) :
    toType (typeName s) (i : Rat) = .ok (i : Rat) := by
  have hlt := length_le_typeLength hl
  unfold typeName Spec.InRange at *
  rw [hf, if_neg (by simp)]
  split
  · rename_i hsg
    rw [if_pos hsg] at hi
    have : (2 : Int) ^ (s.length - 1) ≤ 2 ^ (typeLength s - 1) := pow_le_pow_right₀ (by norm_num) (by omega)
    simp only [toType, pyInt_int]
    rw [if_pos ⟨by linarith [hi.1], by linarith [hi.2]⟩]
  · rename_i hsg
    rw [if_neg hsg] at hi
    have : (2 : Int) ^ s.length ≤ 2 ^ typeLength s := pow_le_pow_right₀ (by norm_num) (by omega)
    simp only [toType, pyInt_int]
    rw [if_pos ⟨hi.1, by linarith [hi.2]⟩]

theorem toType_pyInt {t : CType} (ht : t ≠ .float ∧ t ≠ .double) (q : Rat) : toType t q = toType t (pyInt q : Rat) := by
  cases t with
  | float => exact absurd rfl ht.1
  | double => exact absurd rfl ht.2
  | int w => simp only [toType, pyInt_int]
  | uint w => simp only [toType, pyInt_int]

theorem typeName_int {s : Signal} (hf : s.conversion.isFloat = false) : typeName s ≠ .float ∧ typeName s ≠ .double := by
  unfold typeName
  rw [hf, if_neg (by simp)]
  split <;> exact ⟨by simp, by simp⟩

theorem inRange_short {s : Signal} {i r : Int} (hi : Spec.InRange s i) (h : Spec.CConvert.OneStepShort i r) : Spec.InRange s r := by
  unfold Spec.InRange at *
  have hp : (0 : Int) < 2 ^ (s.length - 1) := by positivity
  split
  · rename_i hs
    rw [if_pos hs] at hi
    rcases h with rfl | ⟨h, rfl⟩ | ⟨h, rfl⟩
    · exact hi
    · omega
    · omega
  · rename_i hs
    rw [if_neg hs] at hi
    rcases h with rfl | ⟨h, rfl⟩ | ⟨h, rfl⟩
    · exact hi
    · omega
    · omega

theorem oneStepShort {q : Rat} {i : Int} (h : |q - i| < 1 / 2) : Spec.CConvert.OneStepShort i (pyInt q) := by
  obtain ⟨h1, h2, h3, h4⟩ := pyInt_near h
  unfold Spec.CConvert.OneStepShort
  rcases le_total 0 i with hi | hi
  · have := h3 hi
    rw [abs_of_nonneg hi, abs_of_nonneg this] at h1 h2
    omega
  · have := h4 hi
    rw [abs_of_nonpos hi, abs_of_nonpos this] at h1 h2
    omega

/-! ### Literals -/

theorem literals {n : Nat} (hr : Roomy f n) {scale offset : Rat} (hs1 : (2 : Rat) ^ (-(n : Int)) ≤ |scale|)
    (hs2 : |scale| ≤ 2 ^ (n : Int)) (ho : |offset| ≤ 2 ^ (f.t + 1 - 5) * |scale|) :
    ∃ s o, arith f scale = some s ∧ arith f offset = some o ∧ In f o ∧ (2 : Rat) ^ (f.emin + f.t) ≤ |s| ∧
      |o| ≤ 2 ^ (f.t + 1) / 16 * |s| ∧ 2 ^ (f.t + 1) / 16 + 1 < f.spec.limit ∧ 8 * (2 ^ (f.t + 1) / 16) * |s| < f.spec.limit := by
  have ht := hr.usable.t
  have hhigh := hr.high
  have hP : (1024 : Rat) ≤ 2 ^ (f.t + 1) := by
    calc (1024 : Rat) = 2 ^ 10 := by norm_num
      _ ≤ _ := pow_le_pow_right₀ (by norm_num) (by omega)
  have hn : (1 : Rat) ≤ 2 ^ (n : Int) := one_le_zpow₀ (by norm_num) (by omega)
  have h5 : (2 : Rat) ^ (f.t + 1 - 5) = 2 ^ (f.t + 1) / 32 := by
    rw [eq_div_iff (by norm_num), show (32 : Rat) = 2 ^ 5 by norm_num, ← pow_add]
    congr 1
    omega
  rw [h5] at ho
  have hhi : (2 : Rat) ^ (f.t + 3 + n) = 4 * 2 ^ (f.t + 1) * 2 ^ (n : Int) := by
    rw [zpow_natCast, show f.t + 3 + n = 2 + (f.t + 1) + n by omega, pow_add, pow_add]
    norm_num
  rw [hhi] at hhigh
  set P : Rat := 2 ^ (f.t + 1) with hPd
  have hPpos : 0 < P := by linarith
  set B : Rat := 2 ^ (n : Int) with hB
  have hS : 0 < |scale| := lt_of_lt_of_le (by positivity) hs1
  have hPB : P ≤ P * B := le_mul_of_one_le_right hPpos.le hn
  have hBP : 1024 * B ≤ P * B := mul_le_mul_of_nonneg_right hP (by linarith)
  have hPS : P * |scale| ≤ P * B := mul_le_mul_of_nonneg_left hs2 hPpos.le
  -- the scale
  have es : arith f scale = some (f.round scale) := arith_ok hr.usable.w (by nlinarith)
  have h2 : (2 : Rat) ^ (f.emin + f.t) * 2 ≤ |scale| := by
    refine le_trans ?_ hs1
    rw [← zpow_add_one₀ (by norm_num)]
    exact zpow_le_zpow_right₀ (by norm_num) hr.low
  have hpp : (0 : Rat) < 2 ^ (f.emin + f.t) := by positivity
  have ers := round_error (f := f) (q := scale) (by linarith)
  rw [← hPd] at ers
  have ers' : |f.round scale - scale| ≤ |scale| / 1024 :=
    ers.trans (div_le_div_of_nonneg_left hS.le (by norm_num) hP)
  have hsu := tri3 ers'
  have hsl : |scale| ≤ |f.round scale| + |scale| / 1024 := by
    apply tri3
    rw [abs_sub_comm]
    exact ers'
  -- the offset
  have hPS0 : 0 ≤ P * |scale| := by positivity
  have ho' : |offset| ≤ P * |scale| / 32 := by linarith
  have eo : arith f offset = some (f.round offset) := arith_ok hr.usable.w (by nlinarith)
  have ero := round_error_gen (f := f) offset
  rw [← hPd] at ero
  have htiny : (2 : Rat) ^ f.emin ≤ |scale| := by
    refine le_trans (zpow_le_zpow_right₀ (by norm_num) ?_) hs1
    have := hr.low
    omega
  have hou := tri3 ero
  have hdiv : |offset| / P ≤ |offset| / 1024 := div_le_div_of_nonneg_left (abs_nonneg _) (by norm_num) hP
  have hsc : 1024 * |scale| ≤ P * |scale| := mul_le_mul_of_nonneg_right hP hS.le
  have hround : P * (|scale| * (1023 / 1024)) ≤ P * |f.round scale| := mul_le_mul_of_nonneg_left (by linarith) hPpos.le
  have hround2 : P * |f.round scale| ≤ P * (|scale| + |scale| / 1024) := mul_le_mul_of_nonneg_left hsu hPpos.le
  refine ⟨f.round scale, f.round offset, es, eo, round_in _, by linarith, ?_, by linarith, ?_⟩
  · linarith
  · linarith

/-! ### Without rounding -/

theorem finite_scaled {n : Nat} (hr : Roomy f n) {q : Rat} (j k : Int) (h : q = j * 2 ^ k) (hj : |j| < 2 ^ (f.t + 1))
    (h1 : -(n : Int) ≤ k) (h2 : k ≤ n) : Finite f q := by
  refine ⟨in_of_scaled (f := f) j k h hj (by have := hr.low; omega), ?_⟩
  refine lt_of_le_of_lt ?_ hr.high
  rw [h, abs_mul, abs_of_pos (by positivity : (0 : Rat) < 2 ^ k)]
  have hj' : |(j : Rat)| ≤ 2 ^ (f.t + 1) := by exact_mod_cast hj.le
  have hk : (2 : Rat) ^ k ≤ 2 ^ n := by
    rw [← zpow_natCast]
    exact zpow_le_zpow_right₀ (by norm_num) h2
  calc |(j : Rat)| * 2 ^ k ≤ 2 ^ (f.t + 1) * 2 ^ n := mul_le_mul hj' hk (by positivity) (by positivity)
    _ = 2 ^ (f.t + 1 + n) := (pow_add _ _ _).symm
    _ ≤ _ := pow_le_pow_right₀ (by norm_num) (by omega)

/-! ### Functions -/

theorem encode_eq {s : Signal} (hf : s.conversion.isFloat = false) {useFloat useRound : Bool} {v q : Rat}
    (h : (plainEncodeExpr s.conversion.scale s.conversion.offset).eval (fpType useFloat) v = some q) :
    encode s useFloat useRound v = toType (typeName s) (if useRound then (cRound q : Rat) else q) := by
  unfold encode encodeExpr
  rw [usesFloat_int hf, hf]
  cases useRound
  · simp [h]
  · simp [Expr.eval, h]

/-- Raw values there and back, in terms of what comes back before the conversion to the type of the signal. -/
theorem moderate_back {s : Signal} (hf : s.conversion.isFloat = false) {useFloat : Bool} {raw : Int}
    (hm : Spec.CConvert.Moderate useFloat s.conversion.scale s.conversion.offset)
    (hr : |raw| ≤ 2 ^ (Spec.CConvert.precision useFloat - 4)) :
    ∃ v q, decode s useFloat raw = some v ∧ Finite (fpType useFloat) v ∧
      (plainEncodeExpr s.conversion.scale s.conversion.offset).eval (fpType useFloat) v = some q ∧ |q - raw| < 1 / 2 := by
  have hro := roomy useFloat
  have hu := hro.usable
  obtain ⟨h1, h2, h3⟩ := hm
  rw [exponents_eq] at h1 h2
  rw [precision_eq] at h3 hr
  obtain ⟨sc, o, es, eo, hoin, hs, ho, hb1, hb2⟩ := literals hro h1 h2 h3
  have ht := hu.t
  have h4 : (2 : Rat) ^ ((fpType useFloat).t + 1 - 4) = 2 ^ ((fpType useFloat).t + 1) / 16 := by
    rw [eq_div_iff (by norm_num), show (16 : Rat) = 2 ^ 4 by norm_num, ← pow_add]
    congr 1
    omega
  have hr' : |(raw : Rat)| ≤ 2 ^ ((fpType useFloat).t + 1) / 16 := by
    rw [← h4]
    exact_mod_cast hr
  obtain ⟨e0, p, v, d, q, e1, e2, e3, e4, hq, _⟩ := there_and_back hu hs hoin hr' ho rfl hb1 hb2
  have hv := finite_arith hu.w e2
  refine ⟨v, q, ?_, hv, ?_, hq⟩
  · unfold decode
    rw [usesFloat_int hf, decode_eval hu]
    simp [e0, es, e1, eo, e2]
  · rw [plainEncode_eval hu hv]
    have hne : sc ≠ 0 := by
      rintro rfl
      rw [abs_zero] at hs
      have : (0 : Rat) < 2 ^ ((fpType useFloat).emin + (fpType useFloat).t) := by positivity
      linarith
    simp [eo, e3, es, cDiv, hne, e4]

theorem exact_back {s : Signal} (hf : s.conversion.isFloat = false) {useFloat : Bool} {raw : Int}
    (hm : Spec.CConvert.NoRounding useFloat s.conversion.scale s.conversion.offset raw) :
    decode s useFloat raw = some (raw * s.conversion.scale + s.conversion.offset) ∧
      (plainEncodeExpr s.conversion.scale s.conversion.offset).eval (fpType useFloat)
        (raw * s.conversion.scale + s.conversion.offset) = some (raw : Rat) := by
  have hro := roomy useFloat
  have hu := hro.usable
  obtain ⟨⟨a, b, k, hs, ho, ha0, hk1, hk2, ha, hb, hra, hrb⟩, hr⟩ := hm
  rw [exponents_eq] at hk1 hk2
  rw [precision_eq] at ha hb hra hrb hr
  have fin : ∀ {q : Rat} (j : Int), q = j * 2 ^ k → |j| < 2 ^ ((fpType useFloat).t + 1) → arith (fpType useFloat) q = some q :=
    fun j h hj => arith_finite hu.w (finite_scaled hro j k h hj hk1 hk2)
  have es := fin a hs ha
  have eo := fin b ho hb
  have er : arith (fpType useFloat) (raw : Rat) = some (raw : Rat) :=
    arith_finite hu.w (finite_scaled hro raw 0 (by simp) hr (by omega) (by omega))
  have ep := fin (q := raw * s.conversion.scale) (raw * a) (by rw [hs]; push_cast; ring) hra
  have hv : raw * s.conversion.scale + s.conversion.offset = ((raw * a + b : Int) : Rat) * 2 ^ k := by
    rw [hs, ho]; push_cast; ring
  have ev := fin _ hv hrb
  have hsne : s.conversion.scale ≠ 0 := by
    rw [hs]
    have : (a : Rat) ≠ 0 := by exact_mod_cast ha0
    have : (2 : Rat) ^ k ≠ 0 := by positivity
    positivity
  constructor
  · unfold decode
    rw [usesFloat_int hf, decode_eval hu]
    simp [er, es, ep, eo, ev]
  · rw [plainEncode_eval hu (finite_arith hu.w ev)]
    simp [eo, ep, es, cDiv, hsne, er]

end Cantools.C
