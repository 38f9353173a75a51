import Verif.Model.FloatConversion
import Verif.Lemmas.RoundTrip

/-
Properties of conversions: C13, C14, C15.
-/

namespace Cantools
open Spec

/-- C13: for every conversion the factory builds with a non-zero scale, with or without value table,
the physical value of a raw value is `raw * scale + offset` and converting it back gives the raw
value (an integer for integer signals, any number for float signals). -/
theorem C13_raw_phys_raw (scale offset : Rat) (choices : Option Choices) (isFloat : Bool)
    (hs : scale ≠ 0) (raw : Rat) (hint : isFloat = false → raw.den = 1) :
    (Conversion.factory scale offset choices isFloat).rawToScaled raw false =
      .num (raw * scale + offset) ∧
    (Conversion.factory scale offset choices isFloat).scaledToRaw
      (.num (raw * scale + offset)) = .ok raw := by
  have hf := factory_scale scale offset isFloat
  have hr : (BaseConv.factory scale offset isFloat).rawToScaled raw = raw * scale + offset := by
    rw [rawToScaled_eq, hf.1, hf.2.1]
  have hb : (BaseConv.factory scale offset isFloat).numericScaledToRaw (raw * scale + offset) =
      .ok raw := by
    rw [scaledToRaw_eq, hf.1, hf.2.1, hf.2.2, if_neg hs]
    have : (raw * scale + offset - offset) / scale = raw := by
      rw [add_sub_cancel_right, mul_div_assoc, div_self hs, mul_one]
    rw [this]
    cases isFloat with
    | true => rfl
    | false =>
      have h1 : raw = ((raw.num : Int) : Rat) := by
        rw [← Rat.num_div_den raw, hint rfl]; simp
      rw [if_neg (by decide), h1, pyRound_int]
  cases choices with
  | none => exact ⟨by simp only [Conversion.factory, Conversion.rawToScaled, hr], hb⟩
  | some cs =>
    refine ⟨?_, hb⟩
    simp only [Conversion.factory, Conversion.rawToScaled, hr]
    rfl

/-- C13: the specialised conversion classes agree with the general linear formula. -/
theorem C13_classes_agree (scale offset : Rat) (isFloat : Bool) (hs : scale ≠ 0) (x : Rat) :
    (BaseConv.factory scale offset isFloat).rawToScaled x =
      (BaseConv.linear scale offset isFloat).rawToScaled x ∧
    (BaseConv.factory scale offset isFloat).numericScaledToRaw x =
      (BaseConv.linear scale offset isFloat).numericScaledToRaw x := by
  have hf := factory_scale scale offset isFloat
  constructor
  · rw [rawToScaled_eq, rawToScaled_eq, hf.1, hf.2.1]; rfl
  · rw [scaledToRaw_eq, scaledToRaw_eq, hf.1, hf.2.1, hf.2.2]; rfl

/-- C13 with rounding errors: in any arithmetic whose operations have a relative error of at most
`u`, raw → physical → raw is the identity as long as
`|raw| ((1+u)^4 - 1) + |offset/scale| u (1+u)^2 < 1/2`. -/
theorem C13_raw_phys_raw_rounded (fl : Rat → Rat) (u : Rat) (hu : 0 ≤ u)
    (hfl : ∀ x, |fl x - x| ≤ u * |x|) (scale offset : Rat) (hs : scale ≠ 0) (raw : Int)
    (hbound : |(raw : Rat)| * ((1 + u) ^ 4 - 1) + |offset / scale| * (u * (1 + u) ^ 2) < 1 / 2) :
    scaledToRawFl fl scale offset (rawToScaledFl fl scale offset raw) = raw := by
  -- every rounded result is the exact one times (1 + δ), |δ| ≤ u
  have hd : ∀ x, ∃ δ, |δ| ≤ u ∧ fl x = x * (1 + δ) := by
    intro x
    by_cases hx : x = 0
    · refine ⟨0, by simpa using hu, ?_⟩
      have := hfl x
      rw [hx] at this ⊢
      simp only [abs_zero, mul_zero, sub_zero, abs_nonpos_iff] at this
      rw [this]; simp
    · refine ⟨(fl x - x) / x, ?_, by field_simp; ring⟩
      rw [abs_div, div_le_iff₀ (abs_pos.2 hx)]
      exact hfl x
  obtain ⟨d1, h1, e1⟩ := hd ((raw : Rat) * scale)
  obtain ⟨d2, h2, e2⟩ := hd (fl ((raw : Rat) * scale) + offset)
  obtain ⟨d3, h3, e3⟩ := hd (rawToScaledFl fl scale offset raw - offset)
  obtain ⟨d4, h4, e4⟩ := hd (fl (rawToScaledFl fl scale offset raw - offset) / scale)
  unfold scaledToRawFl
  set y := fl (fl (rawToScaledFl fl scale offset raw - offset) / scale) with hy
  have key : y - raw = raw * ((1 + d1) * (1 + d2) * (1 + d3) * (1 + d4) - 1) +
      offset / scale * (d2 * ((1 + d3) * (1 + d4))) := by
    rw [e4, e3]
    unfold rawToScaledFl
    rw [e2, e1]
    field_simp
    ring
  have habs1 : ∀ d : Rat, |d| ≤ u → |1 + d| ≤ 1 + u := fun d h =>
    (abs_add_le 1 d).trans (by rw [abs_one]; linarith)
  have hu1 : (0 : Rat) ≤ 1 + u := by linarith
  -- |(1+d1)(1+d2)(1+d3)(1+d4) - 1| ≤ (1+u)^4 - 1
  have step : ∀ (p q d : Rat), |p - 1| ≤ q - 1 → |d| ≤ u → |p * (1 + d) - 1| ≤ q * (1 + u) - 1 := by
    intro p q d hp hdu
    have e : p * (1 + d) - 1 = (p - 1) * (1 + d) + d := by ring
    rw [e]
    have hq : 0 ≤ q - 1 := (abs_nonneg _).trans hp
    calc |(p - 1) * (1 + d) + d| ≤ |(p - 1) * (1 + d)| + |d| := abs_add_le _ _
      _ = |p - 1| * |1 + d| + |d| := by rw [abs_mul]
      _ ≤ (q - 1) * (1 + u) + u :=
        add_le_add (mul_le_mul hp (habs1 d hdu) (abs_nonneg _) hq) hdu
      _ = q * (1 + u) - 1 := by ring
  have b1 : |(1 + d1) - 1| ≤ (1 + u) - 1 := by simpa using h1
  have b4 := step _ _ d4 (step _ _ d3 (step _ _ d2 b1 h2) h3) h4
  have b4' : |(1 + d1) * (1 + d2) * (1 + d3) * (1 + d4) - 1| ≤ (1 + u) ^ 4 - 1 := by
    have : (1 + u) * (1 + u) * (1 + u) * (1 + u) - 1 = (1 + u) ^ 4 - 1 := by ring
    rw [← this]; exact b4
  have b5 : |d2 * ((1 + d3) * (1 + d4))| ≤ u * (1 + u) ^ 2 := by
    rw [abs_mul, abs_mul, pow_two]
    exact mul_le_mul h2 (mul_le_mul (habs1 d3 h3) (habs1 d4 h4) (abs_nonneg _) hu1)
      (mul_nonneg (abs_nonneg _) (abs_nonneg _)) hu
  have herr : |y - raw| < 1 / 2 := by
    rw [key]
    refine lt_of_le_of_lt ((abs_add_le _ _).trans ?_) hbound
    rw [abs_mul, abs_mul]
    exact add_le_add (mul_le_mul_of_nonneg_left b4' (abs_nonneg _))
      (mul_le_mul_of_nonneg_left b5 (abs_nonneg _))
  apply pyRound_iff.2
  rw [abs_lt] at herr
  refine ⟨by linarith [herr.1], by linarith [herr.2], ?_⟩
  rintro (h | h)
  · linarith [herr.2]
  · linarith [herr.1]

/-- C13: the bound of the previous theorem is met in IEEE double arithmetic (`u = 2^-53`) by all raw
values below 2^48 if the offset is less than 2^48 steps. -/
theorem C13_double_range (raw : Int) (ratio : Rat) (hraw : |(raw : Rat)| ≤ 2 ^ 48)
    (hratio : |ratio| ≤ 2 ^ 48) :
    |(raw : Rat)| * ((1 + 1 / 2 ^ 53) ^ 4 - 1) +
      |ratio| * (1 / 2 ^ 53 * (1 + 1 / 2 ^ 53) ^ 2) < (1 / 2 : Rat) := by
  have h1 : |(raw : Rat)| * ((1 + 1 / 2 ^ 53) ^ 4 - 1) ≤ 2 ^ 48 * ((1 + 1 / 2 ^ 53) ^ 4 - 1) :=
    mul_le_mul_of_nonneg_right hraw (by norm_num)
  have h2 : |ratio| * (1 / 2 ^ 53 * (1 + 1 / 2 ^ 53) ^ 2) ≤
      (2 ^ 48 : Rat) * (1 / 2 ^ 53 * (1 + 1 / 2 ^ 53) ^ 2) :=
    mul_le_mul_of_nonneg_right hratio (by norm_num)
  refine lt_of_le_of_lt (add_le_add h1 h2) (by norm_num)

/-- C14: the raw value chosen for a physical value of an integer signal is a nearest one: the
physical value it stands for differs by at most half a step, no other raw value is nearer, and if
another one is equally near the chosen one is even. -/
theorem C14_nearest (scale offset : Rat) (choices : Option Choices) (hs : scale ≠ 0) (x : Rat) :
    ∃ i : Int, (Conversion.factory scale offset choices false).scaledToRaw (.num x) =
        .ok (i : Rat) ∧
      |(i * scale + offset) - x| ≤ |scale| / 2 ∧
      (∀ j : Int, |(i * scale + offset) - x| ≤ |(j * scale + offset) - x|) ∧
      (∀ j : Int, j ≠ i → |(j * scale + offset) - x| = |(i * scale + offset) - x| → i % 2 = 0) := by
  have hf := factory_scale scale offset false
  set y := (x - offset) / scale with hy
  have hx : x = y * scale + offset := by rw [hy]; field_simp; ring
  have hnear := pyRound_nearest y
  refine ⟨pyRound y, ?_, ?_, ?_, ?_⟩
  · have hb : (BaseConv.factory scale offset false).numericScaledToRaw x =
        .ok ((pyRound y : Int) : Rat) := by
      rw [scaledToRaw_eq, hf.1, hf.2.1, hf.2.2, if_neg hs]; rfl
    cases choices with
    | none => exact hb
    | some cs => exact hb
  all_goals
    have hdist : ∀ j : Int, |(j * scale + offset) - x| = |y - j| * |scale| := by
      intro j
      rw [hx, ← abs_mul, ← abs_neg]
      congr 1
      ring
    have hpos : 0 < |scale| := abs_pos.2 hs
    have hle : |y - (pyRound y : Int)| ≤ 1 / 2 := abs_le.2 ⟨by linarith [hnear.1], hnear.2.1⟩
  · rw [hdist]
    nlinarith
  · intro j
    rw [hdist, hdist]
    apply mul_le_mul_of_nonneg_right _ hpos.le
    by_cases hj : j = pyRound y
    · rw [hj]
    · have h1 : (1 : Rat) ≤ |((j - pyRound y : Int) : Rat)| := by
        rw [← Int.cast_abs]
        exact_mod_cast Int.one_le_abs (sub_ne_zero.2 hj)
      have h2 : ((j - pyRound y : Int) : Rat) = (y - (pyRound y : Int)) - (y - j) := by
        push_cast; ring
      rw [h2] at h1
      have := abs_sub (y - ((pyRound y : Int) : Rat)) (y - j)
      linarith
  · intro j hj he
    rw [hdist, hdist] at he
    have he' : |y - j| = |y - (pyRound y : Int)| := mul_right_cancel₀ hpos.ne' he
    apply hnear.2.2
    have h1 : (1 : Rat) ≤ |((j - pyRound y : Int) : Rat)| := by
      rw [← Int.cast_abs]
      exact_mod_cast Int.one_le_abs (sub_ne_zero.2 hj)
    have h2 : ((j - pyRound y : Int) : Rat) = (y - (pyRound y : Int)) - (y - j) := by
      push_cast; ring
    rw [h2] at h1
    have h3 := abs_sub (y - ((pyRound y : Int) : Rat)) (y - j)
    have h4 : |y - (pyRound y : Int)| = 1 / 2 := le_antisymm hle (by linarith)
    rcases abs_eq (by norm_num : (0:Rat) ≤ 1/2) |>.1 h4 with h5 | h5
    · exact .inl h5
    · exact .inr h5

/-- C15: for a value table with distinct numbers and names, the name shown for a number in the table
is encoded as this number, a number without entry is shown as scaled number, and a name that is not
in the table is rejected with `KeyError`. -/
theorem C15_named_values (scale offset : Rat) (cs : Choices) (isFloat : Bool)
    (hkeys : (cs.map (·.1)).Nodup) (hnames : (cs.map (·.2.toStr)).Nodup) :
    (∀ i ch, (i, ch) ∈ cs →
      (Conversion.factory scale offset (some cs) isFloat).rawToScaled i true = ch.toValue ∧
      (Conversion.factory scale offset (some cs) isFloat).scaledToRaw (.str ch.toStr) =
        .ok (i : Rat)) ∧
    (∀ i : Int, i ∉ cs.map (·.1) →
      (Conversion.factory scale offset (some cs) isFloat).rawToScaled i true =
        .num (i * scale + offset)) ∧
    (∀ n, n ∉ cs.map (·.2.toStr) →
      (Conversion.factory scale offset (some cs) isFloat).scaledToRaw (.str n) =
        .error .keyError) := by
  have hf := factory_scale scale offset isFloat
  let s : Signal := { name := "", start := 0, length := 1,
                      conversion := .factory scale offset (some cs) isFloat }
  have hb : Built s.conversion := ⟨scale, offset, some cs, isFloat, rfl⟩
  have hkey : ∀ n, (Conversion.factory scale offset (some cs) isFloat).choiceToNumber n =
      match numberNamed s n with
      | some i => .ok i
      | none => .error .keyError := by
    intro n
    have h := fun i => choiceToNumber_ok hb (name := n) (i := i)
    have hc : s.conversion = .factory scale offset (some cs) isFloat := rfl
    rw [hc] at h
    cases hn : numberNamed s n with
    | some i => exact (h i).2 hn
    | none =>
      simp only [Conversion.factory, Conversion.choiceToNumber] at h ⊢
      cases hg : dictGet? (inverseChoices cs) n with
      | none => rfl
      | some i =>
        have := (h i).1 (by rw [hg])
        rw [hn] at this; cases this
  refine ⟨fun i ch hm => ?_, fun i hi => ?_, fun n hn => ?_⟩
  · have hg := dictGet?_of_mem hkeys hm
    constructor
    · simp only [Conversion.factory, Conversion.rawToScaled, if_true, pyInt_int, hg]
    · have := numberNamed_of_get (s := s) hnames hg
      have h2 := hkey ch.toStr
      rw [this] at h2
      change Except.map _ ((Conversion.factory scale offset (some cs) isFloat).choiceToNumber _) = _
      rw [h2]; rfl
  · have hg := (dictGet?_eq_none_iff cs i).2 hi
    simp only [Conversion.factory, Conversion.rawToScaled, if_true, pyInt_int, hg]
    rw [rawToScaled_eq, hf.1, hf.2.1]
  · have : numberNamed s n = none := by
      unfold numberNamed
      rw [Option.map_eq_none_iff, List.find?_eq_none]
      intro e he
      have he' : e ∈ cs := List.mem_reverse.1 he
      simp only [beq_iff_eq]
      intro h
      exact hn (List.mem_map.2 ⟨e, he', h⟩)
    have h2 := hkey n
    rw [this] at h2
    change Except.map _ ((Conversion.factory scale offset (some cs) isFloat).choiceToNumber _) = _
    rw [h2]; rfl

/-! ### The hypotheses can be met; claims that fail -/

example := C13_raw_phys_raw (1/10) (-40) none false (by norm_num) 650 (fun _ => rfl)
example : (Conversion.factory (1/10) (-40) none false).scaledToRaw (.num 25) = .ok 650 := by
  decide +kernel
/-- An exact tie goes to the even raw value. -/
example : (Conversion.factory 2 0 none false).scaledToRaw (.num 5) = .ok 2 ∧
    (Conversion.factory 2 0 none false).scaledToRaw (.num 7) = .ok 4 := by decide +kernel
example := C14_nearest (1/10) (-40) none (by norm_num) (257/10 + 1/20)
/-- Exact arithmetic is one that meets the hypothesis on rounding. -/
example := C13_raw_phys_raw_rounded id (1 / 2 ^ 53) (by norm_num)
  (fun x => by simp) (1/10) (-40) (by norm_num) 650
  (C13_double_range 650 _ (by norm_num) (by norm_num))
example := C15_named_values (1/2) 3 [(0, .str "off"), (1, .named { value := 1, name := "on" })] false
  (by decide) (by decide)

/-- With a name that occurs twice, the name shown for a number may be encoded as another number. -/
theorem C15_duplicate_names :
    ∃ cs : Choices, (cs.map (·.1)).Nodup ∧ ∃ i ch, (i, ch) ∈ cs ∧
      (Conversion.factory 1 0 (some cs) false).rawToScaled i true = ch.toValue ∧
      (Conversion.factory 1 0 (some cs) false).scaledToRaw (.str ch.toStr) ≠ .ok (i : Rat) :=
  ⟨[(0, .str "reserved"), (1, .str "reserved")], by decide, 0, .str "reserved", by decide,
    by decide +kernel, by decide +kernel⟩

/-- A float signal with a value table: with scaling, 5.5 is shown as the name of 5 (conversion.py:248
truncates), without scaling it is shown as 5.5. -/
theorem C15_float_named :
    ∃ s : Signal, s.conversion = .factory 1 0 (some [(5, .str "five")]) true ∧
      decodeSignalValue s (11/2) true true = .str "five" ∧
      decodeSignalValue s (11/2) true false = .num (11/2) :=
  ⟨{ name := "F", start := 0, length := 32, conversion := .factory 1 0 (some [(5, .str "five")]) true },
    rfl, by decide +kernel, by decide +kernel⟩

end Cantools
