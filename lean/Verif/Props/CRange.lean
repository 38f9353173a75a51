import Verif.Lemmas.CRun
import Verif.Lemmas.Assert
import Verif.Props.Example

/-
Properties of the generated range checks: C31.
-/

namespace Cantools
open Spec

namespace C

theorem cType_bounds {s : Signal} (hf : s.conversion.isFloat = false) (hl : s.length ≤ 64) {v : Int}
    (hv : InCType s v) : ∃ lo hi, minCType s = some lo ∧ maxCType s = some hi ∧ lo ≤ v ∧ v ≤ hi ∧
      (s.isSigned = false → lo = 0) := by
  rw [inCType_iff hl] at hv
  unfold minCType maxCType typeName
  rw [hf]
  cases hs : s.isSigned
  · rw [hs] at hv
    simp only [Bool.false_eq_true, if_false] at hv ⊢
    exact ⟨_, _, rfl, rfl, hv.1, by have := hv.2; omega, fun _ => rfl⟩
  · rw [hs] at hv
    simp only [if_true] at hv ⊢
    exact ⟨_, _, rfl, rfl, hv.1, by have := hv.2; omega, by simp⟩

theorem raw_bounds {s : Signal} (hf : s.conversion.isFloat = false) (v : Int) :
    ∃ lo hi, minRaw s = some lo ∧ maxRaw s = some hi ∧ (InRange s v ↔ lo ≤ v ∧ v ≤ hi) ∧
      (s.isSigned = false → lo = 0 ∧ 0 ≤ hi) := by
  unfold minRaw maxRaw InRange
  rw [hf]
  cases hs : s.isSigned
  · simp only [Bool.false_eq_true, if_false]
    refine ⟨_, _, rfl, rfl, by omega, fun _ => ⟨rfl, ?_⟩⟩
    have : (1 : Int) ≤ 2 ^ s.length := one_le_pow₀ (by norm_num)
    omega
  · simp only [Bool.false_eq_true, if_false, if_true]
    exact ⟨_, _, rfl, rfl, by omega, by simp⟩

theorem literal_int {s : Signal} {b : Int} (h : s.isSigned = false → 0 ≤ b)
    (hf : s.conversion.isFloat = false) : literal s b = b := by
  unfold literal typeName
  rw [hf]
  cases hs : s.isSigned
  · simp only [Bool.false_eq_true, if_false]
    rw [if_neg]
    have : (0 : Rat) ≤ b := by exact_mod_cast h hs
    linarith
  · simp

/-- What the lower check amounts to. -/
theorem lower_check {s : Signal} (hf : s.conversion.isFloat = false) {v lo rlo : Int}
    (hlo : minCType s = some lo) (hv : lo ≤ v) (hu : s.isSigned = false → lo = 0)
    (hr : minRaw s = some rlo) (mn : Option Int) :
    (match literalBound s.conversion.isFloat (minCType s) (fun a b => a > b)
        (defaultBound (minRaw s) (minCType s) (fun a b => a > b) (mn.map fun b : Int => (b : Rat))) with
      | none => true | some b => decide (literal s b ≤ (v : Rat))) = true ↔
    mn.elim (rlo ≤ v) (fun b => b ≤ v) := by
  rw [hlo, hr, hf]
  have key : ∀ b : Int, lo < b → (decide (literal s (b : Rat) ≤ (v : Rat)) = true ↔ b ≤ v) := by
    intro b hb
    rw [decide_eq_true_eq, literal_int (fun h => by have := hu h; omega) hf]
    exact_mod_cast Iff.rfl
  cases mn with
  | some b =>
    simp only [Option.map_some, Option.elim_some, defaultBound, literalBound, Bool.false_eq_true, if_false, pyRound_int]
    by_cases hb : lo < b
    · have : ((b : Rat) > (lo : Rat)) := by exact_mod_cast hb
      simp only [this, decide_true, if_true]
      exact key b hb
    · have : ¬ ((b : Rat) > (lo : Rat)) := by simpa using hb
      simp only [this, decide_false, Bool.false_eq_true, if_false, true_iff]
      omega
  | none =>
    simp only [Option.map_none, Option.elim_none, defaultBound]
    by_cases hb : lo < rlo
    · have : ((rlo : Rat) > (lo : Rat)) := by exact_mod_cast hb
      simp only [gt_iff_lt, hb, decide_true, if_true, literalBound, Bool.false_eq_true, if_false,
        pyRound_int, this]
      exact key rlo hb
    · simp only [gt_iff_lt, hb, decide_false, Bool.false_eq_true, if_false, literalBound, true_iff]
      omega

/-- What the upper check amounts to. -/
theorem upper_check {s : Signal} (hf : s.conversion.isFloat = false) {v hi rhi : Int}
    (hhi : maxCType s = some hi) (hv : v ≤ hi) (hr : maxRaw s = some rhi)
    (hr0 : s.isSigned = false → 0 ≤ rhi)
    (mx : Option Int) (hu : s.isSigned = false → ∀ b, mx = some b → 0 ≤ b) :
    (match literalBound s.conversion.isFloat (maxCType s) (fun a b => a < b)
        (defaultBound (maxRaw s) (maxCType s) (fun a b => a < b) (mx.map fun b : Int => (b : Rat))) with
      | none => true | some b => decide ((v : Rat) ≤ literal s b)) = true ↔
    mx.elim (v ≤ rhi) (fun b => v ≤ b) := by
  rw [hhi, hr, hf]
  have key : ∀ b : Int, (s.isSigned = false → 0 ≤ b) →
      (decide ((v : Rat) ≤ literal s (b : Rat)) = true ↔ v ≤ b) := by
    intro b hb
    rw [decide_eq_true_eq, literal_int hb hf]
    exact_mod_cast Iff.rfl
  cases mx with
  | some b =>
    simp only [Option.map_some, Option.elim_some, defaultBound, literalBound, Bool.false_eq_true, if_false, pyRound_int]
    by_cases hb : b < hi
    · have : ((b : Rat) < (hi : Rat)) := by exact_mod_cast hb
      simp only [this, decide_true, if_true]
      exact key b fun h => hu h b rfl
    · have : ¬ ((b : Rat) < (hi : Rat)) := by simpa using hb
      simp only [this, decide_false, Bool.false_eq_true, if_false, true_iff]
      omega
  | none =>
    simp only [Option.map_none, Option.elim_none, defaultBound]
    by_cases hb : rhi < hi
    · have : ((rhi : Rat) < (hi : Rat)) := by exact_mod_cast hb
      simp only [hb, decide_true, if_true, literalBound, Bool.false_eq_true, if_false,
        pyRound_int, this]
      exact key rhi hr0
    · simp only [hb, decide_false, Bool.false_eq_true, if_false, literalBound, true_iff]
      omega

/-- The raw value of a declared bound. -/
def rawBound (s : Signal) (x : Rat) : Int :=
  pyRound ((x - s.conversion.offset) / s.conversion.scale)

theorem rawBound_iff {s : Signal} (h0 : s.conversion.scale ≠ 0) {x : Rat} {b : Int} :
    RawBound s x b ↔ b = rawBound s x := by
  unfold RawBound rawBound
  rw [← pyRound_iff, eq_comm]
  exact ⟨fun h => h.2, fun h => ⟨h0, h⟩⟩

theorem genRange_ok {s : Signal} (hb : Built s.conversion) (hf : s.conversion.isFloat = false)
    (h0 : s.conversion.scale ≠ 0) : genRange s = .ok
      { lo := literalBound s.conversion.isFloat (minCType s) (fun a b => a > b)
          (defaultBound (minRaw s) (minCType s) (fun a b => a > b)
            ((s.minimum.map (rawBound s)).map fun b : Int => (b : Rat)))
        hi := literalBound s.conversion.isFloat (maxCType s) (fun a b => a < b)
          (defaultBound (maxRaw s) (maxCType s) (fun a b => a < b)
            ((s.maximum.map (rawBound s)).map fun b : Int => (b : Rat))) } := by
  have hraw : ∀ x, s.conversion.numericScaledToRaw x = .ok ((rawBound s x : Int) : Rat) := by
    intro x
    rw [numericScaledToRaw_iff hb]
    refine ⟨fun _ => h0, _, rfl, ?_⟩
    rw [if_neg (by simp [hf])]
    exact ⟨_, rfl, pyRound_nearest _⟩
  unfold genRange
  cases s.minimum <;> cases s.maximum <;>
    simp only [hraw, bind, Except.bind, pure, Except.pure, Except.map, Option.map_some,
      Option.map_none]

end C

/-- C31, what the generated check accepts: a declared bound replaces the representable one on its
side.  (For unsigned members the declared maximum must not be negative.) -/
theorem C31_characterization {s : Signal} (hb : Built s.conversion)
    (hf : s.conversion.isFloat = false) (h0 : s.conversion.scale ≠ 0) (hl : s.length ≤ 64)
    (hmax : s.isSigned = false → ∀ mx b, s.maximum = some mx → RawBound s mx b → 0 ≤ b) :
    ∃ check, C.genRange s = .ok check ∧ ∀ v : Int, InCType s v →
      (C.isInRange s check v = true ↔
        WithinDeclared s v ∧
        (s.minimum = none → (if s.isSigned then -(2 ^ (s.length - 1)) else 0) ≤ v) ∧
        (s.maximum = none → v < 2 ^ (if s.isSigned then s.length - 1 else s.length))) := by
  refine ⟨_, C.genRange_ok hb hf h0, fun v hv => ?_⟩
  obtain ⟨lo, hi, h1, h2, h3, h4, h5⟩ := C.cType_bounds hf hl hv
  obtain ⟨rlo, rhi, g1, g2, g3, g4⟩ := C.raw_bounds hf v
  unfold C.isInRange
  rw [Bool.and_eq_true]
  have hupper := C.upper_check hf h2 h4 g2 (fun h => (g4 h).2) (s.maximum.map (C.rawBound s))
    (by
      intro hs b hbb
      obtain ⟨mx, hmx, rfl⟩ := Option.map_eq_some_iff.1 hbb
      exact hmax hs mx _ hmx ((C.rawBound_iff h0).2 rfl))
  have hlower := C.lower_check hf h1 h3 h5 g1 (s.minimum.map (C.rawBound s))
  refine Iff.trans (and_congr hlower hupper) ?_
  have e1 : rlo = (if s.isSigned then -(2 ^ (s.length - 1)) else 0) := by
    unfold C.minRaw at g1
    rw [hf] at g1
    simp only [Bool.false_eq_true, if_false] at g1
    cases hs : s.isSigned <;> rw [hs] at g1 <;> simp at g1 ⊢ <;> exact g1.symm
  have e2 : rhi = 2 ^ (if s.isSigned then s.length - 1 else s.length) - 1 := by
    unfold C.maxRaw at g2
    rw [hf] at g2
    simp only [Bool.false_eq_true, if_false] at g2
    cases hs : s.isSigned <;> rw [hs] at g2 <;> simp at g2 ⊢ <;> exact g2.symm
  rw [← e1]
  have e3 : v < 2 ^ (if s.isSigned then s.length - 1 else s.length) ↔ v ≤ rhi := by rw [e2]; omega
  rw [e3]
  unfold WithinDeclared
  simp only [C.rawBound_iff h0]
  cases s.minimum <;> cases s.maximum <;> simp [and_comm]

/-- C31: if the declared bounds (if any) are representable, the generated check accepts a value of
the C type exactly if it is representable in the signal and within the declared bounds.
(Missing: bounds that are not representable, see the negations below.) -/
theorem C31_partial {s : Signal} (hb : Built s.conversion)
    (hf : s.conversion.isFloat = false) (h0 : s.conversion.scale ≠ 0) (hl : s.length ≤ 64)
    (hmin : ∀ mn b, s.minimum = some mn → RawBound s mn b → InRange s b)
    (hmax : ∀ mx b, s.maximum = some mx → RawBound s mx b → InRange s b) :
    ∃ check, C.genRange s = .ok check ∧ ∀ v : Int, InCType s v →
      (C.isInRange s check v = true ↔ InRange s v ∧ WithinDeclared s v) := by
  obtain ⟨check, h1, h2⟩ := C31_characterization hb hf h0 hl (by
    intro hs mx b hmx hbb
    have := hmax mx b hmx hbb
    unfold InRange at this
    rw [hs] at this
    exact this.1)
  refine ⟨check, h1, fun v hv => ?_⟩
  rw [h2 v hv]
  have hval : InRange s v ↔ (if s.isSigned then -(2 ^ (s.length - 1)) else 0) ≤ v ∧
      v < 2 ^ (if s.isSigned then s.length - 1 else s.length) := by
    unfold InRange
    cases s.isSigned <;> simp
  have hbd : ∀ b, InRange s b → (if s.isSigned then -(2 ^ (s.length - 1)) else 0) ≤ b ∧
      b < 2 ^ (if s.isSigned then s.length - 1 else s.length) := by
    intro b
    unfold InRange
    cases s.isSigned <;> simp
  rw [hval]
  constructor
  · rintro ⟨hw, g1, g2⟩
    refine ⟨⟨?_, ?_⟩, hw⟩
    · cases hm : s.minimum with
      | none => exact g1 hm
      | some mn =>
        have hr := (C.rawBound_iff h0 (x := mn)).2 rfl
        exact le_trans (hbd _ (hmin mn _ hm hr)).1 (hw.1 mn _ hm hr)
    · cases hm : s.maximum with
      | none => exact g2 hm
      | some mx =>
        have hr := (C.rawBound_iff h0 (x := mx)).2 rfl
        exact lt_of_le_of_lt (hw.2 mx _ hm hr) (hbd _ (hmax mx _ hm hr)).2
  · rintro ⟨⟨g1, g2⟩, hw⟩
    exact ⟨hw, fun _ => g1, fun _ => g2⟩

/-- C31 in physical terms: with a positive scale and bounds that are physical values of raw numbers
in range, the check accepts exactly the raw values whose physical value is within the bounds. -/
theorem C31_physical_partial {s : Signal} (hb : Built s.conversion)
    (hf : s.conversion.isFloat = false) (h0 : 0 < s.conversion.scale) (hl : s.length ≤ 64)
    (hmin : ∀ mn, s.minimum = some mn →
      ∃ b : Int, mn = b * s.conversion.scale + s.conversion.offset ∧ InRange s b)
    (hmax : ∀ mx, s.maximum = some mx →
      ∃ b : Int, mx = b * s.conversion.scale + s.conversion.offset ∧ InRange s b) :
    ∃ check, C.genRange s = .ok check ∧ ∀ v : Int, InCType s v →
      (C.isInRange s check v = true ↔ InRange s v ∧
        (∀ mn, s.minimum = some mn → mn ≤ v * s.conversion.scale + s.conversion.offset) ∧
        ∀ mx, s.maximum = some mx → v * s.conversion.scale + s.conversion.offset ≤ mx) := by
  have hraw : ∀ b : Int, C.rawBound s (b * s.conversion.scale + s.conversion.offset) = b := by
    intro b
    unfold C.rawBound
    rw [add_sub_cancel_right, mul_div_assoc, div_self (ne_of_gt h0), mul_one, pyRound_int]
  have hne := ne_of_gt h0
  obtain ⟨check, h1, h2⟩ := C31_partial hb hf hne hl
    (by
      intro mn b hmn hbb
      obtain ⟨b', rfl, hb'⟩ := hmin mn hmn
      rw [C.rawBound_iff hne, hraw] at hbb
      exact hbb ▸ hb')
    (by
      intro mn b hmn hbb
      obtain ⟨b', rfl, hb'⟩ := hmax mn hmn
      rw [C.rawBound_iff hne, hraw] at hbb
      exact hbb ▸ hb')
  refine ⟨check, h1, fun v hv => ?_⟩
  rw [h2 v hv]
  refine and_congr_right fun _ => ?_
  unfold WithinDeclared
  refine and_congr (forall_congr' fun mn => ?_) (forall_congr' fun mx => ?_)
  · constructor
    · intro h hmn
      obtain ⟨b, rfl, _⟩ := hmin mn hmn
      have hle := h b hmn ((C.rawBound_iff hne).2 (hraw b).symm)
      have : (b : Rat) ≤ v := by exact_mod_cast hle
      nlinarith
    · intro h b hmn hbb
      obtain ⟨b', rfl, _⟩ := hmin mn hmn
      rw [C.rawBound_iff hne, hraw] at hbb
      subst hbb
      have := h hmn
      have h3 : (b : Rat) ≤ v := by
        by_contra hlt
        push Not at hlt
        nlinarith
      exact_mod_cast h3
  · constructor
    · intro h hmn
      obtain ⟨b, rfl, _⟩ := hmax mx hmn
      have hle := h b hmn ((C.rawBound_iff hne).2 (hraw b).symm)
      have : (v : Rat) ≤ b := by exact_mod_cast hle
      nlinarith
    · intro h b hmn hbb
      obtain ⟨b', rfl, _⟩ := hmax mx hmn
      rw [C.rawBound_iff hne, hraw] at hbb
      subst hbb
      have := h hmn
      have h3 : (v : Rat) ≤ b := by
        by_contra hlt
        push Not at hlt
        nlinarith
      exact_mod_cast h3

section
open Example

instance (s : Signal) (v : Int) : Decidable (InRange s v) := by unfold InRange; infer_instance

/-- The hypotheses of C31 are met by a signed 11 bit signal with minimum −100 and maximum 500
(scale 1/2, offset 3). -/
example : ∃ check, C.genRange a = .ok check ∧ C.isInRange a check (-206 : Int) = true ∧
    C.isInRange a check (-207 : Int) = false ∧ C.isInRange a check (994 : Int) = true ∧
    C.isInRange a check (995 : Int) = false := by
  have hs : a.conversion.scale = 1/2 := by decide +kernel
  have ho : a.conversion.offset = 3 := by decide +kernel
  obtain ⟨check, h1, h2⟩ := C31_physical_partial (s := a) (built a (by simp [sigs]))
    (by decide +kernel) (by rw [hs]; norm_num) (by decide)
    (by
      intro mn hmn
      have : mn = -100 := by simpa [a] using hmn.symm
      subst this
      exact ⟨-206, by rw [hs, ho]; norm_num, by decide +kernel⟩)
    (by
      intro mx hmx
      have : mx = 500 := by simpa [a] using hmx.symm
      subst this
      exact ⟨994, by rw [hs, ho]; norm_num, by decide +kernel⟩)
  have hin : ∀ v : Int, -32768 ≤ v → v < 32768 → InCType a v := by
    intro v g1 g2
    rw [C.inCType_iff (by decide)]
    have e1 : a.isSigned = true := by decide
    have e2 : C.typeLength a = 16 := by decide
    rw [e1, e2]
    simp only [if_true]
    omega
  have hmn : a.minimum = some (-100) := rfl
  have hmx : a.maximum = some 500 := rfl
  refine ⟨check, h1, ?_, ?_, ?_, ?_⟩
  · rw [h2 _ (hin _ (by norm_num) (by norm_num)), hs, ho, hmn, hmx]
    refine ⟨by decide +kernel, ?_, ?_⟩ <;> rintro _ ⟨⟩ <;> norm_num
  · rw [← Bool.not_eq_true, h2 _ (hin _ (by norm_num) (by norm_num)), hs, ho, hmn, hmx]
    rintro ⟨_, h, _⟩
    have := h _ rfl
    norm_num at this
  · rw [h2 _ (hin _ (by norm_num) (by norm_num)), hs, ho, hmn, hmx]
    refine ⟨by decide +kernel, ?_, ?_⟩ <;> rintro _ ⟨⟩ <;> norm_num
  · rw [← Bool.not_eq_true, h2 _ (hin _ (by norm_num) (by norm_num)), hs, ho, hmn, hmx]
    rintro ⟨_, _, h⟩
    have := h _ rfl
    norm_num at this

/-- C31 fails for bounds that are not representable: the check of a 4 bit signal with maximum 100
accepts 50, which does not fit in 4 bits. -/
theorem C31_unrepresentable_bound : ∃ (s : Signal) (check : C.RangeCheck), Built s.conversion ∧
    InCType s 50 ∧ ¬ InRange s 50 ∧ C.genRange s = .ok check ∧
    C.isInRange s check (50 : Int) = true := by
  refine ⟨{ name := "S", start := 0, length := 4, minimum := some 0, maximum := some 100 },
    { lo := none, hi := some 100 }, ⟨1, 0, none, false, rfl⟩, ?_, by decide, by decide +kernel,
    by decide +kernel⟩
  rw [C.inCType_iff (by decide)]
  decide

/-- C31 fails for an unsigned member with negative maximum: `value <= -5u` accepts every value
although no raw value is below the maximum. -/
theorem C31_negative_maximum : ∃ (s : Signal) (check : C.RangeCheck), Built s.conversion ∧
    s.isSigned = false ∧ s.maximum = some (-5) ∧ C.genRange s = .ok check ∧
    ∀ v : Int, InCType s v → C.isInRange s check v = true ∧ ¬ WithinDeclared s v := by
  refine ⟨{ name := "S", start := 0, length := 8, maximum := some (-5) },
    { lo := none, hi := some (-5) }, ⟨1, 0, none, false, rfl⟩, rfl, rfl, by decide +kernel, ?_⟩
  intro v hv
  rw [C.inCType_iff (by decide)] at hv
  have hv : 0 ≤ v ∧ v < 256 := by
    have e : C.typeLength { name := "S", start := 0, length := 8, maximum := some (-5) : Signal } = 8 := by
      decide
    rw [e] at hv
    simpa using hv
  constructor
  · have hlit : C.literal { name := "S", start := 0, length := 8, maximum := some (-5) } (-5) =
        4294967291 := by decide +kernel
    have : (v : Rat) ≤ 4294967291 := by
      have : v ≤ 4294967291 := by omega
      exact_mod_cast this
    simp only [C.isInRange, hlit, Bool.true_and, decide_eq_true_eq]
    exact this
  · intro h
    have := h.2 (-5) (-5) rfl ⟨by decide +kernel, by rw [← pyRound_iff]; decide +kernel⟩
    omega

/-- With a negative scale the declared minimum becomes the upper raw bound, but it is used as lower
bound: the check of a signal with scale −1 and range −10 … −5 accepts no value, not even 7 which
stands for −7. -/
theorem C31_negative_scale : ∃ (s : Signal) (check : C.RangeCheck), Built s.conversion ∧
    s.minimum = some (-10) ∧ s.maximum = some (-5) ∧ InRange s 7 ∧
    ((7 : Int) : Rat) * s.conversion.scale + s.conversion.offset = -7 ∧
    C.genRange s = .ok check ∧ ∀ v : Int, C.isInRange s check v = false := by
  refine ⟨{ name := "S", start := 0, length := 8, minimum := some (-10), maximum := some (-5)
            conversion := .factory (-1) 0 none false },
    { lo := some 10, hi := some 5 }, ⟨-1, 0, none, false, rfl⟩, rfl, rfl, by decide, by decide +kernel,
    by decide +kernel, fun v => ?_⟩
  rw [← Bool.not_eq_true]
  simp only [C.isInRange, Bool.and_eq_true, decide_eq_true_eq]
  let t : Signal := { name := "S", start := 0, length := 8, minimum := some (-10)
                      maximum := some (-5), conversion := .factory (-1) 0 none false }
  have e1 : C.literal t 10 = 10 := by decide +kernel
  have e2 : C.literal t 5 = 5 := by decide +kernel
  change ¬ (C.literal t 10 ≤ _ ∧ _ ≤ C.literal t 5)
  rw [e1, e2]
  rintro ⟨h1, h2⟩
  linarith

/-- Bounds are rounded to the nearest raw value, so a value outside the declared range can be
accepted: minimum 3/5 becomes 1 for scale 1, but with maximum 3/5 (scale 1) the raw value 1 is
accepted too. -/
theorem C31_rounded_bound : ∃ (s : Signal) (check : C.RangeCheck), Built s.conversion ∧
    s.maximum = some (3/5) ∧ C.genRange s = .ok check ∧ C.isInRange s check (1 : Int) = true ∧
    ¬ (((1 : Int) : Rat) * s.conversion.scale + s.conversion.offset ≤ 3/5) := by
  exact ⟨{ name := "S", start := 0, length := 8, maximum := some (3/5) },
    { lo := none, hi := some 1 }, ⟨1, 0, none, false, rfl⟩, rfl, by decide +kernel, by decide +kernel,
    by decide +kernel⟩

end

end Cantools
