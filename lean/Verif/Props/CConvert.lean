import Verif.Lemmas.CConvert

/-!
C57: conversions in the generated C code.
-/

namespace Cantools
open Spec.CConvert

/-- A signal of eight bits. -/
def CConvertExample.sig (scale offset : Rat) (minimum maximum : Option Rat) : Signal :=
  { name := "S", start := 0, length := 8, conversion := .factory scale offset none false, minimum := minimum, maximum := maximum }

/-- With the option for rounding, `encode` gives back the raw value that `decode` got. -/
theorem C57_round_trip {s : Signal} (hf : s.conversion.isFloat = false) (hl : s.length ≤ 64) {useFloat : Bool} {raw : Int}
    (hi : Spec.InRange s raw) (hm : Moderate useFloat s.conversion.scale s.conversion.offset)
    (hr : |raw| ≤ 2 ^ (precision useFloat - 4)) :
    ∃ v, C.decode s useFloat raw = some v ∧ IsNumber (format useFloat) v ∧ C.encode s useFloat true v = .ok (raw : Rat) := by
  obtain ⟨v, q, h1, h2, h3, h4⟩ := C.moderate_back hf hm hr
  refine ⟨v, h1, ?_, ?_⟩
  · rw [← C.spec_fpType]
    exact (C.finite_iff (C.usable _) v).2 h2
  · rw [C.encode_eq hf h3, if_pos rfl, C.cRound_near h4]
    exact C.toType_raw hf hl hi

example : ∃ v, C.decode (CConvertExample.sig (1 / 10) (3 / 10) none none) true 43 = some v ∧ IsNumber (format true) v ∧
    C.encode (CConvertExample.sig (1 / 10) (3 / 10) none none) true true v = .ok (43 : Int) :=
  C57_round_trip (raw := 43) (by decide +kernel) (by decide) (by unfold Spec.InRange; decide +kernel)
    ⟨by decide +kernel, by decide +kernel, by decide +kernel⟩ (by decide)

/-- Without it, the raw value that comes back may be one step nearer to zero. -/
theorem C57_truncated {s : Signal} (hf : s.conversion.isFloat = false) (hl : s.length ≤ 64) {useFloat : Bool} {raw : Int}
    (hi : Spec.InRange s raw) (hm : Moderate useFloat s.conversion.scale s.conversion.offset)
    (hr : |raw| ≤ 2 ^ (precision useFloat - 4)) :
    ∃ v, C.decode s useFloat raw = some v ∧ ∃ r : Int, C.encode s useFloat false v = .ok (r : Rat) ∧ OneStepShort raw r := by
  obtain ⟨v, q, h1, h2, h3, h4⟩ := C.moderate_back hf hm hr
  have hstep := C.oneStepShort h4
  refine ⟨v, h1, pyInt q, ?_, hstep⟩
  rw [C.encode_eq hf h3, if_neg (by simp), C.toType_pyInt (C.typeName_int hf)]
  exact C.toType_raw hf hl (C.inRange_short hi hstep)

example : ∃ v, C.decode (CConvertExample.sig (1 / 10) 0 none none) false 43 = some v ∧
    ∃ r : Int, C.encode (CConvertExample.sig (1 / 10) 0 none none) false false v = .ok (r : Rat) ∧ OneStepShort 43 r :=
  C57_truncated (raw := 43) (by decide +kernel) (by decide) (by unfold Spec.InRange; decide +kernel)
    ⟨by decide +kernel, by decide +kernel, by decide +kernel⟩ (by decide)

/-- It does happen: 43 steps of 0.1 come back as 42. -/
theorem CConvertExample.C57_one_lost : ∃ v, C.decode (sig (1 / 10) 0 none none) false 43 = some v ∧
    C.encode (sig (1 / 10) 0 none none) false false v = .ok 42 := by
  refine ⟨4841369599423283 / 1125899906842624, by decide +kernel, by decide +kernel⟩

/-- Nothing is lost, with and without rounding, if scale and offset are multiples of a power of two with few enough
digits, in particular if they are integers. -/
theorem C57_exact {s : Signal} (hf : s.conversion.isFloat = false) (hl : s.length ≤ 64) {useFloat : Bool} {raw : Int}
    (hi : Spec.InRange s raw) (hm : NoRounding useFloat s.conversion.scale s.conversion.offset raw) (useRound : Bool) :
    C.decode s useFloat raw = some (raw * s.conversion.scale + s.conversion.offset) ∧
      C.encode s useFloat useRound (raw * s.conversion.scale + s.conversion.offset) = .ok (raw : Rat) := by
  obtain ⟨h1, h2⟩ := C.exact_back hf hm
  refine ⟨h1, ?_⟩
  rw [C.encode_eq hf h2]
  have : (if useRound then (C.cRound (raw : Rat) : Rat) else (raw : Rat)) = (raw : Rat) := by
    cases useRound
    · rfl
    · rw [if_pos rfl, C.cRound_near (i := raw) (by simp)]
  rw [this]
  exact C.toType_raw hf hl hi

/-- A step of 2.5 and an offset of -40. -/
example : C.encode (CConvertExample.sig (5 / 2) (-40) none none) true false (925 / 2) = .ok ((201 : Int) : Rat) := by
  have := (C57_exact (s := CConvertExample.sig (5 / 2) (-40) none none) (useFloat := true) (raw := 201) (by decide +kernel) (by decide)
    (by unfold Spec.InRange; decide +kernel)
    ⟨⟨5, -80, -1, by decide +kernel, by decide +kernel, by decide, by decide, by decide, by decide, by decide, by decide, by decide⟩,
      by decide⟩ false).2
  rwa [show ((201 : Int) : Rat) * (CConvertExample.sig (5 / 2) (-40) none none).conversion.scale +
    (CConvertExample.sig (5 / 2) (-40) none none).conversion.offset = 925 / 2 by decide +kernel] at this

/-- In double precision `decode` calculates what the python code calculates, and `encode` with rounding gives the
same raw value, unless the quotient is in the middle of two integers: python takes the even one. -/
theorem C57_python {s : Signal} (hf : s.conversion.isFloat = false) {scale offset : Rat}
    (hs : Ieee.double s.conversion.scale = some scale) (ho : Ieee.double s.conversion.offset = some offset) :
    (∀ raw : Int, C.decode s false raw = Ieee.rawToScaled scale offset raw) ∧
      ∀ v r, Spec.Ieee.IsDouble v → C.encode s false true v = .ok r →
        ∃ i : Int, Ieee.scaledToRaw scale offset v = some i ∧ (r = i ∨ ((r = i - 1 ∨ r = i + 1) ∧ i % 2 = 0)) := by
  constructor
  · intro raw
    unfold C.decode Ieee.rawToScaled
    rw [C.usesFloat_int hf, C.decode_eval (C.usable _)]
    show (Ieee.double raw).bind _ = _
    rw [show C.arith (C.fpType false) = Ieee.double from rfl, hs, ho]
    rfl
  · intro v r hv hr
    have hu := C.usable false
    have hfin : C.Finite (C.fpType false) v := (Ieee.isDouble_iff v).1 hv
    unfold C.encode C.encodeExpr at hr
    rw [C.usesFloat_int hf, hf] at hr
    simp only [Bool.not_false, Bool.and_self, if_true, C.Expr.eval] at hr
    rw [C.plainEncode_eval hu hfin] at hr
    rw [show C.arith (C.fpType false) = Ieee.double from rfl, hs, ho] at hr
    unfold Ieee.scaledToRaw
    simp only [Option.bind_some] at hr
    cases hd : Ieee.double (v - offset) with
    | none => rw [hd] at hr; cases hr
    | some d =>
      rw [hd] at hr
      simp only [Option.bind_some] at hr
      by_cases h0 : scale = 0
      · simp [C.cDiv, h0] at hr
      cases hq : Ieee.double (d / scale) with
      | none =>
        have : C.cDiv (C.fpType false) d scale = none := by
          unfold C.cDiv
          rw [if_neg h0]
          exact hq
        rw [this] at hr
        cases hr
      | some q =>
        have : C.cDiv (C.fpType false) d scale = some q := by
          unfold C.cDiv
          rw [if_neg h0]
          exact hq
        rw [this] at hr
        have hr' : C.toType (C.typeName s) (C.cRound q : Rat) = .ok r := hr
        have hri : r = (C.cRound q : Rat) := by
          have ht := C.typeName_int hf
          cases e : C.typeName s with
          | float => exact absurd e ht.1
          | double => exact absurd e ht.2
          | int w =>
            rw [e] at hr'
            simp only [C.toType, pyInt_int] at hr'
            split at hr'
            · injection hr' with hr'; exact hr'.symm
            · cases hr'
          | uint w =>
            rw [e] at hr'
            simp only [C.toType, pyInt_int] at hr'
            split at hr'
            · injection hr' with hr'; exact hr'.symm
            · cases hr'
        refine ⟨pyRound q, by simp [hq], ?_⟩
        by_cases heq : C.cRound q = pyRound q
        · left
          rw [hri, heq]
        · right
          have e1 := abs_le.1 (C.cRound_error q)
          have e2 := abs_le.1 (Ieee.pyRound_error q)
          have e3 : C.cRound q - pyRound q ≤ 1 := by
            have : ((C.cRound q - pyRound q : Int) : Rat) ≤ 1 := by push_cast; linarith
            exact_mod_cast this
          have e4 : -1 ≤ C.cRound q - pyRound q := by
            have : (-1 : Rat) ≤ ((C.cRound q - pyRound q : Int) : Rat) := by push_cast; linarith
            exact_mod_cast this
          constructor
          · rw [hri]
            rcases (by omega : C.cRound q = pyRound q - 1 ∨ C.cRound q = pyRound q + 1) with h | h
            · left; rw [h]; push_cast; rfl
            · right; rw [h]; push_cast; rfl
          · apply Ieee.pyRound_tie heq
            rcases (by omega : C.cRound q = pyRound q - 1 ∨ C.cRound q = pyRound q + 1) with h | h
            · have : (C.cRound q : Rat) = pyRound q - 1 := by rw [h]; push_cast; rfl
              rw [abs_of_nonpos (by linarith), abs_of_nonneg (by linarith)]
              linarith
            · have : (C.cRound q : Rat) = pyRound q + 1 := by rw [h]; push_cast; rfl
              rw [abs_of_nonneg (by linarith), abs_of_nonpos (by linarith)]
              linarith

/-- In the middle of 2 and 3, C takes 3 and python 2. -/
theorem CConvertExample.C57_tie :
    C.encode (sig (1 / 2) 0 none none) false true (5 / 4) = .ok 3 ∧ Ieee.scaledToRaw (1 / 2) 0 (5 / 4) = some 2 ∧
      Ieee.double (1 / 2) = some (1 / 2) ∧ Ieee.double 0 = some 0 := by
  refine ⟨by decide +kernel, by decide +kernel, by decide +kernel, by decide +kernel⟩

/-- Numbers within the limits are accepted by `is_in_phys_range`; what is accepted is within the limits or is the
number of the type that is nearest to the limit. -/
theorem C57_phys_range (s : Signal) (useFloat : Bool) {v : Rat} (hv : IsNumber (physical s useFloat) v) :
    ((∀ m, s.minimum = some m → m ≤ v) → (∀ m, s.maximum = some m → v ≤ m) → C.isInPhysRange s useFloat v = true) ∧
      (C.isInPhysRange s useFloat v = true →
        (∀ m, s.minimum = some m → m ≤ v ∨ ∃ l, Spec.Ieee.Nearest (physical s useFloat) m l v) ∧
        (∀ m, s.maximum = some m → v ≤ m ∨ ∃ l, Spec.Ieee.Nearest (physical s useFloat) m l v)) := by
  rw [← C.physical_eq] at hv ⊢
  have hu := C.usable (C.usesFloat s useFloat)
  have hfin := (C.finite_iff hu v).1 hv
  have hlim := abs_lt.1 hfin.2
  rw [C.isInPhysRange_iff]
  constructor
  · intro h1 h2
    refine ⟨fun m hm => ?_, fun m hm => ?_⟩
    · have := h1 m hm
      rw [C.ge_eval hu hfin]
      refine ⟨?_, by linarith⟩
      rw [← Ieee.round_of_in hfin.1]
      exact Ieee.round_mono this
    · have := h2 m hm
      rw [C.le_eval hu hfin]
      refine ⟨?_, by linarith⟩
      rw [← Ieee.round_of_in hfin.1]
      exact Ieee.round_mono this
  · rintro ⟨h1, h2⟩
    refine ⟨fun m hm => ?_, fun m hm => ?_⟩
    · obtain ⟨h3, h4⟩ := (C.ge_eval hu hfin).1 (h1 m hm)
      by_cases hle : m ≤ v
      · exact .inl hle
      · right
        have hvm : v = (C.fpType (C.usesFloat s useFloat)).round m := by
          refine le_antisymm ?_ h3
          rw [← Ieee.round_of_in hfin.1]
          exact Ieee.round_mono (le_of_not_ge hle)
        refine ⟨Ieee.packed (C.fpType (C.usesFloat s useFloat)) m, ?_⟩
        rw [hvm]
        apply Ieee.nearest_packed (by have := hu.t; omega)
        rw [Ieee.code_abs_lt_top hu.w, abs_lt]
        exact ⟨by linarith [not_le.1 hle], h4⟩
    · obtain ⟨h3, h4⟩ := (C.le_eval hu hfin).1 (h2 m hm)
      by_cases hle : v ≤ m
      · exact .inl hle
      · right
        have hvm : v = (C.fpType (C.usesFloat s useFloat)).round m := by
          refine le_antisymm h3 ?_
          rw [← Ieee.round_of_in hfin.1]
          exact Ieee.round_mono (le_of_not_ge hle)
        refine ⟨Ieee.packed (C.fpType (C.usesFloat s useFloat)) m, ?_⟩
        rw [hvm]
        apply Ieee.nearest_packed (by have := hu.t; omega)
        rw [Ieee.code_abs_lt_top hu.w, abs_lt]
        exact ⟨h4, by linarith [not_le.1 hle]⟩

/-- What `decode` gives for raw values within the limits may be refused: 3 steps of 0.1 are more than 0.3. -/
theorem CConvertExample.C57_limit_refused : ∃ v, C.decode (sig (1 / 10) 0 (some 0) (some (3 / 10))) false 3 = some v ∧
    C.isInPhysRange (sig (1 / 10) 0 (some 0) (some (3 / 10))) false v = false := by
  refine ⟨1351079888211149 / 4503599627370496, by decide +kernel, by decide +kernel⟩

/-- After the check by `is_in_phys_range` nothing is undefined: if `encode` is defined at a number below the minimum
and at a number above the maximum (or at the limits themselves), it is defined at every number that is accepted, and its
result is between theirs. -/
theorem C57_phys_safe {s : Signal} {useFloat useRound : Bool} {m m' lo hi v a b : Rat}
    (hm : s.minimum = some m) (hm' : s.maximum = some m') (hlo : IsNumber (physical s useFloat) lo) (hhi : IsNumber (physical s useFloat) hi)
    (h1 : lo ≤ m) (h2 : m' ≤ hi) (ha : C.encode s useFloat useRound lo = .ok a) (hb : C.encode s useFloat useRound hi = .ok b)
    (hv : IsNumber (physical s useFloat) v) (hin : C.isInPhysRange s useFloat v = true) :
    ∃ r, C.encode s useFloat useRound v = .ok r ∧ (a ≤ r ∧ r ≤ b ∨ b ≤ r ∧ r ≤ a) := by
  rw [← C.physical_eq] at hlo hhi hv
  have hu := C.usable (C.usesFloat s useFloat)
  have flo := (C.finite_iff hu lo).1 hlo
  have fhi := (C.finite_iff hu hi).1 hhi
  have fv := (C.finite_iff hu v).1 hv
  obtain ⟨g1, g2⟩ := C.isInPhysRange_iff.1 hin
  have l1 := C.le_of_ge hu fv flo.1 (g1 m hm) h1
  have l2 := C.le_of_le hu fv fhi.1 (g2 m' hm') h2
  obtain ⟨r, hr, h3, h4⟩ := C.encode_between flo fv fhi l1 l2 ha hb
  refine ⟨r, hr, ?_⟩
  rcases le_total a b with h | h
  · rw [min_eq_left h] at h3
    rw [max_eq_right h] at h4
    exact .inl ⟨h3, h4⟩
  · rw [min_eq_right h] at h3
    rw [max_eq_left h] at h4
    exact .inr ⟨h3, h4⟩

/-- The limits 0 and 25.5 of a byte with steps of 0.1, and the value 12.75. -/
example : ∃ r, C.encode (CConvertExample.sig (1 / 10) 0 (some 0) (some (255 / 10))) true true (51 / 4) = .ok r ∧
    (0 ≤ r ∧ r ≤ 255 ∨ 255 ≤ r ∧ r ≤ 0) := by
  have hp : physical (CConvertExample.sig (1 / 10) 0 (some 0) (some (255 / 10))) true = Ieee.binary32.spec := by
    unfold physical
    rw [show (CConvertExample.sig (1 / 10) 0 (some 0) (some (255 / 10))).conversion.isFloat = false by decide +kernel]
    rfl
  refine C57_phys_safe (lo := 0) (hi := 51 / 2) rfl rfl ⟨List.replicate 32 false, by decide +kernel, by decide +kernel⟩ ?_ le_rfl (by decide +kernel)
    (by decide +kernel) (by decide +kernel) ?_ (by decide +kernel)
  · rw [hp]
    exact (C.finite_iff (f := Ieee.binary32) (C.usable true) _).2
      (C.finite_arith (f := Ieee.binary32) (q := 51 / 2) (v := 51 / 2) (by decide) (by decide +kernel))
  · rw [hp]
    exact (C.finite_iff (f := Ieee.binary32) (C.usable true) _).2
      (C.finite_arith (f := Ieee.binary32) (q := 51 / 4) (v := 51 / 4) (by decide) (by decide +kernel))

/-- Without limits every number is accepted, also those `encode` is undefined for. -/
theorem CConvertExample.C57_no_limits_undefined :
    C.isInPhysRange (sig (1 / 10) 0 none none) false 300 = true ∧
      C.encode (sig (1 / 10) 0 none none) false true 300 = .error .undefined := by
  refine ⟨by decide +kernel, by decide +kernel⟩

end Cantools
