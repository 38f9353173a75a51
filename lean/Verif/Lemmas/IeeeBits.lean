import Verif.Lemmas.IeeeNearest
import Verif.Lemmas.Bits

namespace Cantools.Ieee
open Spec

variable {f : Fmt}

/-- The format of the specification. -/
def Fmt.spec (f : Fmt) : Spec.Ieee.Format := ⟨f.w, f.t⟩

theorem number_eq (l : List Bool) : Spec.Ieee.number l = natOfBits l := by
  induction l with
  | nil => rfl
  | cons b r ih =>
    have h := natOfBits_append [b] r
    rw [List.singleton_append] at h
    rw [h, Spec.Ieee.number, ih]
    cases b <;> simp [natOfBits]

theorem split_bits {bits : List Bool} (hl : bits.length = f.w + f.t) :
    natOfBits bits = natOfBits (bits.take f.w) * 2 ^ f.t + natOfBits (bits.drop f.w) ∧
      natOfBits (bits.drop f.w) < 2 ^ f.t ∧ natOfBits (bits.take f.w) < 2 ^ f.w := by
  have h1 := natOfBits_append (bits.take f.w) (bits.drop f.w)
  rw [List.take_append_drop] at h1
  have hd : (bits.drop f.w).length = f.t := by rw [List.length_drop]; omega
  have ht : (bits.take f.w).length = f.w := by rw [List.length_take]; omega
  have h2 := natOfBits_lt (bits.drop f.w)
  have h3 := natOfBits_lt (bits.take f.w)
  rw [hd] at h1 h2
  rw [ht] at h3
  exact ⟨h1, h2, h3⟩

/-- The number of a pattern, by its code. -/
theorem number?_cons (b : Bool) {bits : List Bool} (hl : bits.length = f.w + f.t) :
    f.spec.number? (b :: bits) =
      if natOfBits bits < f.top then some (if b then -f.value (natOfBits bits) else f.value (natOfBits bits)) else none := by
  obtain ⟨h1, h2, h3⟩ := split_bits hl
  have hp : 0 < 2 ^ f.t := by positivity
  have hw : 1 ≤ 2 ^ f.w := Nat.one_le_two_pow
  have hdiv : natOfBits bits / 2 ^ f.t = natOfBits (bits.take f.w) := by
    rw [h1, add_comm, Nat.add_mul_div_right _ _ hp, Nat.div_eq_of_lt h2, zero_add]
  have hmod : natOfBits bits % 2 ^ f.t = natOfBits (bits.drop f.w) := by
    rw [h1, add_comm, Nat.add_mul_mod_self_right, Nat.mod_eq_of_lt h2]
  have htop : natOfBits bits < f.top ↔ natOfBits (bits.take f.w) ≠ 2 ^ f.w - 1 := by
    unfold Fmt.top
    rw [← Nat.div_lt_iff_lt_mul hp, hdiv]
    omega
  have hb : 1 - f.spec.bias = f.emin + f.t := by
    unfold Spec.Ieee.Format.bias Fmt.emin Fmt.spec
    ring
  unfold Spec.Ieee.Format.number?
  have e1 : (b :: bits).head? = some b := rfl
  have e2 : (b :: bits).drop 1 = bits := rfl
  have e3 : (b :: bits).drop (1 + f.spec.exponentBits) = bits.drop f.w := by
    rw [add_comm]; rfl
  have e4 : f.spec.exponentBits = f.w := rfl
  have e5 : f.spec.fractionBits = f.t := rfl
  dsimp only
  rw [e1, e2, e3, e4, e5, number_eq, number_eq]
  by_cases hx : natOfBits (bits.take f.w) = 2 ^ f.w - 1
  · rw [if_pos hx, if_neg (by rw [htop]; simpa using hx)]
  · rw [if_neg hx, if_pos (htop.2 hx)]
    unfold Fmt.value
    rw [hdiv, hmod]
    by_cases h0 : natOfBits (bits.take f.w) = 0
    · rw [if_pos h0, if_pos h0, hb, zpow_add₀ (by norm_num), zpow_natCast]
      congr 1
      cases b <;> simp <;> field_simp
    · rw [if_neg h0, if_neg h0]
      have e : ((natOfBits (bits.take f.w) : Nat) : Int) - f.spec.bias =
          ((natOfBits (bits.take f.w) : Nat) : Int) - 1 + f.emin + f.t := by omega
      rw [e, zpow_add₀ (by norm_num) _ (f.t : Int), zpow_natCast]
      congr 1
      cases b <;> simp <;> field_simp

theorem fmt?_spec {n : Nat} {s : Spec.Ieee.Format} (h : Spec.Ieee.FormatOf n s) :
    ∃ f, fmt? n = some f ∧ s = f.spec ∧ n = 1 + f.w + f.t ∧ 2 ≤ f.w ∧ 1 ≤ f.t := by
  cases h
  · exact ⟨binary16, rfl, rfl, rfl, by decide, by decide⟩
  · exact ⟨binary32, rfl, rfl, rfl, by decide, by decide⟩
  · exact ⟨binary64, rfl, rfl, rfl, by decide, by decide⟩

theorem limit_eq (hw : 1 ≤ f.w) : f.spec.limit = (2 ^ (f.t + 1) - 1 / 2) * 2 ^ emax f := by
  have e : f.spec.bias = emax f + f.t := by
    unfold Spec.Ieee.Format.bias emax Fmt.emin Fmt.spec
    obtain ⟨w, hw'⟩ : ∃ w, f.w = w + 1 := ⟨f.w - 1, by omega⟩
    simp only [hw']
    rw [pow_succ, Nat.add_sub_cancel]
    ring
  unfold Spec.Ieee.Format.limit
  rw [e, zpow_add₀ (by norm_num), zpow_natCast]
  have e5 : f.spec.fractionBits = f.t := rfl
  rw [e5, pow_succ]
  field_simp

theorem code_zero : f.code 0 = 0 := if_pos rfl

theorem code_abs_lt_top (hw : 2 ≤ f.w) (q : Rat) : f.code |q| < f.top ↔ |q| < f.spec.limit := by
  rw [limit_eq (by omega)]
  by_cases h : q = 0
  · subst h
    rw [abs_zero, code_zero]
    have h1 : 0 < f.top := by
      unfold Fmt.top
      have : 2 ^ 2 ≤ 2 ^ f.w := Nat.pow_le_pow_right (by norm_num) hw
      exact Nat.mul_pos (by omega) (by positivity)
    have h2 : (0 : Rat) < (2 ^ (f.t + 1) - 1 / 2) * 2 ^ emax f := by
      have : (1 : Rat) ≤ 2 ^ (f.t + 1) := one_le_pow₀ (by norm_num)
      refine mul_pos (by linarith) (by positivity)
    exact ⟨fun _ => h2, fun _ => h1⟩
  · exact code_lt_top hw (abs_pos.2 h)

theorem top_lt : f.top < 2 ^ (f.w + f.t) := by
  unfold Fmt.top
  rw [pow_add]
  exact Nat.mul_lt_mul_of_pos_right (Nat.sub_lt (by positivity) (by norm_num)) (by positivity)

/-- The bits of a number. -/
def packed (f : Fmt) (q : Rat) : List Bool := decide (q < 0) :: natBits (f.w + f.t) (f.code |q|)

theorem packed_number {q : Rat} (h : f.code |q| < f.top) : f.spec.number? (packed f q) = some (f.round q) := by
  unfold packed
  rw [number?_cons _ (natBits_length _ _), natOfBits_natBits _ _ (h.trans top_lt), if_pos h, value_code_abs]
  congr 1
  by_cases hq : q < 0
  · rw [decide_eq_true hq, if_pos rfl, abs_of_neg hq, round_neg, neg_neg]
  · rw [decide_eq_false hq, if_neg (by simp), abs_of_nonneg (not_lt.1 hq)]

/-- Patterns stand for numbers of the format. -/
theorem in_of_number {l : List Bool} {v : Rat} (hl : l.length = f.spec.length) (h : f.spec.number? l = some v) : In f v := by
  cases l with
  | nil => simp [Spec.Ieee.Format.length] at hl; omega
  | cons b bits =>
    have hb : bits.length = f.w + f.t := by
      simp only [Spec.Ieee.Format.length, Fmt.spec, List.length_cons] at hl; omega
    rw [number?_cons b hb] at h
    split at h
    · injection h with h
      refine ⟨natOfBits bits, ?_⟩
      rw [← h]
      cases b
      · simp [abs_of_nonneg (value_nonneg (f := f) _)]
      · simp [abs_of_nonneg (value_nonneg (f := f) _)]
    · cases h

theorem getLast_natBits {n c : Nat} (hn : 0 < n) (b : Bool) : (b :: natBits n c).getLast? = some (c.testBit 0) := by
  obtain ⟨m, rfl⟩ : ∃ m, n = m + 1 := ⟨n - 1, by omega⟩
  unfold natBits
  rw [List.range_succ, List.map_append, ← List.cons_append, List.map_singleton, List.getLast?_concat]
  simp

theorem nearest_packed (ht : 1 ≤ f.t) {q : Rat} (h : f.code |q| < f.top) :
    Spec.Ieee.Nearest f.spec q (packed f q) (f.round q) where
  length := by simp [packed, Spec.Ieee.Format.length, Fmt.spec]; omega
  value := packed_number h
  closest := fun l' v' hl hv => round_best (in_of_number hl hv)
  even := by
    intro l' v' hl hv hne he
    unfold packed
    rw [getLast_natBits (by omega)]
    have key : f.code |q| % 2 = 0 := by
      have pos : ∀ a : Rat, 0 < a → ∀ v, In f v → v ≠ f.round a → |v - a| = |f.round a - a| → f.code |a| % 2 = 0 := by
        intro a ha v ⟨c, hc⟩ hne he
        rw [abs_of_pos ha]
        rw [round_pos ha] at hne he
        by_cases hv : 0 ≤ v
        · rw [abs_of_nonneg hv] at hc
          rw [← hc] at hne he
          exact code_tie ha ht c hne he
        · exfalso
          have h0 := code_best (f := f) ha 0
          rw [value_zero, zero_sub, abs_neg, abs_of_pos ha, ← he, abs_of_neg (by linarith)] at h0
          linarith
      have hin := in_of_number hl hv
      rcases lt_trichotomy q 0 with hq | hq | hq
      · have := pos (-q) (by linarith) (-v') hin.neg (by rw [round_neg]; intro hh; exact hne (neg_inj.1 hh)) (by
          rw [round_neg]
          have e1 : -f.round q - -q = -(f.round q - q) := by ring
          have e2 : -v' - -q = -(v' - q) := by ring
          rw [e1, e2, abs_neg, abs_neg, he])
        rwa [abs_neg] at this
      · rw [hq, abs_zero, code_zero]
      · exact pos q hq v' hin hne he
    congr 1
    simp only [Nat.testBit_zero, decide_eq_false_iff_not]
    omega

theorem isDouble_iff (q : Rat) : Spec.Ieee.IsDouble q ↔ In binary64 q ∧ |q| < Spec.Ieee.double.limit := by
  constructor
  · rintro ⟨l, hl, hv⟩
    have hin := in_of_number (f := binary64) hl hv
    refine ⟨hin, ?_⟩
    have := (code_abs_lt_top (f := binary64) (by decide) q).1
    apply this
    obtain ⟨b, bits, rfl⟩ : ∃ b bits, l = b :: bits := by
      cases l with
      | nil => cases hl
      | cons b bits => exact ⟨b, bits, rfl⟩
    have hb : bits.length = binary64.w + binary64.t := by
      simp only [List.length_cons] at hl
      show bits.length = 63
      omega
    have h2 := number?_cons (f := binary64) b hb
    change Spec.Ieee.double.number? (b :: bits) = _ at h2
    rw [hv] at h2
    split at h2
    · rename_i hlt
      injection h2 with h2
      have habs : |q| = binary64.value (natOfBits bits) := by
        rw [h2]
        cases b <;> simp [abs_of_nonneg (value_nonneg (f := binary64) _)]
      rw [habs]
      by_cases h0 : natOfBits bits = 0
      · rw [h0, value_zero, code_zero]; decide
      · rwa [code_value _ h0]
    · cases h2
  · rintro ⟨hin, hlt⟩
    refine ⟨packed binary64 q, by simp [packed, binary64], ?_⟩
    have := packed_number (f := binary64) ((code_abs_lt_top (f := binary64) (by decide) q).2 hlt)
    rw [round_of_in hin] at this
    exact this

end Cantools.Ieee
