import Verif.Spec.Codec
import Verif.Lemmas.Path
import Mathlib.Tactic.Linarith
import Mathlib.Data.Rat.Floor
import Mathlib.Tactic.FieldSimp
import Mathlib.Tactic.Ring

namespace Cantools
open Spec

/-! ### Rounding -/

theorem floor_le' (q : Rat) : (q.floor : Rat) ≤ q := Rat.floor_le q

theorem lt_floor' (q : Rat) : q < (q.floor : Rat) + 1 := by
  have := Rat.lt_floor_add_one q
  simpa using this

theorem pyRound_nearest (q : Rat) : NearestEven q (pyRound q) := by
  have h1 := floor_le' q
  have h2 := lt_floor' q
  simp only [NearestEven, pyRound]
  split
  · refine ⟨by linarith, by linarith, ?_⟩
    rintro (h | h) <;> linarith
  · split
    · push_cast
      refine ⟨by linarith, by linarith, ?_⟩
      rintro (h | h) <;> linarith
    · have h3 : q - q.floor = 1/2 := by linarith
      split
      · rename_i hev
        exact ⟨by linarith, by linarith, fun _ => hev⟩
      · push_cast
        refine ⟨by linarith, by linarith, fun _ => by omega⟩

theorem nearest_unique {q : Rat} {i j : Int} (hi : NearestEven q i) (hj : NearestEven q j) :
    i = j := by
  obtain ⟨a1, a2, a3⟩ := hi
  obtain ⟨b1, b2, b3⟩ := hj
  have h1 : (i : Rat) - j ≤ 1 := by linarith
  have h2 : (j : Rat) - i ≤ 1 := by linarith
  have h1' : i - j ≤ 1 := by exact_mod_cast h1
  have h2' : j - i ≤ 1 := by exact_mod_cast h2
  by_cases he : i = j
  · exact he
  · rcases (by omega : i = j + 1 ∨ j = i + 1) with h | h
    · subst h
      push_cast at *
      have e1 := a3 (.inr (by linarith))
      have e2 := b3 (.inl (by linarith))
      omega
    · subst h
      push_cast at *
      have e1 := a3 (.inl (by linarith))
      have e2 := b3 (.inr (by linarith))
      omega

theorem pyRound_iff {q : Rat} {i : Int} : pyRound q = i ↔ NearestEven q i :=
  ⟨fun h => h ▸ pyRound_nearest q, fun h => nearest_unique (pyRound_nearest q) h⟩

theorem pyRound_int (i : Int) : pyRound (i : Rat) = i := by
  rw [pyRound_iff]; refine ⟨by simp, by simp, ?_⟩
  simp

theorem pyInt_int (i : Int) : pyInt (i : Rat) = i := by
  unfold pyInt; split
  · simp [Rat.floor_intCast]
  · simp [Rat.ceil_intCast]

/-! ### Conversions -/

theorem factory_scale (scale offset : Rat) (fl : Bool) :
    (BaseConv.factory scale offset fl).scale = scale ∧
    (BaseConv.factory scale offset fl).offset = offset ∧
    (BaseConv.factory scale offset fl).isFloat = fl := by
  unfold BaseConv.factory
  split
  · rename_i h; simp [BaseConv.scale, BaseConv.offset, BaseConv.isFloat, h.1, h.2]
  · split
    · rename_i h
      refine ⟨?_, ?_, ?_⟩
      · simp only [BaseConv.scale]; exact (Rat.den_eq_one_iff _).1 h.1
      · simp only [BaseConv.offset]; exact (Rat.den_eq_one_iff _).1 h.2.1
      · simp [BaseConv.isFloat, h.2.2]
    · simp [BaseConv.scale, BaseConv.offset, BaseConv.isFloat]

theorem rawToScaled_eq (b : BaseConv) (r : Rat) :
    b.rawToScaled r = r * b.scale + b.offset := by
  cases b <;> simp [BaseConv.rawToScaled, BaseConv.scale, BaseConv.offset]

theorem scaledToRaw_eq (b : BaseConv) (x : Rat) :
    b.numericScaledToRaw x =
      if b.scale = 0 then .error .zeroDivisionError
      else .ok (if b.isFloat then (x - b.offset) / b.scale
        else (pyRound ((x - b.offset) / b.scale) : Int)) := by
  cases b with
  | identity f => simp [BaseConv.numericScaledToRaw, BaseConv.scale, BaseConv.offset,
      BaseConv.isFloat]
  | linear s o f => rfl
  | linearInteger s o =>
    by_cases hs : s = 0
    · subst hs; rfl
    · have hs' : (BaseConv.linearInteger s o).scale ≠ 0 := by
        simp only [BaseConv.scale]; exact_mod_cast hs
      rw [if_neg hs']
      simp only [BaseConv.numericScaledToRaw, BaseConv.isFloat, Bool.false_eq_true, if_false]
      rw [if_neg hs]
      congr 3
      simp only [BaseConv.scale] at hs'
      split
      · rename_i h
        simp only [BaseConv.scale, BaseConv.offset]
        field_simp
        linarith
      · rfl

theorem built_scale {c : Conversion} (h : Built c) :
    c.inner.scale = c.scale ∧ c.inner.offset = c.offset := by
  obtain ⟨sc, of, ch, fl, rfl⟩ := h
  cases ch with
  | none => simp [Conversion.factory, Conversion.inner, Conversion.scale, Conversion.offset]
  | some cs =>
    simp only [Conversion.factory, Conversion.inner, Conversion.scale, Conversion.offset]
    exact ⟨(factory_scale sc of fl).1, (factory_scale sc of fl).2.1⟩

theorem inverse_get (cs : Choices) (name : String) :
    dictGet? (inverseChoices cs) name =
      (cs.reverse.find? fun e => e.2.toStr == name).map (·.1) := by
  unfold inverseChoices
  induction cs using List.reverseRecOn with
  | nil => rfl
  | append_singleton l c ih =>
    simp only [List.foldl_append, List.foldl_cons, List.foldl_nil, List.reverse_append,
      List.reverse_cons, List.reverse_nil, List.nil_append, List.cons_append, List.find?_cons]
    rw [dictGet?_set, ih]
    by_cases h : c.2.toStr = name
    · simp [h]
    · have hb : (c.2.toStr == name) = false := by simpa using h
      rw [if_neg h, hb]

theorem choiceToNumber_ok {s : Signal} (h : Built s.conversion) {name : String} {i : Int} :
    s.conversion.choiceToNumber name = .ok i ↔ numberNamed s name = some i := by
  obtain ⟨sc, of, ch, fl, hc⟩ := h
  unfold numberNamed table
  rw [hc]
  cases ch with
  | none => simp [Conversion.factory, Conversion.choiceToNumber, Conversion.choices]
  | some cs =>
    simp only [Conversion.factory, Conversion.choiceToNumber, Conversion.choices,
      Option.getD_some]
    rw [inverse_get]
    cases (List.find? (fun e => e.2.toStr == name) cs.reverse).map (·.1) <;> simp

theorem toOption_choiceToNumber {s : Signal} (h : Built s.conversion) (name : String) :
    (s.conversion.choiceToNumber name).toOption = numberNamed s name := by
  apply Option.ext
  intro i
  rw [toOption_eq_some]
  exact choiceToNumber_ok h

theorem encodeSignalValue_iff {s : Signal} (h : Built s.conversion) {v : Value} {scaling : Bool}
    {r : Rat} : encodeSignalValue s v scaling = .ok r ↔ RawOf s scaling v r := by
  cases v with
  | num q =>
    have hsc := built_scale h
    simp only [encodeSignalValue, RawOf]
    cases scaling with
    | true =>
      simp only [if_true, forall_const, Conversion.numericScaledToRaw]
      rw [scaledToRaw_eq, hsc.1, hsc.2,
        show s.conversion.inner.isFloat = s.conversion.isFloat from rfl]
      by_cases h0 : s.conversion.scale = 0
      · simp [h0]
      · simp only [h0, if_false, ne_eq, not_false_eq_true, true_and, Except.ok.injEq]
        constructor
        · intro he
          refine ⟨_, rfl, ?_⟩
          split at he
          · rename_i hf; rw [if_pos hf]; exact he.symm
          · rename_i hf; rw [if_neg hf]; exact ⟨_, he.symm, pyRound_nearest _⟩
        · rintro ⟨x, rfl, hx⟩
          split at hx
          · rename_i hf; rw [if_pos hf]; exact hx.symm
          · rename_i hf; rw [if_neg hf]
            obtain ⟨i, rfl, hi⟩ := hx
            rw [pyRound_iff.2 hi]
    | false =>
      simp only [Bool.false_eq_true, if_false, false_imp_iff, true_and, Except.ok.injEq]
      constructor
      · intro he
        refine ⟨_, rfl, ?_⟩
        split at he
        · rename_i hf; rw [if_pos hf]; exact he.symm
        · rename_i hf; rw [if_neg hf]; exact ⟨_, he.symm, pyRound_nearest _⟩
      · rintro ⟨x, rfl, hx⟩
        split at hx
        · rename_i hf; rw [if_pos hf]; exact hx.symm
        · rename_i hf; rw [if_neg hf]
          obtain ⟨i, rfl, hi⟩ := hx
          rw [pyRound_iff.2 hi]
  | str c =>
    simp only [encodeSignalValue, RawOf, Except.map_eq_ok]
    constructor
    · rintro ⟨i, h1, h2⟩; exact ⟨i, (choiceToNumber_ok h).1 h1, h2.symm⟩
    · rintro ⟨i, h1, h2⟩; exact ⟨i, (choiceToNumber_ok h).2 h1, h2.symm⟩
  | named nv =>
    simp only [encodeSignalValue, RawOf]
    have key : (s.conversion.rawToScaled nv.value true = .named nv
        ∨ s.conversion.rawToScaled nv.value true = .str nv.name) ↔
        (dictGet? (table s) nv.value = some (.named nv) ∨
      dictGet? (table s) nv.value = some (.str nv.name)) := by
      obtain ⟨sc, of, ch, fl, hc⟩ := h
      unfold table
      rw [hc]
      cases ch with
      | none => simp [Conversion.factory, Conversion.rawToScaled, Conversion.choices]
      | some cs =>
        simp only [Conversion.factory, Conversion.rawToScaled, Conversion.choices,
          Option.getD_some, if_true, pyInt_int]
        cases hd : dictGet? cs nv.value with
        | none => simp
        | some c => cases c <;> simp [Choice.toValue]
    rw [← key]
    constructor
    · intro he
      split at he
      · rename_i hk; cases he; exact ⟨rfl, hk⟩
      · cases he
    · rintro ⟨rfl, hk⟩
      rw [if_pos hk]

/-! ### Bits of integers -/

theorem intBit_emod {v : Int} {n j : Nat} (h : j < n) : intBit (v % 2 ^ n) j = intBit v j := by
  unfold intBit
  have h1 : (2 : Int) ^ n = 2 ^ j * (2 * 2 ^ (n - j - 1)) := by
    rw [← mul_assoc, ← pow_succ, ← pow_add]; congr 1; omega
  have h2 : v = v % 2 ^ n + 2 ^ j * (2 * 2 ^ (n - j - 1) * (v / 2 ^ n)) := by
    have := Int.emod_add_mul_ediv v (2 ^ n)
    rw [← mul_assoc, ← h1]; exact this.symm
  have h3 : v / 2 ^ j = v % 2 ^ n / 2 ^ j + (2 * 2 ^ (n - j - 1) * (v / 2 ^ n)) := by
    conv_lhs => rw [h2]
    exact Int.add_mul_ediv_left _ _ (by positivity)
  rw [h3]
  have : (2 * 2 ^ (n - j - 1) * (v / 2 ^ n) : Int) = 2 * (2 ^ (n - j - 1) * (v / 2 ^ n)) := by ring
  rw [this, Int.add_mul_emod_self_left]

theorem testBit_intBit (n j : Nat) : n.testBit j = intBit (n : Int) j := by
  rw [Nat.testBit_eq_decide_div_mod_eq]
  unfold intBit
  congr 1
  have : ((n : Int) / 2 ^ j % 2) = ((n / 2 ^ j % 2 : Nat) : Int) := by push_cast; rfl
  rw [this]
  apply propext
  norm_cast

theorem toNat_testBit {v : Int} {n j : Nat} (h : j < n) :
    (v % 2 ^ n).toNat.testBit j = intBit v j := by
  rw [testBit_intBit, Int.toNat_of_nonneg (Int.emod_nonneg _ (by positivity)), intBit_emod h]

theorem emod_eq_of_bits {v w : Int} {n : Nat} (h : ∀ j, j < n → intBit v j = intBit w j) :
    v % 2 ^ n = w % 2 ^ n := by
  have h1 : (v % 2 ^ n).toNat = (w % 2 ^ n).toNat := by
    apply Nat.eq_of_testBit_eq
    intro j
    by_cases hj : j < n
    · rw [toNat_testBit hj, toNat_testBit hj, h j hj]
    · have lt : ∀ x : Int, (x % 2 ^ n).toNat < 2 ^ n := by
        intro x
        have h1 := Int.emod_nonneg x (show (2 : Int) ^ n ≠ 0 by positivity)
        have h2 := Int.emod_lt_of_pos x (show (0 : Int) < 2 ^ n by positivity)
        zify
        rw [Int.toNat_of_nonneg h1]; exact h2
      have big : 2 ^ n ≤ 2 ^ j := Nat.pow_le_pow_right (by omega) (by omega)
      rw [Nat.testBit_lt_two_pow (lt_of_lt_of_le (lt v) big),
        Nat.testBit_lt_two_pow (lt_of_lt_of_le (lt w) big)]
  have a := Int.emod_nonneg v (show (2 : Int) ^ n ≠ 0 by positivity)
  have b := Int.emod_nonneg w (show (2 : Int) ^ n ≠ 0 by positivity)
  omega

theorem emod_signed {v : Int} {n : Nat} (hn : 0 < n) (h1 : -(2 ^ (n - 1)) ≤ v)
    (h2 : v < 2 ^ (n - 1)) : v = if 2 ^ (n - 1) ≤ v % 2 ^ n then v % 2 ^ n - 2 ^ n else v % 2 ^ n := by
  have hp : (2 : Int) ^ n = 2 * 2 ^ (n - 1) := by
    rw [← pow_succ']; congr 1; omega
  by_cases hv : 0 ≤ v
  · have : v % 2 ^ n = v := Int.emod_eq_of_lt hv (by omega)
    rw [this, if_neg (by omega)]
  · have : v % 2 ^ n = v + 2 ^ n := by
      rw [← Int.add_emod_right]; exact Int.emod_eq_of_lt (by omega) (by omega)
    rw [this, if_pos (by omega)]; omega

theorem inRange_unique {s : Signal} (hl : 0 < s.length) {v w : Int} (hv : InRange s v)
    (hw : InRange s w) (h : ∀ j, j < s.length → intBit v j = intBit w j) : v = w := by
  have he := emod_eq_of_bits h
  unfold InRange at hv hw
  split at hv
  · rename_i hs
    rw [if_pos hs] at hw
    rw [emod_signed hl hv.1 hv.2, emod_signed hl hw.1 hw.2, he]
  · rename_i hs
    rw [if_neg hs] at hw
    rw [Int.emod_eq_of_lt hv.1 hv.2, Int.emod_eq_of_lt hw.1 hw.2] at he
    exact he

theorem readsAs_unique {s : Signal} (hl : 0 < s.length) {d : Bytes} {v w : Int}
    (hv : ReadsAs s d v) (hw : ReadsAs s d w) : v = w :=
  inRange_unique hl hv.1 hw.1 fun j hj => (hv.2 j hj).symm.trans (hw.2 j hj)

/-! ### Fields -/

theorem kind_float {s : Signal} (h : s.conversion.isFloat = true) : s.kind = .f := by
  simp [Signal.kind, h]

/-- Packing an integer field. -/
theorem packField_int {fo : FloatOps} {s : Signal} (hf : s.conversion.isFloat = false) {i : Int}
    {l : List Bool} : packField fo s.kind s.length (i : Rat) = .ok l ↔
      InRange s i ∧ l = natBits s.length (i % 2 ^ s.length).toNat := by
  unfold Signal.kind InRange
  simp only [hf, Bool.false_eq_true, if_false]
  cases hs : s.isSigned with
  | true =>
    simp only [if_true, packField, pyInt_int]
    constructor
    · intro h; split at h
      · rename_i hr; cases h; exact ⟨hr, rfl⟩
      · cases h
    · rintro ⟨hr, rfl⟩; rw [if_pos hr]
  | false =>
    simp only [Bool.false_eq_true, if_false, packField, pyInt_int]
    constructor
    · intro h; split at h
      · rename_i hr; cases h
        exact ⟨hr, by rw [Int.emod_eq_of_lt hr.1 hr.2]⟩
      · cases h
    · rintro ⟨hr, rfl⟩; rw [if_pos hr, Int.emod_eq_of_lt hr.1 hr.2]

theorem rawOf_int {s : Signal} {scaling : Bool} {v : Value} {r : Rat}
    (hf : s.conversion.isFloat = false) (h : RawOf s scaling v r) : ∃ i : Int, r = i := by
  cases v with
  | num q =>
    obtain ⟨_, x, _, hx⟩ := h
    rw [hf] at hx
    obtain ⟨i, hi, _⟩ := hx
    exact ⟨i, hi⟩
  | str c => obtain ⟨i, _, hi⟩ := h; exact ⟨i, hi⟩
  | named nv => exact ⟨_, h.1⟩

/-- A value can be packed exactly if it stands for a representable raw number. -/
theorem encOk_iff {fo : FloatOps} {data : List (String × Value)} {scaling : Bool} {s : Signal}
    (hb : Built s.conversion) : EncOk fo data scaling s ↔
      ∃ v r, dictGet? data s.name = some v ∧ RawOf s scaling v r ∧ Representable fo s r := by
  unfold EncOk Representable
  constructor
  · rintro ⟨v, r, l, h1, h2, h3⟩
    rw [encodeSignalValue_iff hb] at h2
    refine ⟨v, r, h1, h2, ?_⟩
    cases hf : s.conversion.isFloat with
    | true =>
      rw [kind_float hf] at h3
      simp only [if_true]; exact ⟨l, h3⟩
    | false =>
      obtain ⟨i, rfl⟩ := rawOf_int hf h2
      simp only [Bool.false_eq_true, if_false]
      exact ⟨i, rfl, ((packField_int hf).1 h3).1⟩
  · rintro ⟨v, r, h1, h2, h3⟩
    cases hf : s.conversion.isFloat with
    | true =>
      rw [hf] at h3; simp only [if_true] at h3
      obtain ⟨l, hl⟩ := h3
      exact ⟨v, r, l, h1, (encodeSignalValue_iff hb).2 h2, by rw [kind_float hf]; exact hl⟩
    | false =>
      rw [hf] at h3; simp only [Bool.false_eq_true, if_false] at h3
      obtain ⟨i, rfl, hi⟩ := h3
      exact ⟨v, i, _, h1, (encodeSignalValue_iff hb).2 h2, (packField_int hf).2 ⟨hi, rfl⟩⟩

/-- The bits of a packed value. -/
theorem encBit_spec {fo : FloatOps} {data : List (String × Value)} {scaling : Bool} {s : Signal}
    (hb : Built s.conversion) {d : Bytes} (h : EncOk fo data scaling s)
    (hbits : ∀ j, j < s.length → payloadBit d (bitPos s j) = encBit fo data scaling s j) :
    ∃ v r, dictGet? data s.name = some v ∧ RawOf s scaling v r ∧ Carries fo s d r := by
  obtain ⟨v, r, l, h1, h2, h3⟩ := h
  have hl : encBits fo data scaling s = l := by
    unfold encBits; simp only [h1, h2, h3]
  have h2' := (encodeSignalValue_iff hb).1 h2
  refine ⟨v, r, h1, h2', ?_⟩
  unfold Carries
  cases hf : s.conversion.isFloat with
  | true =>
    rw [kind_float hf] at h3
    simp only [if_true]
    refine ⟨l, h3, fun j hj => ?_⟩
    rw [hbits j hj, encBit, hl]
  | false =>
    obtain ⟨i, rfl⟩ := rawOf_int hf h2'
    obtain ⟨h4, h5⟩ := (packField_int hf).1 h3
    simp only [Bool.false_eq_true, if_false]
    refine ⟨i, rfl, h4, fun j hj => ?_⟩
    rw [hbits j hj, encBit, hl, h5]
    have hlt : s.length - 1 - j < (natBits s.length (i % 2 ^ s.length).toNat).length := by
      simp [natBits]; omega
    rw [List.getD_eq_getElem?_getD, List.getElem?_eq_getElem hlt, natBits_getElem,
      Option.getD_some]
    have : s.length - 1 - (s.length - 1 - j) = j := by omega
    rw [this, toNat_testBit hj]

theorem readBits_eq (s : Signal) (d : Bytes) : readBits s d =
    (List.range s.length).map fun k => payloadBit d (bitPos s (s.length - 1 - k)) := rfl

theorem unpack_rawIn {fo : FloatOps} {s : Signal} (hl : 0 < s.length) (d : Bytes) :
    RawIn fo s d (unpackField fo s.kind (readBits s d)) := by
  unfold RawIn
  cases hf : s.conversion.isFloat with
  | true => simp only [if_true, kind_float hf, unpackField]; rfl
  | false =>
    simp only [Bool.false_eq_true, if_false]
    have hlen : (readBits s d).length = s.length := by simp [readBits]
    have hlt := natOfBits_lt (readBits s d)
    rw [hlen] at hlt
    have hbit : ∀ j, j < s.length →
        payloadBit d (bitPos s j) = (natOfBits (readBits s d)).testBit j := by
      intro j hj
      rw [natOfBits_testBit, hlen, readBits_getD _ _ _ (by omega)]
      have : s.length - 1 - (s.length - 1 - j) = j := by omega
      rw [this]; simp [hj]
    unfold Signal.kind
    simp only [hf, Bool.false_eq_true, if_false]
    cases hs : s.isSigned with
    | false =>
      simp only [Bool.false_eq_true, if_false, unpackField]
      refine ⟨(natOfBits (readBits s d) : Int), by push_cast; rfl, ?_, ?_⟩
      · simp only [InRange, hs, Bool.false_eq_true, if_false]
        exact ⟨by positivity, by exact_mod_cast hlt⟩
      · intro j hj; rw [hbit j hj, testBit_intBit]
    | true =>
      simp only [if_true, unpackField, hlen]
      have hhead : (readBits s d).head? = some ((natOfBits (readBits s d)).testBit (s.length - 1)) := by
        rw [← hbit _ (by omega), List.head?_eq_getElem?]
        rw [readBits_eq, List.getElem?_map, List.getElem?_range hl]
        simp
      rw [hhead]
      have hp : (2 : Nat) ^ s.length = 2 * 2 ^ (s.length - 1) := by
        rw [← pow_succ']; congr 1; omega
      have htop : (natOfBits (readBits s d)).testBit (s.length - 1) =
          decide (2 ^ (s.length - 1) ≤ natOfBits (readBits s d)) := by
        rw [Nat.testBit_eq_decide_div_mod_eq]
        congr 1
        apply propext
        have hpos : 0 < 2 ^ (s.length - 1) := by positivity
        constructor
        · intro h
          by_contra hc
          rw [Nat.div_eq_of_lt (by omega)] at h; simp at h
        · intro h
          have : natOfBits (readBits s d) / 2 ^ (s.length - 1) = 1 := by
            apply Nat.div_eq_of_lt_le <;> omega
          rw [this]
      rw [htop]
      by_cases hge : 2 ^ (s.length - 1) ≤ natOfBits (readBits s d)
      · simp only [hge, decide_true, if_true]
        refine ⟨(natOfBits (readBits s d) : Int) - 2 ^ s.length, by push_cast; rfl, ?_, ?_⟩
        · simp only [InRange, hs, if_true]
          zify at hge hlt hp
          constructor
          · omega
          · have : (0 : Int) < 2 ^ (s.length - 1) := by positivity
            omega
        · intro j hj
          rw [hbit j hj, testBit_intBit, ← intBit_emod (v := (natOfBits (readBits s d) : Int)) hj,
            ← intBit_emod (v := (natOfBits (readBits s d) : Int) - 2 ^ s.length) hj,
            Int.sub_emod_right]
      · simp only [hge, decide_false, Option.some.injEq, Bool.false_eq_true, if_false]
        refine ⟨(natOfBits (readBits s d) : Int), rfl, ?_, ?_⟩
        · simp only [InRange, hs, if_true]
          zify at hge
          have : (0 : Int) < 2 ^ (s.length - 1) := by positivity
          constructor <;> omega
        · intro j hj; rw [hbit j hj, testBit_intBit]

theorem rawIn_unique {fo : FloatOps} {s : Signal} (hl : 0 < s.length) {d : Bytes} {r r' : Rat}
    (h : RawIn fo s d r) (h' : RawIn fo s d r') : r = r' := by
  unfold RawIn at h h'
  split at h
  · rename_i hf; rw [if_pos hf] at h'; rw [h, h']
  · rename_i hf; rw [if_neg hf] at h'
    obtain ⟨i, rfl, hi⟩ := h
    obtain ⟨j, rfl, hj⟩ := h'
    rw [readsAs_unique hl hi hj]

/-! ### Shown values -/

theorem rawIn_den {fo : FloatOps} {s : Signal} {d : Bytes} {r : Rat}
    (hf : s.conversion.isFloat = false) (h : RawIn fo s d r) : r.den = 1 := by
  unfold RawIn at h
  rw [hf] at h
  obtain ⟨i, rfl, _⟩ := h
  simp

/-- Signals whose shown value the code computes as specified: everything but float signals with a
value table. -/
def PlainTable (s : Signal) : Prop := s.conversion.isFloat = true → s.conversion.choices = none

theorem decodeSignalValue_eq {s : Signal} (hb : Built s.conversion) {r : Rat} {dc sc : Bool}
    (h : r.den = 1 ∨ s.conversion.choices = none) :
    decodeSignalValue s r dc sc = shown s dc sc r := by
  have hsc := built_scale hb
  have hcs : ∀ a, s.conversion.choices = some a → ∃ x y z b, s.conversion = .named x y a z b := by
    intro a ha
    cases hc : s.conversion with
    | base b => rw [hc] at ha; simp [Conversion.choices] at ha
    | named x y a' z b => rw [hc] at ha; simp [Conversion.choices] at ha; subst ha; exact ⟨x, y, z, b, rfl⟩
  have hnum : ∀ x, s.conversion.inner.rawToScaled x = x * s.conversion.scale + s.conversion.offset := by
    intro x; rw [rawToScaled_eq, hsc.1, hsc.2]
  unfold decodeSignalValue shown table
  cases hch : s.conversion.choices with
  | none =>
    have hbase : s.conversion = .base s.conversion.inner := by
      cases hc : s.conversion with
      | base b => rfl
      | named => rw [hc] at hch; simp [Conversion.choices] at hch
    have hrs : s.conversion.rawToScaled r dc = .num (r * s.conversion.scale + s.conversion.offset) := by
      rw [← hnum, hbase]; rfl
    rw [hrs]
    cases dc <;> cases sc <;> simp
  | some cs =>
    have hden : r.den = 1 := by rcases h with h | h; exact h; rw [hch] at h; cases h
    obtain ⟨x, y, z, b, hc⟩ := hcs cs hch
    have hpi : pyInt r = r.num := by
      have : r = (r.num : Rat) := ((Rat.den_eq_one_iff _).1 hden).symm
      conv_lhs => rw [this]
      exact pyInt_int _
    have hrs : s.conversion.rawToScaled r dc =
        match (if dc then dictGet? cs r.num else none) with
        | some ch => ch.toValue
        | none => .num (r * s.conversion.scale + s.conversion.offset) := by
      rw [← hnum, hc, ← hpi]; rfl
    rw [hrs]
    simp only [hden, and_true, Option.getD_some, if_true]
    cases dc with
    | false => cases sc <;> simp
    | true =>
      simp only [if_true]
      cases hd : dictGet? cs r.num with
      | none => cases sc <;> simp
      | some c => cases c <;> cases sc <;> simp [Choice.toValue]

theorem shown_selector_isSome {s : Signal} {dc sc : Bool} {r : Rat} :
    (selectorNumber s (shown s dc sc r)).isSome := by
  have key : ∀ (k : Int) (c : Choice), dictGet? (table s) k = some c →
      (numberNamed s c.toStr).isSome := by
    intro k c hc
    unfold numberNamed
    rw [Option.isSome_map, List.find?_isSome]
    exact ⟨(k, c), by simp [dictGet?_mem hc], by simp⟩
  unfold shown
  split
  · rename_i c hc
    split at hc
    · exact key _ _ hc
    · cases hc
  · rename_i nv hc
    split at hc
    · exact key _ _ hc
    · cases hc
  · rfl

/-- `_get_mux_number` computes the selector number. -/
theorem getMuxNumber_eq {sigs : List Signal} (hnd : (sigs.map (·.name)).Nodup) {s : Signal}
    (hs : s ∈ sigs) (hb : Built s.conversion) {data : List (String × Value)} {v : Value}
    (hv : dictGet? data s.name = some v) :
    (getMuxNumber sigs data s.name).toOption = selectorNumber s v := by
  unfold getMuxNumber
  simp only [hv]
  cases v with
  | num q => rfl
  | str c =>
    simp only [signalByName_eq hnd hs, selectorNumber]
    rw [← toOption_choiceToNumber hb]
    change ((s.conversion.choiceToNumber c).mapError _).toOption = _
    cases s.conversion.choiceToNumber c <;> rfl
  | named nv =>
    simp only [signalByName_eq hnd hs, selectorNumber]
    rw [← toOption_choiceToNumber hb]
    change ((s.conversion.choiceToNumber nv.name).mapError _).toOption = _
    cases s.conversion.choiceToNumber nv.name <;> rfl

end Cantools
