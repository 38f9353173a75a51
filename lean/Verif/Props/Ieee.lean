import Verif.Lemmas.IeeeScaling
import Verif.Props.Decode

/-
Properties of floating point numbers: C56.
-/

namespace Cantools
open Spec

/-! ### Float signals -/

/-- C56: a pattern of 16, 32 or 64 bits that is a finite number is decoded as that number. -/
theorem C56_unpack {n : Nat} {f : Spec.Ieee.Format} (hf : Spec.Ieee.FormatOf n f) {l : List Bool} {v : Rat}
    (hl : l.length = n) (hv : f.number? l = some v) : Ieee.ops.unpack l = v := by
  obtain ⟨g, h1, rfl, h2, -, -⟩ := Ieee.fmt?_spec hf
  cases l with
  | nil => simp only [List.length_nil] at hl; omega
  | cons b bits =>
    have hb : bits.length = g.w + g.t := by simp only [List.length_cons] at hl; omega
    rw [Ieee.number?_cons b hb] at hv
    show Ieee.unpack (b :: bits) = v
    unfold Ieee.unpack
    rw [hl, h1]
    dsimp only
    split at hv
    · injection hv with hv
      rw [← hv]
      cases b <;> rfl
    · cases hv

example : Ieee.ops.unpack [false, true, false, false, false, false, true, false, false, false, false, false, false, false, false, false] = 3 :=
  C56_unpack .half rfl (by decide +kernel)

theorem pack_eq {n : Nat} {f : Ieee.Fmt} (h : Ieee.fmt? n = some f) (q : Rat) :
    Ieee.ops.pack n q = if f.code |q| < f.top then .ok (Ieee.packed f q) else .error .overflowError := by
  show Ieee.pack n q = _
  unfold Ieee.pack
  rw [h]
  rfl

/-- C56: encoding stores the nearest number, and of two nearest ones the one whose last bit is zero. -/
theorem C56_pack {n : Nat} {f : Spec.Ieee.Format} (hf : Spec.Ieee.FormatOf n f) {q : Rat} (hq : |q| < f.limit) :
    ∃ l v, Ieee.ops.pack n q = .ok l ∧ Spec.Ieee.Nearest f q l v ∧ Ieee.ops.unpack l = v := by
  obtain ⟨g, h1, rfl, h2, h3, h4⟩ := Ieee.fmt?_spec hf
  have hlt := (Ieee.code_abs_lt_top h3 q).2 hq
  have hn := Ieee.nearest_packed h4 hlt
  refine ⟨Ieee.packed g q, g.round q, ?_, hn, ?_⟩
  · rw [pack_eq h1, if_pos hlt]
  · exact C56_unpack hf (by rw [hn.length, h2]; rfl) hn.value

/-- C56: exactly the numbers beyond the largest one of the format are rejected. -/
theorem C56_overflow {n : Nat} {f : Spec.Ieee.Format} (hf : Spec.Ieee.FormatOf n f) {q : Rat} (hq : f.limit ≤ |q|) :
    Ieee.ops.pack n q = .error .overflowError := by
  obtain ⟨g, h1, rfl, h2, h3, h4⟩ := Ieee.fmt?_spec hf
  rw [pack_eq h1, if_neg fun h => absurd ((Ieee.code_abs_lt_top h3 q).1 h) (not_lt.2 hq)]

/-- C56: numbers of the format are stored exactly. -/
theorem C56_exact {n : Nat} {f : Spec.Ieee.Format} (hf : Spec.Ieee.FormatOf n f) {l : List Bool} {v : Rat}
    (hl : l.length = n) (hv : f.number? l = some v) (h0 : v ≠ 0) : Ieee.ops.pack n v = .ok l := by
  obtain ⟨g, h1, rfl, h2, h3, h4⟩ := Ieee.fmt?_spec hf
  cases l with
  | nil => simp only [List.length_nil] at hl; omega
  | cons b bits =>
    have hb : bits.length = g.w + g.t := by simp only [List.length_cons] at hl; omega
    rw [Ieee.number?_cons b hb] at hv
    split at hv
    · rename_i hlt
      injection hv with hv
      have hpos : 0 < g.value (natOfBits bits) := by
        refine lt_of_le_of_ne (Ieee.value_nonneg _) fun h => h0 ?_
        rw [← hv, ← h]
        cases b <;> simp
      have hne : natOfBits bits ≠ 0 := by
        intro h
        rw [h, Ieee.value_zero] at hpos
        exact lt_irrefl _ hpos
      have habs : |v| = g.value (natOfBits bits) := by
        rw [← hv]
        cases b <;> simp [abs_of_pos hpos]
      have hcode : g.code |v| = natOfBits bits := by rw [habs, Ieee.code_value _ hne]
      rw [pack_eq h1, hcode, if_pos hlt]
      unfold Ieee.packed
      rw [hcode, ← hb, natBits_natOfBits]
      congr 2
      rw [← hv]
      cases b
      · exact decide_eq_false (not_lt.2 hpos.le)
      · refine decide_eq_true ?_
        show -g.value (natOfBits bits) < 0
        linarith
    · cases hv

/-- One third as a number of 16 bits. -/
example : Ieee.ops.pack 16 (1 / 3) =
    .ok [false, false, true, true, false, true, false, true, false, true, false, true, false, true, false, true] := by
  decide +kernel

example : Spec.Ieee.half.number? [false, false, true, true, false, true, false, true, false, true, false, true, false, true, false, true] =
    some (1365 / 4096) := by decide +kernel

/-- The limit for 16 bits: 65519 is stored as 65504, 65520 is an error. -/
example : Spec.Ieee.half.limit = 65520 := by decide +kernel
example : Ieee.ops.pack 16 65520 = .error .overflowError := C56_overflow .half (by decide +kernel)
example : Ieee.ops.pack 16 65519 =
    .ok [false, true, true, true, true, false, true, true, true, true, true, true, true, true, true, true] := by
  decide +kernel

/-- The number of the smallest positive number of 32 bits. -/
example : Ieee.ops.pack 32 (1 / 2 ^ 149) = .ok (List.replicate 31 false ++ [true]) :=
  C56_exact .single rfl (by decide +kernel) (by norm_num)

theorem kept_of_stored {s : Signal} (hlen : s.conversion.isFloat = true → ∃ f, Spec.Ieee.FormatOf s.length f) {r r' : Rat}
    (h : Stored Ieee.ops s r r') : Spec.Ieee.Kept s r r' := by
  unfold Stored at h
  unfold Spec.Ieee.Kept
  split at h
  · rename_i hfl
    rw [if_pos hfl]
    obtain ⟨l, hl, hr⟩ := h
    obtain ⟨f, hf⟩ := hlen hfl
    have hq : |r| < f.limit := by
      by_contra hq
      rw [C56_overflow hf (not_lt.1 hq)] at hl
      cases hl
    obtain ⟨l', v, h1, h2, h3⟩ := C56_pack hf hq
    rw [hl] at h1
    injection h1 with h1
    subst h1
    exact ⟨f, l, hf, by rw [hr, h3]; exact h2⟩
  · rename_i hfl
    rw [if_neg hfl]
    exact h

/-- C56: decoding an encoded message gives back the raw values of integer signals, and for float signals
the nearest numbers of their formats. -/
theorem C56_message {fid : Int} {name : String} {len : Nat} {sigs : List Signal} {pat : UInt8} {ext : Bool} {m : Message}
    (hnd : (sigs.map (·.name)).Nodup)
    (hb : ∀ s ∈ sigs, Built s.conversion)
    (hpt : ∀ s ∈ sigs, s.conversion.isFloat = true → s.conversion.choices = none)
    (hlen : ∀ s ∈ sigs, s.conversion.isFloat = true → ∃ f, Spec.Ieee.FormatOf s.length f)
    (hm : Message.create fid name len sigs pat ext true .default = .ok m)
    (hmux : ∀ p ∈ sigs, p.isMultiplexer = true → p.conversion.isFloat = false ∧
      p.conversion.scale = 1 ∧ p.conversion.offset = 0 ∧ ((table p).map (·.2.toStr)).Nodup)
    {data : List (String × Value)}
    (hint : ∀ p ∈ sigs, p.isMultiplexer = true → ∀ q, dictGet? data p.name = some (.num q) → q.den = 1)
    {scaling padding strict : Bool} {payload : Bytes}
    (he : encode Ieee.ops m data scaling padding strict = .ok payload)
    {decodeChoices scaling' truncated excess : Bool} :
    ∃ r, decode Ieee.ops m payload decodeChoices scaling' truncated excess = .ok r ∧
      ∀ n v', dictGet? r n = some v' → ∃ s v raw raw', Present sigs (requested sigs data) s ∧
        s.name = n ∧ dictGet? data n = some v ∧ RawOf s scaling v raw ∧ Spec.Ieee.Kept s raw raw' ∧
        v' = shown s decodeChoices scaling' raw' := by
  obtain ⟨r, h1, -, h3⟩ := C03_round_trip hnd hb hpt hm hmux hint he (decodeChoices := decodeChoices) (scaling' := scaling')
    (truncated := truncated) (excess := excess)
  refine ⟨r, h1, fun n v' h => ?_⟩
  obtain ⟨s, v, raw, raw', hp, hn, hd, hr, hst, hv⟩ := (h3 n v').1 h
  exact ⟨s, v, raw, raw', hp, hn, hd, hr, kept_of_stored (hlen s (Present.mem hp)) hst, hv⟩

/-! ### Scaling -/

/-- C56: the physical value computed with python's floats is close to the exact one, and the way back gives the
raw value, for raw values of up to 49 bits and offsets of up to 2^49 steps. -/
theorem C56_scaling {scale offset : Rat} {raw : Int} (hs1 : 1 / 2 ^ 900 ≤ |scale|) (hs2 : |scale| ≤ 2 ^ 900)
    (hof : Spec.Ieee.IsDouble offset) (hr : |raw| ≤ 2 ^ 49) (ho : |offset| ≤ 2 ^ 49 * |scale|) :
    ∃ v, Ieee.rawToScaled scale offset raw = some v ∧
      |v - (raw * scale + offset)| ≤ (|raw * scale| + |offset|) / 2 ^ 51 ∧
      Ieee.scaledToRaw scale offset v = some raw := by
  refine Ieee.scaling ?_ ?_ ((Ieee.isDouble_iff offset).1 hof).1 hr ho
  · rw [zpow_neg, ← one_div]; exact_mod_cast hs1
  · exact_mod_cast hs2

/-- C56: a decoded value within the limits is never rejected when it is encoded, for raw values of up to 33 bits
and any offset. -/
theorem C56_limits {scale offset v : Rat} {raw : Int} {minimum maximum : Option Rat}
    (hs1 : 1 / 2 ^ 900 ≤ |scale|) (hs2 : |scale| ≤ 2 ^ 900) (hr : |raw| ≤ 2 ^ 33)
    (hv : Ieee.rawToScaled scale offset raw = some v)
    (hmin : ∀ m, minimum = some m → m ≤ raw * scale + offset)
    (hmax : ∀ m, maximum = some m → raw * scale + offset ≤ m) :
    Ieee.outside scale minimum maximum v = some false := by
  refine Ieee.not_outside ?_ ?_ hr hv hmin hmax
  · rw [zpow_neg, ← one_div]; exact_mod_cast hs1
  · exact_mod_cast hs2

/-- C56: a value that is more than two millionths of a step (and the precision of the limit) outside of the limits
is rejected. -/
theorem C56_rejected {scale v m : Rat} {minimum maximum : Option Rat}
    (hs1 : 1 / 2 ^ 900 ≤ |scale|) (hs2 : |scale| ≤ 2 ^ 900) (hm : Spec.Ieee.IsDouble m) (hmb : |m| ≤ 2 ^ 900)
    (h : (minimum = some m ∧ v + |scale| / 500000 + |m| / 2 ^ 53 < m) ∨
      (maximum = some m ∧ m + |scale| / 500000 + |m| / 2 ^ 53 < v)) :
    Ieee.outside scale minimum maximum v = some true := by
  refine Ieee.outside_true ?_ ?_ ((Ieee.isDouble_iff m).1 hm).1 ?_ h
  · rw [zpow_neg, ← one_div]; exact_mod_cast hs1
  · exact_mod_cast hs2
  · exact_mod_cast hmb

/-- C56 for the decimal numbers of a file: with the floats next to them, the physical value is within a small part
of a step of the exact one, it is accepted if the exact one is within the limits, and encoding it gives the raw
value. -/
theorem C56_decimal {scale' offset' scale offset : Rat} {raw : Int} {minimum' maximum' minimum maximum : Option Rat}
    (hs1 : 1 / 2 ^ 899 ≤ |scale'|) (hs2 : |scale'| ≤ 2 ^ 899)
    (hr : 3 * |(raw : Rat) * scale'| + 2 * |offset'| ≤ 2 ^ 33 * |scale'|)
    (hsc : Spec.Ieee.IsFloatOf scale' scale) (hof : Spec.Ieee.IsFloatOf offset' offset)
    (hmn : ∀ m, minimum = some m → ∃ m', minimum' = some m' ∧ Spec.Ieee.IsFloatOf m' m)
    (hmx : ∀ m, maximum = some m → ∃ m', maximum' = some m' ∧ Spec.Ieee.IsFloatOf m' m)
    (hmin : ∀ m, minimum' = some m → m ≤ raw * scale' + offset')
    (hmax : ∀ m, maximum' = some m → raw * scale' + offset' ≤ m) :
    ∃ v, Ieee.rawToScaled scale offset raw = some v ∧ |v - (raw * scale' + offset')| ≤ |scale'| / 2 ^ 18 ∧
      Ieee.outside scale minimum maximum v = some false ∧ Ieee.scaledToRaw scale offset v = some raw := by
  have hs1' : (2 : Rat) ^ (-899 : Int) ≤ |scale'| := by rw [zpow_neg, ← one_div]; exact_mod_cast hs1
  have hs2' : |scale'| ≤ (2 : Rat) ^ (899 : Int) := by exact_mod_cast hs2
  obtain ⟨v, h1, h2, h3⟩ := Ieee.decimal_scaling hs1' hs2' hr hsc hof
  exact ⟨v, h1, h2, Ieee.decimal_not_outside hs1' hs2' hr hsc hof hmn hmx h1 hmin hmax, h3⟩

namespace IeeeExample

/-- The float `0.1`. -/
def tenth : Rat := 3602879701896397 / 36028797018963968

theorem tenth_float : Spec.Ieee.IsFloatOf (1 / 10) tenth := Ieee.floatOf_round (by decide +kernel) (by decide +kernel)
theorem offset_float : Spec.Ieee.IsFloatOf (-40) (-40) := Ieee.floatOf_round (by decide +kernel) (by decide +kernel)
theorem maximum_float : Spec.Ieee.IsFloatOf (2107483603 / 10) (3535770762398925 / 16777216) :=
  Ieee.floatOf_round (by decide +kernel) (by decide +kernel)

/-- Scale 0.1, offset -40, maximum 210748360.3, raw value 2107484003. -/
example : ∃ v, Ieee.rawToScaled tenth (-40) 2107484003 = some v ∧
    |v - (((2107484003 : Int) : Rat) * (1 / 10) + -40)| ≤ |(1 / 10 : Rat)| / 2 ^ 18 ∧
    Ieee.outside tenth none (some (3535770762398925 / 16777216)) v = some false ∧
    Ieee.scaledToRaw tenth (-40) v = some 2107484003 :=
  C56_decimal (minimum' := none) (maximum' := some (2107483603 / 10)) (by decide +kernel) (by decide +kernel) (by norm_num) tenth_float offset_float (by simp)
    (by simpa using maximum_float) (by simp) (by simp; norm_num)

example : Ieee.rawToScaled tenth (-40) 12345 = some (2389 / 2) := by decide +kernel

example : ∃ v, Ieee.rawToScaled tenth (-40) 281474976710655 = some v ∧
    |v - (((281474976710655 : Int) : Rat) * tenth + -40)| ≤ (|((281474976710655 : Int) : Rat) * tenth| + |(-40 : Rat)|) / 2 ^ 51 ∧
    Ieee.scaledToRaw tenth (-40) v = some 281474976710655 :=
  C56_scaling (by decide +kernel) (by decide +kernel)
    ((Ieee.isDouble_iff _).2 ⟨Ieee.floatOf_in offset_float, by decide +kernel⟩) (by norm_num) (by unfold tenth; norm_num)

example : Ieee.outside tenth (some (-40)) none (-40) = some false :=
  C56_limits (raw := 0) (offset := -40) (by decide +kernel) (by decide +kernel) (by norm_num) (by decide +kernel)
    (by intro m h; injection h with h; subst h; norm_num) (by simp)

example : Ieee.outside tenth (some (-40)) none (-40 - 1 / 1000) = some true :=
  C56_rejected (m := -40) (by decide +kernel) (by decide +kernel)
    ((Ieee.isDouble_iff _).2 ⟨Ieee.floatOf_in offset_float, by decide +kernel⟩) (by decide +kernel) (.inl ⟨rfl, by decide +kernel⟩)

/-- A message with an integer and a float of 32 bits. -/
def sigs : List Signal :=
  [{ name := "N", start := 0, length := 8, conversion := Conversion.factory 1 0 none false },
   { name := "F", start := 8, length := 32, conversion := Conversion.factory (1 / 2) 0 none true }]

def msg : Message := (Message.create 1 "M" 5 sigs 0 false true .default).toOption.getD default

theorem msg_ok : Message.create 1 "M" 5 sigs 0 false true .default = .ok msg := by
  have h : (Message.create 1 "M" 5 sigs 0 false true .default).toOption.isSome = true := by decide +kernel
  unfold msg
  cases hc : Message.create 1 "M" 5 sigs 0 false true .default with
  | ok m => rfl
  | error e => rw [hc] at h; cases h

def data : List (String × Value) := [("N", .num 7), ("F", .num (1 / 6))]

theorem data_ok : encode Ieee.ops msg data true false true = .ok [7, 171, 170, 170, 62] := by decide +kernel

example := C56_message (sigs := sigs) (by decide)
  (by
    intro s hs
    simp only [sigs, List.mem_cons, List.not_mem_nil, or_false] at hs
    rcases hs with rfl | rfl
    · exact ⟨1, 0, none, false, rfl⟩
    · exact ⟨1 / 2, 0, none, true, rfl⟩)
  (by decide +kernel)
  (by
    intro s hs hf
    simp only [sigs, List.mem_cons, List.not_mem_nil, or_false] at hs
    rcases hs with rfl | rfl
    · cases hf
    · exact ⟨_, .single⟩)
  msg_ok (by decide +kernel) (data := data)
  (by
    intro p hp hm
    exact absurd hm (by
      simp only [sigs, List.mem_cons, List.not_mem_nil, or_false] at hp
      rcases hp with rfl | rfl <;> simp))
  data_ok (decodeChoices := true) (scaling' := true)
  (truncated := false) (excess := false)

/-- The value comes back as the half of the float next to one third. -/
example : decode Ieee.ops msg [7, 171, 170, 170, 62] true true false false =
    .ok [("N", .num 7), ("F", .num (11184811 / 67108864))] := by decide +kernel

/-- Raw values of more than 53 bits get lost. -/
theorem C56_long_raw_lost : Ieee.rawToScaled (1 / 2) 0 (2 ^ 53 + 1) = some (2 ^ 52) ∧
    Ieee.scaledToRaw (1 / 2) 0 (2 ^ 52) = some (2 ^ 53) := by decide +kernel

/-- So do raw values that are small compared to the offset. -/
theorem C56_large_offset_lost : Ieee.rawToScaled (1 / 2) (2 ^ 60) 1 = some (2 ^ 60) ∧
    Ieee.scaledToRaw (1 / 2) (2 ^ 60) (2 ^ 60) = some 0 := by decide +kernel

/-- The float `1717986918.6`. -/
def limit : Rat := 3602879702315827 / 2097152

theorem limit_float : Spec.Ieee.IsFloatOf (17179869186 / 10) limit := Ieee.floatOf_round (by decide +kernel) (by decide +kernel)

/-- With more than 33 bits, values within the limits may be rejected: scale 0.1, maximum 1717986918.6, raw value
17179869186 (35 bits). -/
theorem C56_rejected_within_limits : ((17179869186 : Int) : Rat) * (1 / 10) + 0 ≤ 17179869186 / 10 ∧
    limit ≤ ((17179869186 : Int) : Rat) * tenth ∧
    Ieee.rawToScaled tenth 0 17179869186 = some (7205759404631655 / 4194304) ∧
    Ieee.outside tenth none (some limit) (7205759404631655 / 4194304) = some true := by decide +kernel

end IeeeExample

end Cantools
