import Verif.Props.Example

/-
Properties of encoding: C01, C02, C06 (first half), C08, C09, C10.

Throughout, `m` is a message made by the constructor with the strict check on and the default signal
order, its signals have distinct names, and their conversions are as the factory makes them (they
were not modified by pruning).
-/

namespace Cantools
open Spec

section
variable {fo : FloatOps} {fid : Int} {name : String} {len : Nat} {sigs : List Signal} {pat : UInt8}
  {ext : Bool} {m : Message}

/-- C01: in an encoded payload every signal selected by the requested multiplexer values is written
at the bit positions its start, length and byte order document (`Spec.bitPos`), in two's complement,
and what is written is the raw value of the value given by the user. -/
theorem C01_encode_bit_exact (hnd : (sigs.map (·.name)).Nodup)
    (hb : ∀ s ∈ sigs, Built s.conversion)
    (hm : Message.create fid name len sigs pat ext true .default = .ok m)
    {data : List (String × Value)} {scaling padding strict : Bool} {payload : Bytes}
    (he : encode fo m data scaling padding strict = .ok payload) :
    payload.length = len ∧
    ∀ s, Present sigs (requested sigs data) s →
      ∃ v r, dictGet? data s.name = some v ∧ RawOf s scaling v r ∧ Carries fo s payload r := by
  obtain ⟨ha, hl, hp⟩ := accepted_of_create hnd hm
  have hr := (encode_encodeRaw.1 he).2
  obtain ⟨h1, h2, h3, h4⟩ := encodeRaw_ok ha hnd hb hr
  exact ⟨h1.trans hl, fun s hs => (h3 s hs).2⟩

/-- The raw number a value stands for is unique, so C01 pins down every signal bit. -/
theorem C01_raw_unique {s : Signal} (hb : Built s.conversion) {scaling : Bool} {v : Value}
    {r r' : Rat} (h : RawOf s scaling v r) (h' : RawOf s scaling v r') : r = r' := by
  have h1 := (encodeSignalValue_iff hb).2 h
  have h2 := (encodeSignalValue_iff hb).2 h'
  rw [h1] at h2; cases h2; rfl

/-- C02: bits that belong to no selected signal are 0 without padding and equal the message's
unused bit pattern with padding. -/
theorem C02_unused_bits (hnd : (sigs.map (·.name)).Nodup) (hb : ∀ s ∈ sigs, Built s.conversion)
    (hm : Message.create fid name len sigs pat ext true .default = .ok m)
    {data : List (String × Value)} {scaling padding strict : Bool} {payload : Bytes}
    (he : encode fo m data scaling padding strict = .ok payload) :
    ∀ p, p < 8 * len → (∀ s, Present sigs (requested sigs data) s → ¬ Occupies s p) →
      payloadBit payload p = (if padding then pat.toNat.testBit (p % 8) else false) := by
  obtain ⟨ha, hl, hp⟩ := accepted_of_create hnd hm
  have hr := (encode_encodeRaw.1 he).2
  obtain ⟨h1, h2, h3, h4⟩ := encodeRaw_ok ha hnd hb hr
  intro p hp8 hfree
  rw [hl, hp] at h4
  rw [h4 p hp8 hfree]
  cases padding <;> simp

/-- C02: padding never alters a bit of a selected signal, nor whether encoding succeeds. -/
theorem C02_padding_keeps_signals (hnd : (sigs.map (·.name)).Nodup)
    (hb : ∀ s ∈ sigs, Built s.conversion)
    (hm : Message.create fid name len sigs pat ext true .default = .ok m)
    {data : List (String × Value)} {scaling strict : Bool} {payload : Bytes}
    (he : encode fo m data scaling false strict = .ok payload) :
    ∃ padded, encode fo m data scaling true strict = .ok padded ∧
      ∀ s p, Present sigs (requested sigs data) s → Occupies s p →
        payloadBit padded p = payloadBit payload p := by
  obtain ⟨ha, hl, hp⟩ := accepted_of_create hnd hm
  obtain ⟨hs, hr⟩ := encode_encodeRaw.1 he
  obtain ⟨h1, h2, h3, h4⟩ := encodeRaw_ok ha hnd hb hr
  obtain ⟨padded, hpad⟩ := encodeRaw_exists (padding := true) ha hnd hb h2 fun s hs => (h3 s hs).1
  have he' : encode fo m data scaling true strict = .ok padded := encode_encodeRaw.2 ⟨hs, hpad⟩
  refine ⟨padded, he', ?_⟩
  rintro s p hs ⟨j, hj, rfl⟩
  have hbs := hb s (Present.mem hs)
  obtain ⟨v, r, hv, hr1, hc⟩ := (h3 s hs).2
  obtain ⟨v', r', hv', hr1', hc'⟩ := ((encodeRaw_ok ha hnd hb hpad).2.2.1 s hs).2
  rw [hv] at hv'; cases hv'
  have := C01_raw_unique hbs hr1 hr1'
  subst this
  unfold Carries at hc hc'
  split at hc
  · rename_i hf
    rw [if_pos hf] at hc'
    obtain ⟨l, hl1, hl2⟩ := hc
    obtain ⟨l', hl1', hl2'⟩ := hc'
    rw [hl1] at hl1'; cases hl1'
    rw [hl2 j hj, hl2' j hj]
  · rename_i hf
    rw [if_neg hf] at hc'
    obtain ⟨i, hi, hi2⟩ := hc
    obtain ⟨i', hi', hi2'⟩ := hc'
    have : i = i' := by rw [hi] at hi'; exact_mod_cast hi'
    subst this
    rw [hi2.2 j hj, hi2'.2 j hj]

/-- C10: encoding without the strictness checks succeeds exactly if every selector has a branch and
every selected signal has a value whose raw number is representable in the signal.  So raw values in
range never fail, and a raw value out of range is never truncated into the frame. -/
theorem C10_encode_succeeds_iff (hnd : (sigs.map (·.name)).Nodup)
    (hb : ∀ s ∈ sigs, Built s.conversion)
    (hm : Message.create fid name len sigs pat ext true .default = .ok m)
    {data : List (String × Value)} {scaling padding : Bool} :
    (∃ payload, encode fo m data scaling padding false = .ok payload) ↔
      Selectable sigs (requested sigs data) ∧
      ∀ s, Present sigs (requested sigs data) s →
        ∃ v r, dictGet? data s.name = some v ∧ RawOf s scaling v r ∧ Representable fo s r := by
  obtain ⟨ha, hl, hp⟩ := accepted_of_create hnd hm
  constructor
  · rintro ⟨payload, he⟩
    obtain ⟨h1, h2, h3, h4⟩ := encodeRaw_ok ha hnd hb (encode_encodeRaw.1 he).2
    exact ⟨h2, fun s hs => (encOk_iff (hb s (Present.mem hs))).1 (h3 s hs).1⟩
  · rintro ⟨h1, h2⟩
    obtain ⟨payload, hpay⟩ := encodeRaw_exists (padding := padding) ha hnd hb h1
      fun s hs => (encOk_iff (hb s (Present.mem hs))).2 (h2 s hs)
    exact ⟨payload, encode_encodeRaw.2 ⟨fun h => (by cases h), hpay⟩⟩

/-- C10: an encoded payload has exactly the length of the message and every raw value in it is in
the range of its signal. -/
theorem C10_encode_length (hnd : (sigs.map (·.name)).Nodup) (hb : ∀ s ∈ sigs, Built s.conversion)
    (hm : Message.create fid name len sigs pat ext true .default = .ok m)
    {data : List (String × Value)} {scaling padding strict : Bool} {payload : Bytes}
    (he : encode fo m data scaling padding strict = .ok payload) :
    payload.length = len ∧
    ∀ s v r, Present sigs (requested sigs data) s → s.conversion.isFloat = false →
      dictGet? data s.name = some v → RawOf s scaling v r → ∃ i : Int, r = i ∧ InRange s i := by
  obtain ⟨h1, h2⟩ := C01_encode_bit_exact hnd hb hm he
  refine ⟨h1, fun s v r hs hf hv hr => ?_⟩
  obtain ⟨v', r', hv', hr', hc⟩ := h2 s hs
  rw [hv] at hv'; cases hv'
  rw [C01_raw_unique (hb s (Present.mem hs)) hr hr']
  unfold Carries at hc
  rw [hf] at hc
  obtain ⟨i, hi, hi2⟩ := hc
  exact ⟨i, hi, hi2.1⟩

/-- C10: strict encoding succeeds exactly if in addition the dictionary has no other signals and
every value is valid (C09). -/
theorem C10_strict_encode_succeeds_iff (hnd : (sigs.map (·.name)).Nodup)
    (hb : ∀ s ∈ sigs, Built s.conversion)
    (hm : Message.create fid name len sigs pat ext true .default = .ok m)
    {data : List (String × Value)} {scaling padding : Bool} :
    (∃ payload, encode fo m data scaling padding true = .ok payload) ↔
      Selectable sigs (requested sigs data) ∧
      (∀ n, (dictGet? data n).isSome → ∃ s, Present sigs (requested sigs data) s ∧ s.name = n) ∧
      ∀ s, Present sigs (requested sigs data) s →
        ∃ v r, dictGet? data s.name = some v ∧ ValidValue s scaling v ∧ RawOf s scaling v r ∧
          Representable fo s r := by
  obtain ⟨ha, hl, hp⟩ := accepted_of_create hnd hm
  have key := assert_ok_iff (sc := scaling) (vv := true) (ak := true) (data := data) ha hnd hb
  have h10 := C10_encode_succeeds_iff (fo := fo) hnd hb hm (data := data) (scaling := scaling)
    (padding := padding)
  constructor
  · rintro ⟨payload, he⟩
    obtain ⟨h1, h2⟩ := encode_encodeRaw.1 he
    obtain ⟨_, k2, k3, k4⟩ := key.1 (h1 rfl)
    obtain ⟨j1, j2⟩ := h10.1 ⟨payload, encode_encodeRaw.2 ⟨fun h => (by cases h), h2⟩⟩
    refine ⟨j1, k3 rfl, fun s hs => ?_⟩
    obtain ⟨v, r, hv, hr, hrep⟩ := j2 s hs
    exact ⟨v, r, hv, k4 rfl s v hs hv, hr, hrep⟩
  · rintro ⟨h1, h2, h3⟩
    obtain ⟨payload, he⟩ := h10.2 ⟨h1, fun s hs => by
      obtain ⟨v, r, hv, _, hr⟩ := h3 s hs; exact ⟨v, r, hv, hr⟩⟩
    refine ⟨payload, encode_encodeRaw.2 ⟨fun _ => key.2 ⟨h1, fun s hs => ?_, fun _ => h2,
      fun _ s v hs hv => ?_⟩, (encode_encodeRaw.1 he).2⟩⟩
    · obtain ⟨v, r, hv, _⟩ := h3 s hs; rw [hv]; rfl
    · obtain ⟨v', r, hv', hval, _⟩ := h3 s hs
      rw [hv] at hv'; cases hv'; exact hval

/-- C06, encoding: a selector whose requested value has no branch never yields a frame; with the
strictness checks on, it is reported as `EncodeError`. -/
theorem C06_encode_needs_branch (hnd : (sigs.map (·.name)).Nodup)
    (hb : ∀ s ∈ sigs, Built s.conversion)
    (hm : Message.create fid name len sigs pat ext true .default = .ok m)
    {data : List (String × Value)} {scaling padding strict : Bool} {p : Signal}
    (hp : Present sigs (requested sigs data) p) (hmux : p.isMultiplexer = true)
    (hsome : ∃ i, HasBranch sigs p i)
    (hno : ∀ i, requested sigs data p.name = some i → ¬ HasBranch sigs p i) :
    (∃ e, encode fo m data scaling padding strict = .error e) ∧
    encode fo m data scaling padding true = .error .encodeError := by
  obtain ⟨ha, hl, _⟩ := accepted_of_create hnd hm
  have hns : ¬ Selectable sigs (requested sigs data) := by
    intro h
    obtain ⟨i, h1, h2⟩ := h p hp hmux hsome
    exact hno i h1 h2
  constructor
  · cases he : encode fo m data scaling padding strict with
    | error e => exact ⟨e, rfl⟩
    | ok payload => exact absurd (encodeRaw_ok ha hnd hb (encode_encodeRaw.1 he).2).2.1 hns
  · cases has : assertSignalsEncodable m data scaling true true with
    | ok u => exact absurd (assert_ok_iff ha hnd hb |>.1 has).1 hns
    | error e =>
      rcases assert_error ha hnd hb has with rfl | ⟨_, hs, _⟩
      · unfold encode
        simp only [if_true, has]
        rfl
      · exact absurd hs hns

/-- C08: `gather_signals` returns exactly the selected signals with the values of the input, its
result is encoded to the same payload, and if anything is missing it raises `EncodeError`. -/
theorem C08_gather_signals (hnd : (sigs.map (·.name)).Nodup) (hb : ∀ s ∈ sigs, Built s.conversion)
    (hm : Message.create fid name len sigs pat ext true .default = .ok m)
    (data : List (String × Value)) :
    (∀ r, gatherSignals m data = .ok r →
      (∀ n v, dictGet? r n = some v ↔ dictGet? data n = some v ∧
        ∃ s, Present sigs (requested sigs data) s ∧ s.name = n) ∧
      (∀ scaling padding, encode fo m r scaling padding false =
        encode fo m data scaling padding false)) ∧
    (∀ e, gatherSignals m data = .error e → e = .encodeError) ∧
    ((∃ r, gatherSignals m data = .ok r) ↔ Selectable sigs (requested sigs data) ∧
      ∀ s, Present sigs (requested sigs data) s → (dictGet? data s.name).isSome) := by
  obtain ⟨ha, hl, _⟩ := accepted_of_create hnd hm
  obtain ⟨g1, g2⟩ := ha.gather hnd hb data
  obtain ⟨fuel, hc⟩ := ha.codec
  have hwf := createCodec_WF hc
  refine ⟨fun r hr => ?_, fun e he => (gatherNode_only m.codec hwf).1 _ he, ?_⟩
  · obtain ⟨k1, k2, k3, k4⟩ := g1 r hr
    refine ⟨k3, fun scaling padding => ?_⟩
    obtain ⟨all, hall, hmem⟩ := (ha.selNode (fun s hs => ha.encSel hnd hb data hs)).2 k1
    have hcong := encodeNode_congr (fo := fo) (L := m.length) (scaling := scaling) (data' := r)
      m.codec all hwf hall (by
        intro s hs
        have hp := (hmem s).1 hs
        obtain ⟨v, hv⟩ := Option.isSome_iff_exists.1 (k2 s hp)
        rw [hv]
        exact (k3 s.name v).2 ⟨hv, s, hp, rfl⟩)
    change encodeRaw fo m r scaling padding = encodeRaw fo m data scaling padding
    unfold encodeRaw
    rw [hcong]
  · constructor
    · rintro ⟨r, hr⟩; exact ⟨(g1 r hr).1, (g1 r hr).2.1⟩
    · rintro ⟨h1, h2⟩; exact g2 h1 h2

/-- C09: `assert_signals_encodable` accepts a dictionary exactly if every selector has a branch, all
selected signals have a value, no other signal has one (if this is asked for) and the values are
valid (if this is asked for). -/
theorem C09_assert_signals_encodable (hnd : (sigs.map (·.name)).Nodup)
    (hb : ∀ s ∈ sigs, Built s.conversion)
    (hm : Message.create fid name len sigs pat ext true .default = .ok m)
    {data : List (String × Value)} {scaling valuesValid allKnown : Bool} :
    assertSignalsEncodable m data scaling valuesValid allKnown = .ok () ↔
      Selectable sigs (requested sigs data) ∧
      (∀ s, Present sigs (requested sigs data) s → (dictGet? data s.name).isSome) ∧
      (allKnown = true → ∀ n, (dictGet? data n).isSome →
        ∃ s, Present sigs (requested sigs data) s ∧ s.name = n) ∧
      (valuesValid = true → ∀ s v, Present sigs (requested sigs data) s →
        dictGet? data s.name = some v → ValidValue s scaling v) :=
  assert_ok_iff (accepted_of_create hnd hm).1 hnd hb

/-- C09: everything that is rejected is rejected with `EncodeError`, except that a name that is not
in the value table of a selected signal gives `KeyError` and a zero scale gives
`ZeroDivisionError`. -/
theorem C09_assert_errors (hnd : (sigs.map (·.name)).Nodup) (hb : ∀ s ∈ sigs, Built s.conversion)
    (hm : Message.create fid name len sigs pat ext true .default = .ok m)
    {data : List (String × Value)} {scaling valuesValid allKnown : Bool} {e : Err}
    (he : assertSignalsEncodable m data scaling valuesValid allKnown = .error e) :
    e = .encodeError ∨
    (valuesValid = true ∧ Selectable sigs (requested sigs data) ∧
      (∀ s, Present sigs (requested sigs data) s → (dictGet? data s.name).isSome) ∧
      ∃ s v, Present sigs (requested sigs data) s ∧ dictGet? data s.name = some v ∧
      ((e = .keyError ∧ ∃ n, (v = .str n ∨ ∃ nv, v = .named nv ∧ nv.name = n) ∧
          numberNamed s n = none) ∨
        (e = .zeroDivisionError ∧ scaling = true ∧ s.conversion.scale = 0))) :=
  assert_error (accepted_of_create hnd hm).1 hnd hb he

end

/-! ### The hypotheses can be met; the English claims that fail -/

section
open Example

example : ∃ payload, encode fo msg data true true true = .ok payload ∧
    Present sigs (requested sigs data) a ∧ ¬ Present sigs (requested sigs data) b := by
  have hsel : requested sigs data "Mux" = some 1 := by decide +kernel
  refine ⟨_, encode_ok, ?_, ?_⟩
  · exact .child a mux 1 [0, 1] (by decide +kernel) rfl rfl
      (.root mux (by decide +kernel) rfl) hsel rfl (by decide)
  · intro h
    cases h with
    | root _ _ hp => cases hp
    | child _ p i ids hs hp hm hpar hs' hids hi =>
      have : p.name = "Mux" := by simpa [b] using hp.symm
      rw [this, hsel] at hs'
      cases hs'
      have : ids = [2] := by simpa [b] using hids.symm
      subst this
      revert hi; decide

example := C01_encode_bit_exact nodup built msg_ok encode_ok
example := C02_unused_bits nodup built msg_ok encode_ok
example : encode fo msg data true false true = .ok [0x91, 0, 0x0f, 0xc4] := by decide +kernel
example : gatherSignals msg (("B", .num 3) :: data) =
    .ok [("Mux", .str "drive"), ("P", .num 9), ("A", .num (-12))] := by decide +kernel
example : gatherSignals msg [("Mux", .num 2), ("P", .num 0)] = .error .encodeError := by
  decide +kernel
example : assertSignalsEncodable msg data true true true = .ok () := by decide +kernel
example : assertSignalsEncodable msg (("B", .num 3) :: data) true true true = .error .encodeError := by
  decide +kernel
/-- A selector value without branch. -/
example : encode fo msg [("Mux", .num 5), ("P", .num 0)] true true true = .error .encodeError := by
  decide +kernel
/-- A raw value out of range is rejected, not truncated. -/
example : encode fo msg [("Mux", .num 2), ("P", .num 0), ("B", .num 8192)] true true false =
    .error .packError := by decide +kernel

/-- C09's documented exception is not raised for an unknown name: the check fails with `KeyError`
(message.py:745 expects `None` for unknown names, but the table lookup raises). -/
theorem C09_unknown_name_not_EncodeError :
    ∃ m data, Message.create 0x123 "Msg" 4 sigs 0xa5 = .ok m ∧
      assertSignalsEncodable m data true true true = .error .keyError :=
  ⟨msg, [("Mux", .str "drive"), ("A", .str "nonsense"), ("P", .num 9)], msg_ok, by decide +kernel⟩

end

end Cantools
