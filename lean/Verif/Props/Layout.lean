import Verif.Props.Decode

/-
Properties of message construction: C05 (strict check), C07 (termination), C39 (signal order).
-/

namespace Cantools
open Spec

section
variable {fo : FloatOps} {fid : Int} {name : String} {len : Nat} {sigs : List Signal} {pat : UInt8}
  {ext : Bool} {m : Message}

/-- C05: constructing a message with the strict check succeeds exactly if the frame id has at most
11 (29) bits, no signal has length zero, and the layout is valid: every signal that can be in a
frame lies completely in the payload and no two signals that can be in the same frame share a bit.
Otherwise `Error` is raised.  For every signal order (default, none or user supplied). -/
theorem C05_strict_check_iff (hnd : (sigs.map (·.name)).Nodup) {sort : SortSignals}
    (hsort : (sort.apply sigs).Perm sigs) :
    ((∃ m, Message.create fid name len sigs pat ext true sort = .ok m) ↔
      (-(2 ^ (if ext then 29 else 11)) < fid ∧ fid < 2 ^ (if ext then 29 else 11)) ∧
      (∀ s ∈ sigs, 0 < s.length) ∧ ValidLayout len sigs) ∧
    ∀ e, Message.create fid name len sigs pat ext true sort = .error e → e = .error := by
  have hnd' : ((sort.apply sigs).map (·.name)).Nodup := (hsort.map _).nodup_iff.2 hnd
  have hmem : ∀ s, s ∈ sort.apply sigs ↔ s ∈ sigs := fun s => hsort.mem_iff
  have hbl : bitLength fid ≤ (if ext then 29 else 11) ↔
      (-(2 ^ (if ext then 29 else 11)) < fid ∧ fid < 2 ^ (if ext then 29 else 11)) := bitLength_le
  constructor
  · constructor
    · rintro ⟨m, hm⟩
      obtain ⟨h1, h2, c, hc, h3, _⟩ := create_ok_iff.1 hm
      exact ⟨hbl.1 h1, fun s hs => h2 s ((hmem s).2 hs),
        validLayout_congr hmem ((checkTree_iff hnd' h2 hc).1 (h3 rfl))⟩
    · rintro ⟨h1, h2, h3⟩
      have h2' : ∀ s ∈ sort.apply sigs, 0 < s.length := fun s hs => h2 s ((hmem s).1 hs)
      obtain ⟨c, hc⟩ := Option.isSome_iff_exists.1
        (createCodec_isSome hnd' (π := []) .nil (Nat.le_refl _))
      have hc' : createCodec (sort.apply sigs) ((sort.apply sigs).length + 1) none none =
        some c := hc
      exact ⟨_, create_ok_iff.2 ⟨hbl.2 h1, h2', c, hc', fun _ => (checkTree_iff hnd' h2' hc').2
        (validLayout_congr (fun s => (hmem s).symm) h3), rfl⟩⟩
  · intro e he
    unfold Message.create at he
    split at he
    · cases he; rfl
    · simp only at he
      split at he
      · cases he; rfl
      · rename_i hz
        have hpos : ∀ s ∈ sort.apply sigs, 0 < s.length := by
          intro s hs
          by_contra h0
          apply hz
          rw [List.any_eq_true]
          exact ⟨s, hs, by simp; omega⟩
        obtain ⟨c, hc⟩ := Option.isSome_iff_exists.1
          (createCodec_isSome hnd' (π := []) .nil (Nat.le_refl _))
        have hc' : createCodec (sort.apply sigs) ((sort.apply sigs).length + 1) none none =
          some c := hc
        rw [hc'] at he
        simp only [if_true] at he
        cases hct : checkTree (sort.apply sigs) (List.replicate (8 * len) none) (treeOfCodec c) with
        | ok r => rw [hct] at he; cases he
        | error e' =>
          rw [hct] at he
          cases he
          exact (checkTree_error (L := len) hnd' hpos (treeOfCodec c) _
            (treeOfCodec_names c (createCodec_WF hc')) (by simp)).1 _ hct

/-- C07: for signals with distinct names the codec construction ends within a recursion depth of
one more than the number of signals, whatever the multiplexer references look like, and message
construction never fails for lack of recursion depth. -/
theorem C07_construction_terminates (hnd : (sigs.map (·.name)).Nodup) :
    (createCodec sigs (sigs.length + 1) none none).isSome ∧
    ∀ (sort : SortSignals) (strict : Bool), (sort.apply sigs).Perm sigs →
      Message.create fid name len sigs pat ext strict sort ≠ .error .recursionError := by
  refine ⟨createCodec_isSome hnd (π := []) .nil (Nat.le_refl _), fun sort strict hsort he => ?_⟩
  cases strict with
  | true =>
    have := (C05_strict_check_iff hnd hsort).2 _ he
    cases this
  | false =>
    have hnd' : ((sort.apply sigs).map (·.name)).Nodup := (hsort.map _).nodup_iff.2 hnd
    obtain ⟨c, hc⟩ := Option.isSome_iff_exists.1
      (createCodec_isSome hnd' (π := []) .nil (Nat.le_refl _))
    have hc' : createCodec (sort.apply sigs) ((sort.apply sigs).length + 1) none none =
      some c := hc
    unfold Message.create at he
    split at he
    · cases he
    · simp only at he
      split at he
      · cases he
      · rw [hc'] at he
        simp at he

/-- C39: `Message.signals` is a permutation of the given signals, sorted by start bit, and signals
with the same start bit keep their order. -/
theorem C39_signals_sorted {strict : Bool}
    (hm : Message.create fid name len sigs pat ext strict .default = .ok m) :
    m.signals.Perm sigs ∧ m.signals.Pairwise (fun a b => startBit a ≤ startBit b) ∧
    ∀ k, m.signals.filter (fun s => startBit s == k) = sigs.filter fun s => startBit s == k := by
  obtain ⟨_, _, c, _, _, rfl⟩ := create_ok_iff.1 hm
  exact ⟨sortedBy_perm _ _, sortedBy_pairwise _ _, sortedBy_stable _ _⟩

/-- Byte strings of the same length with the same bits are equal. -/
theorem bytes_ext {a b : Bytes} (hl : a.length = b.length)
    (h : ∀ p, p < 8 * a.length → payloadBit a p = payloadBit b p) : a = b := by
  apply List.ext_getElem hl
  intro i hi hi'
  apply UInt8.toNat_inj.1
  apply Nat.eq_of_testBit_eq
  intro j
  by_cases hj : j < 8
  · have := h (8 * i + j) (by omega)
    unfold payloadBit at this
    have e1 : (8 * i + j) / 8 = i := by omega
    have e2 : (8 * i + j) % 8 = j := by omega
    rw [e1, e2, List.getD_eq_getElem?_getD, List.getD_eq_getElem?_getD,
      List.getElem?_eq_getElem hi, List.getElem?_eq_getElem hi'] at this
    exact this
  · have h256 : ∀ x : UInt8, x.toNat < 2 ^ j := fun x =>
      Nat.lt_of_lt_of_le (UInt8.toNat_lt x) (Nat.pow_le_pow_right (by decide) (by omega : 8 ≤ j))
    rw [Nat.testBit_lt_two_pow (h256 _), Nat.testBit_lt_two_pow (h256 _)]

/-- C01, C02: the payload is determined: two payloads that satisfy the description of encoded
payloads are equal. -/
theorem C01_payload_unique (hb : ∀ s ∈ sigs, Built s.conversion)
    {data : List (String × Value)} {scaling padding : Bool} {p p' : Bytes}
    (hl : p.length = len) (hl' : p'.length = len)
    (hc : ∀ s, Present sigs (requested sigs data) s →
      ∃ v r, dictGet? data s.name = some v ∧ RawOf s scaling v r ∧ Carries fo s p r)
    (hc' : ∀ s, Present sigs (requested sigs data) s →
      ∃ v r, dictGet? data s.name = some v ∧ RawOf s scaling v r ∧ Carries fo s p' r)
    (hu : ∀ x, x < 8 * len → (∀ s, Present sigs (requested sigs data) s → ¬ Occupies s x) →
      payloadBit p x = (if padding then pat.toNat.testBit (x % 8) else false))
    (hu' : ∀ x, x < 8 * len → (∀ s, Present sigs (requested sigs data) s → ¬ Occupies s x) →
      payloadBit p' x = (if padding then pat.toNat.testBit (x % 8) else false)) : p = p' := by
  apply bytes_ext (hl.trans hl'.symm)
  intro x hx
  rw [hl] at hx
  by_cases hocc : ∃ s, Present sigs (requested sigs data) s ∧ Occupies s x
  · obtain ⟨s, hs, j, hj, rfl⟩ := hocc
    obtain ⟨v, r, hv, hr, h1⟩ := hc s hs
    obtain ⟨v', r', hv', hr', h1'⟩ := hc' s hs
    rw [hv] at hv'; cases hv'
    have := C01_raw_unique (hb s (Present.mem hs)) hr hr'
    subst this
    unfold Carries at h1 h1'
    split at h1
    · rename_i hf
      rw [if_pos hf] at h1'
      obtain ⟨l, hl1, hl2⟩ := h1
      obtain ⟨l', hl1', hl2'⟩ := h1'
      rw [hl1] at hl1'; cases hl1'
      rw [hl2 j hj, hl2' j hj]
    · rename_i hf
      rw [if_neg hf] at h1'
      obtain ⟨i, hi, hi2⟩ := h1
      obtain ⟨i', hi', hi2'⟩ := h1'
      have : i = i' := by rw [hi] at hi'; exact_mod_cast hi'
      subst this
      rw [hi2.2 j hj, hi2'.2 j hj]
  · have hfree : ∀ s, Present sigs (requested sigs data) s → ¬ Occupies s x :=
      fun s hs ho => hocc ⟨s, hs, ho⟩
    rw [hu x hx hfree, hu' x hx hfree]

/-- The requested selectors do not depend on the order of the signals. -/
theorem requested_perm {sigs' : List Signal} (hnd : (sigs.map (·.name)).Nodup)
    (hp : sigs'.Perm sigs) (data : List (String × Value)) :
    requested sigs' data = requested sigs data := by
  have hnd' : (sigs'.map (·.name)).Nodup := (hp.map _).nodup_iff.2 hnd
  funext n
  unfold requested
  have : sigs'.find? (fun s => s.name == n) = sigs.find? (fun s => s.name == n) := by
    cases h : sigs.find? (fun s => s.name == n) with
    | some s =>
      have h1 := List.mem_of_find?_eq_some h
      have h2 := List.find?_some h
      simp only [beq_iff_eq] at h2
      rw [← h2]
      exact find?_name hnd' (hp.mem_iff.2 h1)
    | none =>
      rw [List.find?_eq_none] at h ⊢
      intro s hs; exact h s (hp.mem_iff.1 hs)
  rw [this]

/-- C39: the frame does not depend on the order in which the signals were given: two messages made
from the same signals in different order encode every dictionary to the same payload, or both
fail.  Without padding the pattern of unused bits does not matter either. -/
theorem C39_encode_order_independent {sigs' : List Signal} {m' : Message} {fid' : Int}
    {name' : String} {ext' : Bool} {pat' : UInt8} (hnd : (sigs.map (·.name)).Nodup)
    (hb : ∀ s ∈ sigs, Built s.conversion) (hperm : sigs'.Perm sigs)
    (hm : Message.create fid name len sigs pat ext true .default = .ok m)
    (hm' : Message.create fid' name' len sigs' pat' ext' true .default = .ok m')
    {data : List (String × Value)} {scaling padding strict : Bool} {payload : Bytes}
    (hpat : padding = true → pat' = pat) :
    encode fo m data scaling padding strict = .ok payload ↔
      encode fo m' data scaling padding strict = .ok payload := by
  have half : ∀ {sigs sigs' : List Signal} {m m' : Message} {fid fid' : Int} {name name' : String}
      {ext ext' : Bool} {pat pat' : UInt8}, (padding = true → pat' = pat) →
      (sigs.map (·.name)).Nodup → (∀ s ∈ sigs, Built s.conversion) →
      sigs'.Perm sigs → Message.create fid name len sigs pat ext true .default = .ok m →
      Message.create fid' name' len sigs' pat' ext' true .default = .ok m' →
      encode fo m data scaling padding strict = .ok payload →
      encode fo m' data scaling padding strict = .ok payload := by
    intro sigs sigs' m m' fid fid' name name' ext ext' pat pat' hpat hnd hb hperm hm hm' he
    have hnd' : (sigs'.map (·.name)).Nodup := (hperm.map _).nodup_iff.2 hnd
    have hb' : ∀ s ∈ sigs', Built s.conversion := fun s hs => hb s (hperm.mem_iff.1 hs)
    have hreq := requested_perm hnd hperm data
    have hpres : ∀ s, Present sigs' (requested sigs' data) s ↔ Present sigs (requested sigs data) s := by
      intro s
      rw [hreq]
      exact ⟨present_congr (fun t => hperm.mem_iff.1) (fun _ _ => rfl),
        present_congr (fun t => hperm.mem_iff.2) (fun _ _ => rfl)⟩
    have hbr : ∀ p i, HasBranch sigs' p i ↔ HasBranch sigs p i := fun p i =>
      ⟨hasBranch_congr fun t => hperm.mem_iff.1, hasBranch_congr fun t => hperm.mem_iff.2⟩
    have hselb : Selectable sigs' (requested sigs' data) ↔ Selectable sigs (requested sigs data) := by
      unfold Selectable
      simp only [hpres, hbr]
      rw [hreq]
    have hex : ∃ p', encode fo m' data scaling padding strict = .ok p' := by
      cases strict with
      | false =>
        rw [C10_encode_succeeds_iff hnd' hb' hm', hselb]
        simp only [hpres]
        exact (C10_encode_succeeds_iff hnd hb hm).1 ⟨_, he⟩
      | true =>
        rw [C10_strict_encode_succeeds_iff hnd' hb' hm', hselb]
        simp only [hpres]
        exact (C10_strict_encode_succeeds_iff hnd hb hm).1 ⟨_, he⟩
    obtain ⟨p', he'⟩ := hex
    rw [he']
    congr 1
    obtain ⟨l1, c1⟩ := C01_encode_bit_exact hnd hb hm he
    obtain ⟨l2, c2⟩ := C01_encode_bit_exact hnd' hb' hm' he'
    have u1 := C02_unused_bits hnd hb hm he
    have u2 := C02_unused_bits hnd' hb' hm' he'
    simp only [hpres] at c2 u2
    have hpad : ∀ x, (if padding = true then pat'.toNat.testBit (x % 8) else false) =
        (if padding = true then pat.toNat.testBit (x % 8) else false) := by
      intro x
      split
      · rw [hpat (by assumption)]
      · rfl
    simp only [hpad] at u2
    exact C01_payload_unique hb l2 l1 c2 c1 u2 u1
  have hnd' : (sigs'.map (·.name)).Nodup := (hperm.map _).nodup_iff.2 hnd
  exact ⟨half hpat hnd hb hperm hm hm',
    half (fun h => (hpat h).symm) hnd' (fun s hs => hb s (hperm.mem_iff.1 hs)) hperm.symm hm' hm⟩

/-- C39: nor does what a frame decodes to: two messages made from the same signals in different
order decode every frame to the same values, or both raise `DecodeError`. -/
theorem C39_decode_order_independent {sigs' : List Signal} {m' : Message} {fid' : Int}
    {name' : String} {ext' : Bool} {pat' : UInt8} (hnd : (sigs.map (·.name)).Nodup)
    (hb : ∀ s ∈ sigs, Built s.conversion)
    (hpt : ∀ s ∈ sigs, s.conversion.isFloat = true → s.conversion.choices = none)
    (hperm : sigs'.Perm sigs)
    (hm : Message.create fid name len sigs pat ext true .default = .ok m)
    (hm' : Message.create fid' name' len sigs' pat' ext' true .default = .ok m')
    (data : Bytes) (decodeChoices scaling truncated excess : Bool) :
    (decode fo m data decodeChoices scaling truncated excess = .error .decodeError ∧
      decode fo m' data decodeChoices scaling truncated excess = .error .decodeError) ∨
    ∃ r r', decode fo m data decodeChoices scaling truncated excess = .ok r ∧
      decode fo m' data decodeChoices scaling truncated excess = .ok r' ∧ r'.Perm r := by
  have hnd' : (sigs'.map (·.name)).Nodup := (hperm.map _).nodup_iff.2 hnd
  have hb' : ∀ s ∈ sigs', Built s.conversion := fun s hs => hb s (hperm.mem_iff.1 hs)
  have hpt' : ∀ s ∈ sigs', s.conversion.isFloat = true → s.conversion.choices = none :=
    fun s hs => hpt s (hperm.mem_iff.1 hs)
  obtain ⟨ha, hl, -⟩ := accepted_of_create hnd hm
  obtain ⟨ha', hl', -⟩ := accepted_of_create hnd' hm'
  have hpos : ∀ s ∈ sigs, 0 < s.length := fun s hs => ha.pos s ((ha.mem s).2 hs)
  have hbr : ∀ p i, HasBranch sigs' p i ↔ HasBranch sigs p i := fun p i =>
    ⟨hasBranch_congr fun t => hperm.mem_iff.1, hasBranch_congr fun t => hperm.mem_iff.2⟩
  cases had : adjustData data len truncated excess with
  | error e =>
    have he := adjustData_error had
    subst he
    exact .inl ⟨decodeNode_wrong_size (hl.symm ▸ had), decodeNode_wrong_size (hl'.symm ▸ had)⟩
  | ok d =>
    obtain ⟨sel, hsel⟩ := selectorsIn_exists (fo := fo) hnd hpos d decodeChoices scaling
      (receivedBytes data.length len truncated)
    have hsel' : SelectorsIn fo sigs' d decodeChoices scaling
        (receivedBytes data.length len truncated) sel := fun s hs => hsel s (hperm.mem_iff.1 hs)
    have hpres : ∀ s, Present sigs' sel s ↔ Present sigs sel s := fun s =>
      ⟨present_congr (fun t => hperm.mem_iff.1) (fun _ _ => rfl),
        present_congr (fun t => hperm.mem_iff.2) (fun _ _ => rfl)⟩
    obtain ⟨o1, o2⟩ := ha.decode_ok (fo := fo) hb hpt (hl.symm ▸ had) (hl.symm ▸ hsel)
    obtain ⟨o1', o2'⟩ := ha'.decode_ok (fo := fo) hb' hpt' (hl'.symm ▸ had) (hl'.symm ▸ hsel')
    simp only [hpres, hbr] at o1' o2'
    rw [hl] at o1
    rw [hl'] at o1'
    cases hr : decode fo m data decodeChoices scaling truncated excess with
    | error e =>
      cases ha.decode_error hb hpt hr
      left
      refine ⟨rfl, ?_⟩
      cases hr' : decode fo m' data decodeChoices scaling truncated excess with
      | error e => cases ha'.decode_error hb' hpt' hr'; rfl
      | ok r' =>
        obtain ⟨r, hr2⟩ := o2 (o1' r' hr').2.1
        rw [hr] at hr2
        cases hr2
    | ok r =>
      right
      obtain ⟨r', hr'⟩ := o2' (o1 r hr).2.1
      refine ⟨r, r', rfl, hr', ?_⟩
      obtain ⟨n1, -, g1⟩ := o1 r hr
      obtain ⟨n2, -, g2⟩ := o1' r' hr'
      rw [List.perm_ext_iff_of_nodup (List.Nodup.of_map _ n2) (List.Nodup.of_map _ n1)]
      rintro ⟨n, v⟩
      have h1 := g1 n v
      have h2 := g2 n v
      constructor
      · intro h
        exact dictGet?_mem (h1.2 (h2.1 (dictGet?_of_mem n2 h)))
      · intro h
        exact dictGet?_mem (h2.2 (h1.1 (dictGet?_of_mem n1 h)))

end

/-! ### The hypotheses can be met; claims that fail -/

section
open Example

example := (C05_strict_check_iff (fid := 5) (name := "M") (len := 4) (pat := 0) (ext := false) nodup
  (sort := .default) (default_perm sigs)).1.1 ⟨get (Message.create 5 "M" 4 sigs), by
    have h : (Message.create 5 "M" 4 sigs).toOption.isSome = true := by decide +kernel
    cases hc : Message.create 5 "M" 4 sigs with
    | ok m => rfl
    | error e => rw [hc] at h; cases h⟩
/-- A signal that sticks out, and an overlap. -/
example : Message.create 5 "M" 3 sigs = .error .error := by
  cases h : Message.create 5 "M" 3 sigs with
  | error e => rw [(C05_strict_check_iff nodup (sort := .default) (default_perm sigs)).2 e h]
  | ok m =>
    have h' : (Message.create 5 "M" 3 sigs).toOption.isSome = false := by decide +kernel
    rw [h] at h'; cases h'
example : (Message.create 5 "M" 4 [p, { p with name := "Q", start := 7 }]).toOption.isSome = false := by
  decide +kernel

/-- Cyclic and dangling multiplexer references are fine for the codec construction. -/
example := C07_construction_terminates (fid := 5) (name := "M") (len := 4) (pat := 0) (ext := false)
  (sigs := [{ a with name := "X", isMultiplexer := true, multiplexerSignal := some "Y" },
    { a with name := "Y", isMultiplexer := true, multiplexerSignal := some "X" },
    { a with name := "Z", multiplexerSignal := some "W" }]) (by decide +kernel)

example := C39_signals_sorted msg_ok
example : msg.signals.map (·.name) = ["Mux", "P", "B", "A"] := by decide +kernel

example : ∃ m', Message.create 0x123 "Msg" 4 [mux, a, b, p] 0xa5 = .ok m' ∧
    encode fo m' Example.data true true true = .ok [0x91, 0xa5, 0xaf, 0xc5] := by
  have h : (Message.create 0x123 "Msg" 4 [mux, a, b, p] 0xa5).toOption.isSome = true := by
    decide +kernel
  cases hc : Message.create 0x123 "Msg" 4 [mux, a, b, p] 0xa5 with
  | error e => rw [hc] at h; cases h
  | ok m' =>
    exact ⟨m', rfl, (C39_encode_order_independent nodup built
      (by decide +kernel : [mux, a, b, p].Perm sigs) msg_ok hc fun _ => rfl).1 encode_ok⟩

/-- The same with decoding. -/
example (frame : Bytes) := C39_decode_order_independent (fo := fo) nodup built plain
  (by decide +kernel : [p, a, b, mux].Perm sigs) msg_ok
  (m' := get (Message.create 0x123 "Msg" 4 [p, a, b, mux])) (pat' := 0) (ext' := false)
  (by
    have h : (Message.create 0x123 "Msg" 4 [p, a, b, mux]).toOption.isSome = true := by
      decide +kernel
    cases hc : Message.create 0x123 "Msg" 4 [p, a, b, mux] with
    | error e => rw [hc] at h; cases h
    | ok m' => rfl) frame true true true false

/-- What the strict check does not see: a signal whose selector does not exist may stick out of the
payload. -/
theorem C05_unreachable_signal_not_checked :
    ∃ s : Signal, ¬ Fits 1 s ∧ ∃ m, Message.create 5 "M" 1 [s] = .ok m := by
  let s : Signal := { a with name := "S", start := 100, byteOrder := .little, multiplexerSignal := some "Nobody" }
  refine ⟨s, ?_, ?_⟩
  · intro h
    have := h 100 ⟨0, by decide, rfl⟩
    omega
  · have h : (Message.create 5 "M" 1 [s]).toOption.isSome = true := by decide +kernel
    cases hc : Message.create 5 "M" 1 [s] with
    | ok m => exact ⟨m, rfl⟩
    | error e => rw [hc] at h; cases h

/-- Without distinct names the check is unsound: two signals named "S" in different branches; the
check looks at the last one for both, so the first may stick out of the payload. -/
theorem C05_duplicate_names_unsound :
    ∃ sigs : List Signal, ¬ ValidLayout 2 sigs ∧ ∃ m, Message.create 5 "M" 2 sigs = .ok m := by
  let mx : Signal := { name := "Mux", start := 0, length := 8, isMultiplexer := true }
  let s1 : Signal :=
    { name := "S", start := 9, length := 16, multiplexerSignal := some "Mux", multiplexerIds := some [0] }
  let s2 : Signal := { s1 with start := 10, length := 6, multiplexerIds := some [1] }
  refine ⟨[mx, s1, s2], ?_, ?_⟩
  · intro h
    have hp : Present [mx, s1, s2] (fun _ => some 0) s1 :=
      .child s1 mx 0 [0] (by simp) rfl rfl (.root mx (by simp) rfl) rfl rfl (by simp)
    have := h.1 s1 ⟨_, hp⟩ 16 ⟨7, by decide, rfl⟩
    omega
  · have h : (Message.create 5 "M" 2 [mx, s1, s2]).toOption.isSome = true := by decide +kernel
    cases hc : Message.create 5 "M" 2 [mx, s1, s2] with
    | ok m => exact ⟨m, rfl⟩
    | error e => rw [hc] at h; cases h

/-- Negative frame ids pass the check (`int.bit_length` ignores the sign). -/
theorem C05_negative_frame_id : ∃ m, Message.create (-5) "M" 4 sigs = .ok m ∧ m.frameId = -5 := by
  obtain ⟨m, hm⟩ := (C05_strict_check_iff (fid := -5) (name := "M") (len := 4) (pat := 0)
    (ext := false) nodup (sort := .default) (default_perm sigs)).1.2 ⟨by decide, by decide +kernel,
      ((C05_strict_check_iff nodup (default_perm sigs)).1.1 ⟨msg, msg_ok⟩).2.2⟩
  obtain ⟨_, _, c, _, _, rfl⟩ := create_ok_iff.1 hm
  exact ⟨_, hm, rfl⟩

/-- Without distinct names the construction need not end: a selector "A" below another "A" is its
own child.  No recursion depth is enough. -/
theorem C07_duplicate_names_diverge :
    ∃ sigs : List Signal, ∀ fuel, createCodec sigs fuel none none = none := by
  let a1 : Signal := { name := "A", start := 0, length := 8, isMultiplexer := true }
  let a2 : Signal :=
    { a1 with start := 8, multiplexerSignal := some "A", multiplexerIds := some [0] }
  have hch : childrenIds [a1, a2] a1 = [0] := by decide +kernel
  have hch2 : childrenIds [a1, a2] a2 = [0] := by decide +kernel
  have key : ∀ fuel, createCodec [a1, a2] fuel (some "A") (some 0) = none := by
    intro fuel
    induction fuel with
    | zero => rfl
    | succ f ih =>
      have h1 : [a1, a2].filter (atNode (some "A") (some 0)) = [a2] := by decide +kernel
      have h2 : [a2].filter (fun s => s.isMultiplexer && !(childrenIds [a1, a2] s).isEmpty) =
          [a2] := by decide +kernel
      simp only [createCodec, h1, h2, List.mapM_cons, hch2]
      have ih' : createCodec [a1, a2] f (some a2.name) (some 0) = none := ih
      rw [ih']
      rfl
  refine ⟨[a1, a2], fun fuel => ?_⟩
  cases fuel with
  | zero => rfl
  | succ f =>
    have h1 : [a1, a2].filter (atNode none none) = [a1] := by decide +kernel
    have h2 : [a1].filter (fun s => s.isMultiplexer && !(childrenIds [a1, a2] s).isEmpty) =
        [a1] := by decide +kernel
    simp only [createCodec, h1, h2, List.mapM_cons, hch]
    have ih' : createCodec [a1, a2] f (some a1.name) (some 0) = none := key f
    rw [ih']
    rfl

/-- With `sort_signals=None` the little endian format relies on the order of the signals: for two
signals given in descending order, which the strict check accepts, encoding representable values
raises `OverflowError` and no payload can be decoded. -/
theorem C10_unsorted_signals_overflow :
    ∃ (s t : Signal) (m : Message), ValidLayout 2 [s, t] ∧
      Message.create 5 "M" 2 [s, t] 0 false true .none = .ok m ∧
      Representable fo s 1 ∧ Representable fo t 2 ∧
      encode fo m [(s.name, .num 1), (t.name, .num 2)] false false true = .error .overflowError ∧
      decode fo m [2, 1] false false false false = .error .decodeError := by
  let s : Signal := { name := "S", start := 8, length := 8 }
  let t : Signal := { name := "T", start := 0, length := 8 }
  have h : (Message.create 5 "M" 2 [s, t] 0 false true .none).toOption.isSome = true := by
    decide +kernel
  have hc : Message.create 5 "M" 2 [s, t] 0 false true .none =
      .ok (get (Message.create 5 "M" 2 [s, t] 0 false true .none)) := by
    cases hc : Message.create 5 "M" 2 [s, t] 0 false true .none with
    | error e => rw [hc] at h; cases h
    | ok m => rfl
  refine ⟨s, t, _, ?_, hc, ?_, ?_, by decide +kernel, by decide +kernel⟩
  · exact ((C05_strict_check_iff (by decide +kernel) (.refl _)).1.1 ⟨_, hc⟩).2.2
  · exact ⟨1, rfl, by decide, by decide⟩
  · exact ⟨2, rfl, by decide, by decide⟩

end

end Cantools
