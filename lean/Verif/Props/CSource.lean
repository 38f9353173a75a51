import Verif.Lemmas.CRun
import Verif.Spec.CSource
import Verif.Props.Encode
import Verif.Props.Decode

/-
Properties of the generated C code: C30.

The generated statements are executed with the meaning the C standard gives them; `.undefined` is
undefined behaviour.  Structs are functions from member names to integers (for float members the bit
pattern).
-/

namespace Cantools
open Spec

section
variable {fo : FloatOps} {fid : Int} {name : String} {len : Nat} {sigs : List Signal} {pat : UInt8}
  {ext : Bool} {m : Message}

/-- C30: code is generated for every accepted message whose signals have supported lengths and whose
multiplexer ids fit their selectors. -/
theorem C30_generates (hnd : (sigs.map (·.name)).Nodup)
    (hsup : ∀ s ∈ sigs, CSupported s) (hcs : CSelectors sigs)
    (hm : Message.create fid name len sigs pat ext true .default = .ok m)
    (receives : Signal → Bool) :
    (∃ code, C.genPack m = .ok code) ∧ ∃ code, C.genUnpack receives m = .ok code := by
  obtain ⟨ha, hl, _⟩ := accepted_of_create hnd hm
  obtain ⟨c1, h1, _⟩ := C.pack_spec ha hsup hcs
  obtain ⟨c2, h2, _⟩ := C.unpack_spec (fo := ⟨fun _ _ => .error .error, fun _ => 0, by
    intro n q l h; cases h⟩) ha hnd hsup hcs receives
  exact ⟨⟨c1, h1⟩, c2, h2⟩

/-- C30: the pack function writes every signal selected by the struct at the bit positions its
start, length and byte order document, in two's complement (floats: their bit pattern), clears all
other bits of the message, and leaves the buffer behind the message alone.  A buffer that is too
short gives `-EINVAL`. -/
theorem C30_pack (hnd : (sigs.map (·.name)).Nodup)
    (hsup : ∀ s ∈ sigs, CSupported s) (hcs : CSelectors sigs)
    (hm : Message.create fid name len sigs pat ext true .default = .ok m)
    {code : C.Code C.PackSignal} (hcode : C.genPack m = .ok code) (dst : Bytes) (src : C.Struct) :
    (dst.length < len → C.pack m code dst src = .error .einval) ∧
    (len ≤ dst.length → ∃ buf, C.pack m code dst src = .ok (len, buf) ∧
      buf.length = dst.length ∧
      (∀ s, Present sigs (fun n => some (src n)) s → ∀ j, j < s.length →
        payloadBit buf (bitPos s j) = intBit (src s.name) j) ∧
      (∀ p, p < 8 * len → (∀ s, Present sigs (fun n => some (src n)) s → ¬ Occupies s p) →
        payloadBit buf p = false) ∧
      buf.drop len = dst.drop len) := by
  obtain ⟨ha, hl, _⟩ := accepted_of_create hnd hm
  obtain ⟨code', h1, h2⟩ := C.pack_spec ha hsup hcs
  rw [hcode] at h1
  cases h1
  have hv := validLayout_congr ha.mem ha.valid
  constructor
  · intro h
    unfold C.pack
    rw [if_pos (by omega)]
  · intro h
    obtain ⟨buf, e1, e2, e3, e4⟩ := h2 dst src (by omega)
    rw [hl] at e1 e3 e4
    refine ⟨buf, e1, e2, ?_, ?_, e4⟩
    · intro s hs j hj
      have hlt : bitPos s j < 8 * len := hl ▸ hv.1 s ⟨_, hs⟩ _ ⟨j, hj, rfl⟩
      rw [Bool.eq_iff_iff, e3 _ hlt]
      constructor
      · rintro ⟨t, ht, k, hk, hpos, hbit⟩
        by_cases hst : s = t
        · subst hst
          rw [← bitPos_inj hk hj hpos]; exact hbit
        · exact absurd ⟨k, hk, hpos⟩ (hv.2 _ s t hs ht hst _ ⟨j, hj, rfl⟩)
      · intro hbit; exact ⟨s, hs, j, hj, rfl, hbit⟩
    · intro p hp hfree
      rw [← Bool.not_eq_true, e3 p hp]
      rintro ⟨s, hs, j, hj, hpos, _⟩
      exact hfree s hs ⟨j, hj, hpos⟩

/-- C30: whenever Python encodes raw values (`scaling=False`), the pack function writes the same
bytes from a struct that holds these values.
(Missing: signals of more than 64 bits and 16 bit floats, see the negations below.) -/
theorem C30_pack_is_encode_partial (hnd : (sigs.map (·.name)).Nodup) (hb : ∀ s ∈ sigs, Built s.conversion)
    (hsup : ∀ s ∈ sigs, CSupported s) (hcs : CSelectors sigs)
    (hm : Message.create fid name len sigs pat ext true .default = .ok m)
    {code : C.Code C.PackSignal} (hcode : C.genPack m = .ok code)
    {data : List (String × Value)} {src : C.Struct}
    (hsrc : ∀ s ∈ sigs, ∀ v, dictGet? data s.name = some v →
      ∃ r, v = .num r ∧ MemberFor fo s r (src s.name))
    {strict : Bool} {payload : Bytes} (he : encode fo m data false false strict = .ok payload)
    {dst : Bytes} (hdst : len ≤ dst.length) :
    C.pack m code dst src = .ok (len, payload ++ dst.drop len) := by
  obtain ⟨hpl, h1⟩ := C01_encode_bit_exact hnd hb hm he
  have h2 := C02_unused_bits hnd hb hm he
  obtain ⟨buf, e1, e2, e3, e4, e5⟩ := (C30_pack hnd hsup hcs hm hcode dst src).2 hdst
  -- what a struct says about a selector is what the dictionary says
  have hnum : ∀ p, Present sigs (requested sigs data) p → Selects sigs p →
      requested sigs data p.name = some (src p.name) := by
    intro p hp hsl
    obtain ⟨v, r, hv, _⟩ := h1 p hp
    obtain ⟨r', rfl, hr'⟩ := hsrc p hp.mem v hv
    unfold MemberFor at hr'
    rw [(hcs p hp.mem hsl).1] at hr'
    simp only [Bool.false_eq_true, if_false] at hr'
    rw [requested_of_mem hnd hp.mem hv, hr']
    simp [selectorNumber, pyInt_int]
  have hsl : ∀ {s p : Signal} {i : Int} {ids : List Int}, s ∈ sigs →
      s.multiplexerSignal = some p.name → p.isMultiplexer = true → s.multiplexerIds = some ids →
      i ∈ ids → Selects sigs p := by
    intro s p i ids hs hp hmx hids hi
    exact ⟨hmx, i, .inl ⟨s, hs, hp, by rw [hids]; exact hi⟩⟩
  have hpres : ∀ s, Present sigs (fun n => some (src n)) s ↔ Present sigs (requested sigs data) s := by
    intro s
    constructor
    · intro h
      induction h with
      | root s hs hp => exact .root s hs hp
      | child s p i ids hs hp hmx hpar hsel hids hi ih =>
        exact .child s p i ids hs hp hmx ih
          ((hnum p ih (hsl hs hp hmx hids hi)).trans hsel) hids hi
    · intro h
      induction h with
      | root s hs hp => exact .root s hs hp
      | child s p i ids hs hp hmx hpar hsel hids hi ih =>
        exact .child s p i ids hs hp hmx ih
          ((hnum p hpar (hsl hs hp hmx hids hi)).symm.trans hsel) hids hi
  have hbits : ∀ s, Present sigs (requested sigs data) s → ∀ j, j < s.length →
      payloadBit payload (bitPos s j) = intBit (src s.name) j := by
    intro s hs j hj
    obtain ⟨v, r, hv, hr, hc⟩ := h1 s hs
    obtain ⟨r', rfl, hr'⟩ := hsrc s hs.mem v hv
    unfold Carries at hc
    unfold MemberFor at hr'
    unfold RawOf at hr
    obtain ⟨_, x, hx, hr⟩ := hr
    simp only [Bool.false_eq_true, if_false] at hx
    subst hx
    split at hc
    · rename_i hf
      rw [if_pos hf] at hr hr'
      subst hr
      obtain ⟨l, hl1, hl2⟩ := hc
      obtain ⟨l', hl1', hl2'⟩ := hr'
      rw [hl1] at hl1'; cases hl1'
      rw [hl2 j hj, hl2' j hj]
    · rename_i hf
      rw [if_neg hf] at hr hr'
      subst hr'
      obtain ⟨i, rfl, hi⟩ := hr
      obtain ⟨i', hi1, hi2⟩ := hc
      have : i' = src s.name := by
        have h3 := nearest_unique hi (pyRound_nearest _)
        rw [pyRound_int] at h3
        rw [← h3]; exact_mod_cast hi1.symm
      rw [← this]; exact hi2.2 j hj
  have htake : buf.take len = payload := by
    apply C.bytes_ext
    · rw [List.length_take, hpl]; omega
    · intro p hp
      rw [List.length_take] at hp
      have hp' : p < 8 * len := by omega
      have : payloadBit (buf.take len) p = payloadBit buf p := by
        conv_rhs => rw [← List.take_append_drop len buf]
        unfold payloadBit
        rw [List.getD_eq_getElem?_getD, List.getD_eq_getElem?_getD,
          List.getElem?_append_left (by rw [List.length_take]; omega)]
      rw [this]
      by_cases ho : ∃ s, Present sigs (requested sigs data) s ∧ Occupies s p
      · obtain ⟨s, hs, j, hj, rfl⟩ := ho
        rw [e3 s ((hpres s).2 hs) j hj, hbits s hs j hj]
      · rw [e4 p hp' fun s hs h => ho ⟨s, (hpres s).1 hs, h⟩,
          h2 p hp' fun s hs h => ho ⟨s, hs, h⟩]
        rfl
  rw [e1, ← htake, ← e5, List.take_append_drop]

/-- C30: the unpack function stores, for the signals selected by the payload, the raw value in the
bits of the signal (floats: the bit pattern), and leaves all other members alone.  Signals that no
selected node receives are left out, except selectors.  A buffer that is too short gives `-EINVAL`. -/
theorem C30_unpack (hnd : (sigs.map (·.name)).Nodup)
    (hsup : ∀ s ∈ sigs, CSupported s) (hcs : CSelectors sigs)
    (hm : Message.create fid name len sigs pat ext true .default = .ok m)
    {receives : Signal → Bool} {code : C.Code C.UnpackSignal}
    (hcode : C.genUnpack receives m = .ok code) (dst : C.Struct) (src : Bytes) :
    (src.length < len → C.unpack m code dst src = .error .einval) ∧
    (len ≤ src.length → ∀ sel, SelectorsIn fo sigs src false false len sel →
      ∃ dst', C.unpack m code dst src = .ok dst' ∧
        (∀ s, Present sigs sel s → receives s = true ∨ Selects sigs s →
          MemberIn s src (dst' s.name)) ∧
        (∀ n, (∀ s, Present sigs sel s → receives s = true ∨ Selects sigs s → s.name ≠ n) →
          dst' n = dst n)) := by
  obtain ⟨ha, hl, _⟩ := accepted_of_create hnd hm
  obtain ⟨code', h1, h2⟩ := C.unpack_spec (fo := fo) ha hnd hsup hcs receives
  rw [hcode] at h1
  cases h1
  constructor
  · intro h
    unfold C.unpack
    rw [if_pos (by omega)]
  · intro h sel hsel
    exact h2 dst src (by omega) sel (hl ▸ hsel)

theorem memberNumber_of_memberIn {s : Signal} (hl : 0 < s.length) {d : Bytes} {v : Int} {r : Rat}
    (h : MemberIn s d v) (hr : RawIn fo s d r) : r = memberNumber fo s v := by
  unfold memberNumber
  split
  · rename_i hf
    unfold MemberIn at h
    unfold RawIn at hr
    rw [if_pos hf] at h hr
    rw [hr]
    congr 1
    apply List.map_congr_left
    intro k hk
    rw [List.mem_range] at hk
    exact h.2.2 _ (by omega)
  · rename_i hf
    exact C.rawIn_memberIn hl (by simpa using hf) hr h

/-- C30: whenever Python decodes a payload to raw values (`scaling=False`, `decode_choices=False`),
the unpack function stores the same values for the signals it handles, and leaves all other members
alone.  (Missing: signals of more than 64 bits and 16 bit floats, see the negations below.) -/
theorem C30_unpack_is_decode_partial (hnd : (sigs.map (·.name)).Nodup)
    (hb : ∀ s ∈ sigs, Built s.conversion)
    (hpt : ∀ s ∈ sigs, s.conversion.isFloat = true → s.conversion.choices = none)
    (hsup : ∀ s ∈ sigs, CSupported s) (hcs : CSelectors sigs)
    (hm : Message.create fid name len sigs pat ext true .default = .ok m)
    {receives : Signal → Bool} {code : C.Code C.UnpackSignal}
    (hcode : C.genUnpack receives m = .ok code) {src : Bytes} (hlen : len ≤ src.length)
    {truncated excess : Bool} {r : List (String × Value)}
    (hr : decode fo m src false false truncated excess = .ok r) (dst : C.Struct) :
    ∃ dst', C.unpack m code dst src = .ok dst' ∧
      ∀ s ∈ sigs,
        (∀ v, dictGet? r s.name = some v → receives s = true ∨ Selects sigs s →
          v = .num (memberNumber fo s (dst' s.name))) ∧
        (dictGet? r s.name = none ∨ (receives s = false ∧ ¬ Selects sigs s) →
          dst' s.name = dst s.name) := by
  obtain ⟨ha, hl, _⟩ := accepted_of_create hnd hm
  have hpos : ∀ s ∈ sigs, 0 < s.length := fun s hs => ha.pos s ((ha.mem s).2 hs)
  have htake : decode fo m (src.take len) false false truncated excess = .ok r := by
    by_cases hlt : len < src.length
    · cases excess with
      | false => rw [(C12_wrong_size (fo := fo) m src false false truncated).2 (by omega)] at hr; cases hr
      | true =>
        have h := C12_excess (fo := fo) m (data := src) (by omega) false false truncated true
        rw [hl] at h
        rw [← hr, h]
    · rw [List.take_of_length_le (by omega)]; exact hr
  obtain ⟨sel, hsel, hd⟩ := C04_decode_reads_bits (fo := fo) hnd hb hpt hm (data := src.take len)
    (by rw [List.length_take]; omega) (decodeChoices := false) (scaling := false)
    (truncated := truncated) (excess := excess)
  rcases hd with ⟨r', hr', _, _, hget⟩ | ⟨he, _⟩
  swap
  · rw [htake] at he; cases he
  rw [htake] at hr'
  cases hr'
  have hbits : ∀ s, Fits len s → ∀ p, Occupies s p →
      payloadBit (src.take len) p = payloadBit src p := by
    intro s hf p hp
    have := hf p hp
    conv_rhs => rw [← List.take_append_drop len src]
    unfold payloadBit
    rw [List.getD_eq_getElem?_getD, List.getD_eq_getElem?_getD,
      List.getElem?_append_left (by rw [List.length_take]; omega)]
  have hsel' : SelectorsIn fo sigs src false false len sel := by
    intro s hs
    refine ⟨fun hf => ?_, (hsel s hs).2⟩
    obtain ⟨raw, h1, h2⟩ := (hsel s hs).1 hf
    exact ⟨raw, rawIn_congr (hbits s hf) h1, h2⟩
  obtain ⟨dst', e1, e2, e3⟩ := (C30_unpack (fo := fo) hnd hsup hcs hm hcode dst src).2 hlen sel hsel'
  have hfit : ∀ s, Present sigs sel s → Fits len s := fun s hs =>
    hl ▸ (validLayout_congr ha.mem ha.valid).1 s ⟨_, hs⟩
  refine ⟨dst', e1, fun s hs => ⟨?_, ?_⟩⟩
  · intro v hv hk
    obtain ⟨t, ht, htn, raw, h1, rfl⟩ := (hget _ _).1 hv
    have := name_inj hnd ht.mem hs htn
    subst this
    rw [show shown t false false raw = .num raw by simp [shown]]
    rw [memberNumber_of_memberIn (hpos t hs) (e2 t ht hk) (rawIn_congr (hbits t (hfit t ht)) h1)]
  · intro h
    apply e3
    intro t ht hk htn
    have := name_inj hnd ht.mem hs htn
    subst this
    rcases h with h | ⟨h1, h2⟩
    · obtain ⟨raw, hraw, _⟩ := (hsel t hs).1 (hfit t ht)
      rw [(hget t.name _).2 ⟨t, ht, rfl, raw, hraw, rfl⟩] at h
      cases h
    · rw [h1] at hk
      rcases hk with hk | hk
      · cases hk
      · exact h2 hk

/-- C30: unpacking what was packed gives the members back that their signals can carry. -/
theorem C30_round_trip (hnd : (sigs.map (·.name)).Nodup)
    (hsup : ∀ s ∈ sigs, CSupported s) (hcs : CSelectors sigs)
    (hm : Message.create fid name len sigs pat ext true .default = .ok m)
    {pcode : C.Code C.PackSignal} (hp : C.genPack m = .ok pcode)
    {receives : Signal → Bool} {ucode : C.Code C.UnpackSignal}
    (hu : C.genUnpack receives m = .ok ucode) {src : C.Struct}
    (hfits : ∀ s, Present sigs (fun n => some (src n)) s → MemberFits s (src s.name))
    {dst : Bytes} (hlen : len ≤ dst.length) (out : C.Struct) :
    ∃ buf out', C.pack m pcode dst src = .ok (len, buf) ∧ C.unpack m ucode out buf = .ok out' ∧
      ∀ s, Present sigs (fun n => some (src n)) s → receives s = true ∨ Selects sigs s →
        out' s.name = src s.name := by
  obtain ⟨ha, hl, _⟩ := accepted_of_create hnd hm
  have hpos : ∀ s ∈ sigs, 0 < s.length := fun s hs => ha.pos s ((ha.mem s).2 hs)
  obtain ⟨buf, e1, e2, e3, e4, e5⟩ := (C30_pack hnd hsup hcs hm hp dst src).2 hlen
  let fo : FloatOps := ⟨fun _ _ => .error .error, fun _ => 0, by intro n q l h; cases h⟩
  obtain ⟨sel, hsel⟩ := selectorsIn_exists (fo := fo) hnd hpos buf false false len
  obtain ⟨out', f1, f2, _⟩ := (C30_unpack (fo := fo) hnd hsup hcs hm hu out buf).2 (by omega) sel hsel
  have hmember : ∀ s, Present sigs (fun n => some (src n)) s → MemberIn s buf (src s.name) := by
    intro s hs
    have h1 := hfits s hs
    have h2 := e3 s hs
    unfold MemberFits at h1
    unfold MemberIn
    split
    · rename_i hf; rw [if_pos hf] at h1; exact ⟨h1.1, h1.2, h2⟩
    · rename_i hf; rw [if_neg hf] at h1; exact ⟨h1, h2⟩
  have hfit : ∀ s, Present sigs (fun n => some (src n)) s → Fits len s := fun s hs =>
    hl ▸ (validLayout_congr ha.mem ha.valid).1 s ⟨_, hs⟩
  have hpres : ∀ s, Present sigs (fun n => some (src n)) s → Present sigs sel s := by
    intro s h
    induction h with
    | root s hs hp => exact .root s hs hp
    | child s p i ids hs hp hmx hpar hseli hids hi ih =>
      refine .child s p i ids hs hp hmx ih ?_ hids hi
      have hfl := (hcs p hpar.mem ⟨hmx, i, .inl ⟨s, hs, hp, by rw [hids]; exact hi⟩⟩).1
      obtain ⟨raw, h1, h2⟩ := (hsel p hpar.mem).1 (hfit p hpar)
      rw [h2, C.rawIn_memberIn (hpos p hpar.mem) hfl h1 (hmember p hpar)]
      rw [← hseli]
      simp [shown, selectorNumber, pyInt_int]
  exact ⟨buf, out', e1, f1, fun s hs hk =>
    C.memberIn_unique (hpos s hs.mem) (f2 s (hpres s hs) hk) (hmember s hs)⟩

end

section
open Example

theorem Example.supported : ∀ s ∈ sigs, CSupported s := by
  simp only [CSupported]
  decide +kernel

theorem Example.cselectors : CSelectors sigs := by
  intro s hs hsl
  have hmux : s = mux := by
    simp only [sigs, List.mem_cons, List.not_mem_nil, or_false] at hs
    rcases hs with rfl | rfl | rfl | rfl
    · exact absurd hsl.1 (by decide)
    · exact absurd hsl.1 (by decide)
    · exact absurd hsl.1 (by decide)
    · rfl
  subst hmux
  refine ⟨by decide, fun i hi => ?_⟩
  have h : i = 0 ∨ i = 1 ∨ i = 2 ∨ i = 7 := by
    rcases hi with ⟨t, ht, _, hi⟩ | hi
    · simp only [sigs, List.mem_cons, List.not_mem_nil, or_false] at ht
      rcases ht with rfl | rfl | rfl | rfl <;> simp [a, b, p, mux] at hi <;> omega
    · have : (table mux).map (·.1) = [0, 1, 7] := by decide +kernel
      rw [this] at hi
      simp at hi
      omega
  rw [C.inCType_iff (by decide)]
  have h1 : mux.isSigned = false := by decide
  have h2 : C.typeLength mux = 8 := by decide
  rw [h1, h2]
  simp only [Bool.false_eq_true, if_false]
  omega

def Example.packCode : C.Code C.PackSignal :=
  match C.genPack msg with | .ok c => c | .error _ => .nil

theorem Example.packCode_ok : C.genPack msg = .ok packCode := by
  obtain ⟨⟨c, hc⟩, _⟩ := C30_generates nodup supported cselectors msg_ok (fun _ => true)
  unfold packCode
  rw [hc]

def Example.unpackCode : C.Code C.UnpackSignal :=
  match C.genUnpack (fun s => s.name != "P") msg with | .ok c => c | .error _ => .nil

theorem Example.unpackCode_ok : C.genUnpack (fun s => s.name != "P") msg = .ok unpackCode := by
  obtain ⟨_, c, hc⟩ := C30_generates nodup supported cselectors msg_ok (fun s => s.name != "P")
  unfold unpackCode
  rw [hc]

def Example.src : C.Struct := fun n =>
  if n = "Mux" then 1 else if n = "A" then -30 else if n = "P" then 9 else 77

def Example.rawData : List (String × Value) := [("Mux", .num 1), ("A", .num (-30)), ("P", .num 9)]

theorem Example.encode_raw : encode fo msg rawData false false true = .ok [0x91, 0x00, 0x0f, 0xc4] := by
  decide +kernel

/-- The hypotheses of `C30_pack_is_encode_partial` are met. -/
example : C.pack msg packCode [1, 2, 3, 4, 5] src = .ok (4, [0x91, 0x00, 0x0f, 0xc4, 5]) := by
  refine C30_pack_is_encode_partial (fo := fo) (dst := [1, 2, 3, 4, 5]) nodup built supported
    cselectors msg_ok packCode_ok (data := rawData) ?_ encode_raw (by decide)
  intro s hs v hv
  simp only [sigs, List.mem_cons, List.not_mem_nil, or_false] at hs
  have hf : ∀ s ∈ sigs, s.conversion.isFloat = false := by decide +kernel
  rcases hs with rfl | rfl | rfl | rfl
  · rw [show dictGet? rawData b.name = none by decide +kernel] at hv; cases hv
  · rw [show dictGet? rawData a.name = some (.num (-30)) by decide +kernel] at hv; cases hv
    exact ⟨-30, rfl, by unfold MemberFor; rw [hf a (by simp [sigs])]; simp only [Bool.false_eq_true, if_false]; decide +kernel⟩
  · rw [show dictGet? rawData p.name = some (.num 9) by decide +kernel] at hv; cases hv
    exact ⟨9, rfl, by unfold MemberFor; rw [hf p (by simp [sigs])]; simp only [Bool.false_eq_true, if_false]; decide +kernel⟩
  · rw [show dictGet? rawData mux.name = some (.num 1) by decide +kernel] at hv; cases hv
    exact ⟨1, rfl, by unfold MemberFor; rw [hf mux (by simp [sigs])]; simp only [Bool.false_eq_true, if_false]; decide +kernel⟩

/-- The hypotheses of `C30_unpack_is_decode_partial` are met. -/
example : ∃ dst', C.unpack msg unpackCode (fun _ => 5) [0x91, 0, 0x0f, 0xc4] = .ok dst' ∧
    dst' "A" = -30 ∧ dst' "P" = 5 ∧ dst' "B" = 5 := by
  have hd : decode fo msg [0x91, 0, 0x0f, 0xc4] false false false false =
      .ok [("Mux", .num 1), ("P", .num 9), ("A", .num (-30))] := by decide +kernel
  obtain ⟨dst', h1, h2⟩ := C30_unpack_is_decode_partial nodup built plain supported cselectors msg_ok
    unpackCode_ok (by decide) hd (fun _ => 5)
  have hf : ∀ s ∈ sigs, s.conversion.isFloat = false := by decide +kernel
  refine ⟨dst', h1, ?_, ?_, ?_⟩
  · have := (h2 a (by simp [sigs])).1 (.num (-30)) (by decide +kernel) (.inl (by decide +kernel))
    unfold memberNumber at this
    rw [hf a (by simp [sigs])] at this
    simp only [Bool.false_eq_true, if_false, Value.num.injEq] at this
    have h3 : ((dst' a.name : Int) : Rat) = ((-30 : Int) : Rat) := by rw [← this]; norm_num
    exact_mod_cast h3
  · exact (h2 p (by simp [sigs])).2 (.inr ⟨by decide +kernel, fun h => absurd h.1 (by decide)⟩)
  · exact (h2 b (by simp [sigs])).2 (.inl (by decide +kernel))

theorem Example.get_ok {α : Type} [Inhabited α] {e : Except Err α}
    (h : e.toOption.isSome = true) : e = .ok (get e) := by
  cases e with
  | ok x => rfl
  | error _ => cases h

def Example.getC {α : Type} : Except Err (C.Code α) → C.Code α
  | .ok c => c
  | .error _ => .nil

theorem Example.getC_ok {α : Type} {e : Except Err (C.Code α)} (h : e.toOption.isSome = true) :
    e = .ok (getC e) := by
  cases e with
  | ok x => rfl
  | error _ => cases h

def Example.isError {α : Type} (err : C.CErr) : Except C.CErr α → Bool
  | .ok _ => false
  | .error e => e == err

theorem Example.isError_eq {α : Type} {err : C.CErr} {e : Except C.CErr α}
    (h : isError err e = true) : e = .error err := by
  cases e with
  | ok x => cases h
  | error e' => simp only [isError, beq_iff_eq] at h; rw [h]

/-- C30 fails for 16 bit floats: the member is a `double`, and `memcpy` reads beyond the 16 bit
variable the bits were collected in. -/
theorem C30_half_float_undefined : ∃ (s : Signal) (m : Message) (code : C.Code C.UnpackSignal),
    s.length = 16 ∧ Message.create 1 "M" 2 [s] = .ok m ∧ C.genUnpack (fun _ => true) m = .ok code ∧
    (∃ r, decode fo m [0, 0] false false false false = .ok r) ∧
    C.unpack m code (fun _ => 0) [0, 0] = .error .undefined := by
  let s : Signal := { name := "F", start := 0, length := 16, conversion := .factory 1 0 none true }
  let m := get (Message.create 1 "M" 2 [s])
  let code := getC (C.genUnpack (fun _ => true) m)
  exact ⟨s, m, code, rfl, get_ok (by decide +kernel), getC_ok (by decide +kernel),
    ⟨[("F", .num 0)], by decide +kernel⟩, isError_eq (by decide +kernel)⟩

/-- C30 fails for integers of more than 64 bits: shifting by more than the width of the variable is
undefined, although Python encodes the value. -/
theorem C30_long_signal_undefined : ∃ (s : Signal) (m : Message) (code : C.Code C.PackSignal),
    s.length = 72 ∧ Message.create 1 "M" 9 [s] = .ok m ∧ C.genPack m = .ok code ∧
    (∃ p, encode fo m [("L", .num 5)] false false true = .ok p) ∧
    C.pack m code (List.replicate 9 0) (fun _ => 5) = .error .undefined := by
  let s : Signal := { name := "L", start := 0, length := 72 }
  let m := get (Message.create 1 "M" 9 [s])
  let code := getC (C.genPack m)
  exact ⟨s, m, code, rfl, get_ok (by decide +kernel), getC_ok (by decide +kernel),
    ⟨[5, 0, 0, 0, 0, 0, 0, 0, 0], by decide +kernel⟩, isError_eq (by decide +kernel)⟩

/-- No code is generated for signed integers of more than 64 bits. -/
theorem C30_long_signed_not_generated (s : Signal) (hs : s.isSigned = true)
    (hf : s.conversion.isFloat = false) (hl : 64 < s.length) (sigs : List Signal)
    (hg : C.getSignal sigs s.name = .ok s) : C.genUnpackSignal sigs s.name = .error .valueError := by
  have ht : C.typeLength s = 64 := by unfold C.typeLength; split_ifs <;> omega
  unfold C.genUnpackSignal C.signExtension
  rw [hg]
  simp only [bind, Except.bind, hs, hf, ht]
  simp [hl]

/-- A selector value without branch: Python refuses to decode, the C code succeeds silently. -/
theorem C30_unknown_selector :
    decode fo msg [0x93, 0, 0, 0] false false false false = .error .decodeError ∧
    ∃ dst', C.unpack msg unpackCode (fun _ => 5) [0x93, 0, 0, 0] = .ok dst' := by
  refine ⟨by decide +kernel, ?_⟩
  have hpos : ∀ s ∈ sigs, 0 < s.length := by decide +kernel
  obtain ⟨sel, hsel⟩ := selectorsIn_exists (fo := fo) nodup hpos [0x93, 0, 0, 0] false false 4
  obtain ⟨dst', h, _⟩ := (C30_unpack (fo := fo) nodup supported cselectors msg_ok unpackCode_ok
    (fun _ => 5) [0x93, 0, 0, 0]).2 (by decide) sel hsel
  exact ⟨dst', h⟩

end

end Cantools
