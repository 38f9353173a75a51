import Verif.Lemmas.SpreadFrame

/-
A message with one selector and its spread form have the same frames.
-/

namespace Cantools
open Spec Dbc

theorem Moved.elim {a b : Signal} (h : Moved a b) : ∃ x y, b = { a with multiplexerSignal := x, multiplexerIds := y } :=
  ⟨_, _, h⟩

variable {fo : FloatOps} {S S' : List Signal} {m m' : Message} {fid fid' : Int} {name name' : String}
  {ext ext' : Bool} {pat pat' : UInt8} {len : Nat}

theorem encode_moved (hnd : (S.map (·.name)).Nodup) (hb : ∀ s ∈ S, Built s.conversion)
    (hnd' : (S'.map (·.name)).Nodup) (hb' : ∀ s ∈ S', Built s.conversion)
    (hm : Message.create fid name len S pat ext true .default = .ok m)
    (hm' : Message.create fid' name' len S' pat' ext' true .default = .ok m')
    {data : List (String × Value)} {scaling padding strict : Bool} {payload : Bytes}
    (hfw : ∀ a, Present S (requested S data) a → ∃ b, Moved a b ∧ Present S' (requested S' data) b)
    (hbw : ∀ b, Present S' (requested S' data) b → ∃ a, Moved a b ∧ Present S (requested S data) a)
    (hsel : Selectable S' (requested S' data))
    (hpat : padding = true → pat' = pat) (he : encode fo m data scaling padding strict = .ok payload) :
    encode fo m' data scaling padding strict = .ok payload := by
  have hex : ∃ p', encode fo m' data scaling padding strict = .ok p' := by
    cases strict with
    | false =>
      obtain ⟨-, c2⟩ := (C10_encode_succeeds_iff hnd hb hm).1 ⟨_, he⟩
      rw [C10_encode_succeeds_iff hnd' hb' hm']
      refine ⟨hsel, fun s hs => ?_⟩
      obtain ⟨a, hr, hp⟩ := hbw s hs
      obtain ⟨x, y, rfl⟩ := hr.elim
      obtain ⟨v, r, g1, g2, g3⟩ := c2 a hp
      exact ⟨v, r, g1, by cases v <;> exact g2, g3⟩
    | true =>
      obtain ⟨-, c2, c3⟩ := (C10_strict_encode_succeeds_iff hnd hb hm).1 ⟨_, he⟩
      rw [C10_strict_encode_succeeds_iff hnd' hb' hm']
      refine ⟨hsel, fun n hn => ?_, fun s hs => ?_⟩
      · obtain ⟨a, hp, ha⟩ := c2 n hn
        obtain ⟨b, hr, hq⟩ := hfw a hp
        obtain ⟨x, y, rfl⟩ := hr.elim
        exact ⟨_, hq, ha⟩
      · obtain ⟨a, hr, hp⟩ := hbw s hs
        obtain ⟨x, y, rfl⟩ := hr.elim
        obtain ⟨v, r, g1, g2, g3, g4⟩ := c3 a hp
        exact ⟨v, r, g1, by cases v <;> exact g2, by cases v <;> exact g3, g4⟩
  obtain ⟨p', he'⟩ := hex
  rw [he']
  congr 1
  obtain ⟨l1, c1⟩ := C01_encode_bit_exact hnd hb hm he
  obtain ⟨l2, c2⟩ := C01_encode_bit_exact hnd' hb' hm' he'
  have u1 := C02_unused_bits hnd hb hm he
  have u2 := C02_unused_bits hnd' hb' hm' he'
  have hpad : ∀ x, (if padding = true then pat'.toNat.testBit (x % 8) else false) =
      (if padding = true then pat.toNat.testBit (x % 8) else false) := by
    intro x
    split
    · rw [hpat (by assumption)]
    · rfl
  simp only [hpad] at u2
  refine C01_payload_unique hb l2 l1 (fun s hs => ?_) c1 (fun x hx hfree => u2 x hx fun s hs ho => ?_) u1
  · obtain ⟨b, hr, hq⟩ := hfw s hs
    obtain ⟨x, y, rfl⟩ := hr.elim
    obtain ⟨v, r, g1, g2, g3⟩ := c2 _ hq
    exact ⟨v, r, g1, by cases v <;> exact g2, g3⟩
  · obtain ⟨a, hr, hp⟩ := hbw s hs
    exact hfree a hp (hr.occupies.1 ho)

theorem decode_moved (hb : ∀ s ∈ S, Built s.conversion) (hpt : ∀ s ∈ S, s.conversion.isFloat = true → s.conversion.choices = none)
    (hb' : ∀ s ∈ S', Built s.conversion) (hpt' : ∀ s ∈ S', s.conversion.isFloat = true → s.conversion.choices = none)
    (ha : Accepted S m) (ha' : Accepted S' m') (hl : m'.length = m.length)
    {data d : Bytes} {dc sc tr ex : Bool} (had : adjustData data m.length tr ex = .ok d) {val : String → Option Int}
    (hsel : SelectorsIn fo S d dc sc (receivedBytes data.length m.length tr) val)
    (hsel' : SelectorsIn fo S' d dc sc (receivedBytes data.length m.length tr) val)
    (hfw : ∀ a, Present S val a → ∃ b, Moved a b ∧ Present S' val b)
    (hbw : ∀ b, Present S' val b → ∃ a, Moved a b ∧ Present S val a)
    {r r' : List (String × Value)} (hr : decode fo m data dc sc tr ex = .ok r) (hr' : decode fo m' data dc sc tr ex = .ok r') :
    r'.Perm r := by
  obtain ⟨o1, -⟩ := ha.decode_ok (fo := fo) hb hpt had hsel
  obtain ⟨o1', -⟩ := ha'.decode_ok (fo := fo) hb' hpt' (hl.symm ▸ had) (hl.symm ▸ hsel')
  rw [hl] at o1'
  obtain ⟨n1, -, g1⟩ := o1 r hr
  obtain ⟨n2, -, g2⟩ := o1' r' hr'
  rw [List.perm_ext_iff_of_nodup (List.Nodup.of_map _ n2) (List.Nodup.of_map _ n1)]
  rintro ⟨n, v⟩
  have h1 := g1 n v
  have h2 := g2 n v
  constructor
  · intro hh
    refine dictGet?_mem (h1.2 ?_)
    obtain ⟨s, hs, k1, k2, k3⟩ := h2.1 (dictGet?_of_mem n2 hh)
    obtain ⟨q, hq, hpq⟩ := hbw s hs
    obtain ⟨x, y, rfl⟩ := hq.elim
    exact ⟨q, hpq, k1, k2, k3⟩
  · intro hh
    refine dictGet?_mem (h2.2 ?_)
    obtain ⟨s, hs, k1, k2, k3⟩ := h1.1 (dictGet?_of_mem n1 hh)
    obtain ⟨q, hq, hpq⟩ := hfw s hs
    obtain ⟨x, y, rfl⟩ := hq.elim
    exact ⟨_, hpq, k1, k2, k3⟩

section
variable {sel : Signal} {A B : List Signal} {ids : List Int} (h : OneMux sel A B ids)
include h

theorem OneMux.present_val {val val' : String → Option Int} (hv : val' sel.name = val sel.name) {s : Signal}
    (hs : Present (sel :: (A ++ B)) val s) : Present (sel :: (A ++ B)) val' s := by
  rw [h.present_iff] at hs ⊢
  rw [hv]
  exact hs

theorem OneMux.requested_sel (data : List (String × Value)) :
    requested (sel :: (A ++ B)) data sel.name = (dictGet? data sel.name).bind (selectorNumber sel) := by
  unfold requested
  rw [find?_name h.names (by simp)]
  cases dictGet? data sel.name <;> rfl

theorem OneMux.built_one (hb : ∀ s ∈ sel :: (A ++ B), Built s.conversion) (i : Int) :
    ∀ s ∈ sel :: (branchAt sel A B i ++ []), Built s.conversion := by
  intro s hs
  rw [List.append_nil] at hs
  rcases List.mem_cons.1 hs with rfl | hs
  · exact hb s (by simp)
  · obtain ⟨x, hx, rfl⟩ := mem_branchAt.1 hs
    exact hb x (by rcases hx with hx | hx <;> simp [hx])

theorem OneMux.plain_one (hb : ∀ s ∈ sel :: (A ++ B), s.conversion.isFloat = true → s.conversion.choices = none) (i : Int) :
    ∀ s ∈ sel :: (branchAt sel A B i ++ []), s.conversion.isFloat = true → s.conversion.choices = none := by
  intro s hs
  rw [List.append_nil] at hs
  rcases List.mem_cons.1 hs with rfl | hs
  · exact hb s (by simp)
  · obtain ⟨x, hx, rfl⟩ := mem_branchAt.1 hs
    exact hb x (by rcases hx with hx | hx <;> simp [hx])

/-- A message with one selector encodes a frame if the spread message does. -/
theorem OneMux.encode_iff {O : List Signal} (hb : ∀ s ∈ O, Built s.conversion) (hO : O.Perm (sel :: (A ++ B)))
    (hm : Message.create fid name len O pat ext true .default = .ok m)
    (hm' : Message.create fid name len (spreadSigs sel A B ids) pat' ext true .default = .ok m')
    {data : List (String × Value)} {scaling padding strict : Bool} {payload : Bytes} (hpat : padding = true → pat' = pat) :
    encode fo m' data scaling padding strict = .ok payload ↔ encode fo m data scaling padding strict = .ok payload := by
  have hndO : (O.map (·.name)).Nodup := (hO.map _).nodup_iff.2 h.names
  have hb0 : ∀ s ∈ sel :: (A ++ B), Built s.conversion := fun s hs => hb s (hO.mem_iff.2 hs)
  obtain ⟨m0, hm0⟩ : ∃ m0, Message.create fid name len (sel :: (A ++ B)) pat ext true .default = .ok m0 := by
    obtain ⟨h1, h2, h3⟩ := (C05_strict_check_iff hndO (default_perm _)).1.1 ⟨m, hm⟩
    exact (C05_strict_check_iff h.names (default_perm _)).1.2 ⟨h1, fun s hs => h2 s (hO.mem_iff.2 hs),
      validLayout_congr (fun s => hO.mem_iff) h3⟩
  rw [C39_encode_order_independent hndO hb hO.symm hm hm0 (fun _ => rfl), h.encode_spread hb0 hO hm hm']
  have key : ∀ i ∈ ids, requested (sel :: (branchAt sel A B i ++ [])) data sel.name = some i →
      (∀ a, Present (sel :: (A ++ B)) (requested (sel :: (A ++ B)) data) a →
        ∃ b, Moved a b ∧ Present (sel :: (branchAt sel A B i ++ [])) (requested (sel :: (branchAt sel A B i ++ [])) data) b) ∧
      (∀ b, Present (sel :: (branchAt sel A B i ++ [])) (requested (sel :: (branchAt sel A B i ++ [])) data) b →
        ∃ a, Moved a b ∧ Present (sel :: (A ++ B)) (requested (sel :: (A ++ B)) data) a) := by
    intro i hi hv
    have e : requested (sel :: (A ++ B)) data sel.name = requested (sel :: (branchAt sel A B i ++ [])) data sel.name := by
      rw [h.requested_sel, (h.one hi).requested_sel]
    refine ⟨fun a ha => ?_, fun b hb => ?_⟩
    · obtain ⟨b, h1, h2⟩ := h.moved_to hi (e.trans hv) ha
      exact ⟨b, h1, (h.one hi).present_val e.symm h2⟩
    · obtain ⟨a, h1, h2⟩ := h.moved_from hi hv hb
      exact ⟨a, h1, h.present_val e h2⟩
  constructor
  · rintro ⟨i, hi, mi, hmi, he⟩
    have hsel : Selectable (sel :: (branchAt sel A B i ++ [])) (requested (sel :: (branchAt sel A B i ++ [])) data) := by
      cases strict with
      | false => exact ((C10_encode_succeeds_iff (h.one hi).names (h.built_one hb0 i) hmi).1 ⟨_, he⟩).1
      | true => exact ((C10_strict_encode_succeeds_iff (h.one hi).names (h.built_one hb0 i) hmi).1 ⟨_, he⟩).1
    obtain ⟨j, hj, hv⟩ := (h.one hi).selectable_iff.1 hsel
    rw [List.mem_singleton] at hj
    subst hj
    obtain ⟨k1, k2⟩ := key j hi hv
    refine encode_moved (h.one hi).names (h.built_one hb0 j) h.names hb0 hmi hm0 (fun a ha => ?_) (fun b hb => ?_) ?_
      (fun hp => (hpat hp).symm) he
    · obtain ⟨x, h1, h2⟩ := k2 a ha
      exact ⟨x, h1.symm, h2⟩
    · obtain ⟨x, h1, h2⟩ := k1 b hb
      exact ⟨x, h1.symm, h2⟩
    · refine h.selectable_iff.2 ⟨j, hi, ?_⟩
      rw [h.requested_sel, ← (h.one hi).requested_sel]
      exact hv
  · intro he
    have hsel : Selectable (sel :: (A ++ B)) (requested (sel :: (A ++ B)) data) := by
      cases strict with
      | false => exact ((C10_encode_succeeds_iff h.names hb0 hm0).1 ⟨_, he⟩).1
      | true => exact ((C10_strict_encode_succeeds_iff h.names hb0 hm0).1 ⟨_, he⟩).1
    obtain ⟨i, hi, hv⟩ := h.selectable_iff.1 hsel
    have hv' : requested (sel :: (branchAt sel A B i ++ [])) data sel.name = some i := by
      rw [(h.one hi).requested_sel, ← h.requested_sel]; exact hv
    obtain ⟨mi, hmi⟩ := h.create_one hO hm hi pat'
    obtain ⟨k1, k2⟩ := key i hi hv'
    refine ⟨i, hi, mi, hmi, encode_moved h.names hb0 (h.one hi).names (h.built_one hb0 i) hm0 hmi k1 k2 ?_ hpat he⟩
    exact (h.one hi).selectable_iff.2 ⟨i, by simp, hv'⟩

/-- A message with one selector decodes a frame as the spread message does. -/
theorem OneMux.decode_same {O : List Signal} (hb : ∀ s ∈ O, Built s.conversion)
    (hpt : ∀ s ∈ O, s.conversion.isFloat = true → s.conversion.choices = none) (hO : O.Perm (sel :: (A ++ B)))
    (hm : Message.create fid name len O pat ext true .default = .ok m)
    (hm' : Message.create fid name len (spreadSigs sel A B ids) pat' ext true .default = .ok m')
    (data : Bytes) (dc sc ex : Bool) :
    (decode fo m data dc sc false ex = .error .decodeError ∧ decode fo m' data dc sc false ex = .error .decodeError) ∨
    ∃ r r', decode fo m data dc sc false ex = .ok r ∧ decode fo m' data dc sc false ex = .ok r' ∧ r'.Perm r := by
  have hndO : (O.map (·.name)).Nodup := (hO.map _).nodup_iff.2 h.names
  have hb0 : ∀ s ∈ sel :: (A ++ B), Built s.conversion := fun s hs => hb s (hO.mem_iff.2 hs)
  have hpt0 : ∀ s ∈ sel :: (A ++ B), s.conversion.isFloat = true → s.conversion.choices = none :=
    fun s hs => hpt s (hO.mem_iff.2 hs)
  obtain ⟨m0, hm0⟩ : ∃ m0, Message.create fid name len (sel :: (A ++ B)) pat ext true .default = .ok m0 := by
    obtain ⟨h1, h2, h3⟩ := (C05_strict_check_iff hndO (default_perm _)).1.1 ⟨m, hm⟩
    exact (C05_strict_check_iff h.names (default_perm _)).1.2 ⟨h1, fun s hs => h2 s (hO.mem_iff.2 hs),
      validLayout_congr (fun s => hO.mem_iff) h3⟩
  -- the order does not matter
  suffices hs : (decode fo m0 data dc sc false ex = .error .decodeError ∧ decode fo m' data dc sc false ex = .error .decodeError) ∨
      ∃ r r', decode fo m0 data dc sc false ex = .ok r ∧ decode fo m' data dc sc false ex = .ok r' ∧ r'.Perm r by
    rcases C39_decode_order_independent (fo := fo) hndO hb hpt hO.symm hm hm0 data dc sc false ex with ⟨h1, h2⟩ | ⟨r, r0, h1, h2, h3⟩
    · rcases hs with ⟨h3, h4⟩ | ⟨r, r', h3, -⟩
      · exact .inl ⟨h1, h4⟩
      · rw [h2] at h3; cases h3
    · rcases hs with ⟨h4, -⟩ | ⟨r0', r', h4, h5, h6⟩
      · rw [h2] at h4; cases h4
      · rw [h2] at h4
        cases h4
        exact .inr ⟨r, r', h1, h5, h6.trans h3⟩
  obtain ⟨ha0, hl0, -⟩ := accepted_of_create h.names hm0
  -- the spread message
  have hone : ∀ i ∈ ids, ∀ mi, Message.create fid name len (sel :: (branchAt sel A B i ++ [])) pat' ext true .default = .ok mi →
      mi = { frameId := fid, name, length := len, signals := sortSignalsByStartBit (sel :: (branchAt sel A B i ++ [])),
             unusedBitPattern := pat', isExtendedFrame := ext, codec := spreadCodec sel A B [i] } := by
    intro i hi mi hmi
    obtain ⟨-, -, c, hc, -, rfl⟩ := create_ok_iff.1 hmi
    rw [show SortSignals.default.apply (sel :: (branchAt sel A B i ++ [])) =
      sortSignalsByStartBit (sel :: (branchAt sel A B i ++ [])) from rfl] at hc ⊢
    rw [h.codec_one hi] at hc
    cases hc
    rfl
  have hspread : decode fo m' data dc sc false ex = decodeNode fo (sortSignalsByStartBit (spreadSigs sel A B ids)) len data dc sc
      false ex (spreadCodec sel A B (childrenIds (sortSignalsByStartBit (spreadSigs sel A B ids)) sel)) := by
    obtain ⟨-, -, c, hc, -, rfl⟩ := create_ok_iff.1 hm'
    rw [show SortSignals.default.apply (spreadSigs sel A B ids) = sortSignalsByStartBit (spreadSigs sel A B ids) from rfl] at hc ⊢
    rw [h.spread_codec] at hc
    cases hc
    rfl
  have hne : childrenIds (sortSignalsByStartBit (spreadSigs sel A B ids)) sel ≠ [] := by
    obtain ⟨j, hj⟩ := List.exists_mem_of_ne_nil _ h.ne
    exact List.ne_nil_of_mem (h.spread_ids.2 hj)
  obtain ⟨d1, d2⟩ := decode_spreadCodec (fo := fo) (A := A) (B := B) (sel := sel) (len := len) (bytes := data) (dc := dc) (sc := sc) (ex := ex)
    (sigs := sortSignalsByStartBit (spreadSigs sel A B ids)) (sigs' := sortSignalsByStartBit (spreadSigs sel A B ids))
    (fun _ => rfl) hne
  have hbranch := fun i (hi : i ∈ ids) => decode_spreadCodec (fo := fo) (A := A) (B := B) (sel := sel) (len := len) (bytes := data)
    (dc := dc) (sc := sc) (ex := ex)
    (sigs := sortSignalsByStartBit (spreadSigs sel A B ids)) (sigs' := sortSignalsByStartBit (sel :: (branchAt sel A B i ++ [])))
    (l := [i]) (h.muxNumber hi) (by simp)
  have hcodec : ∀ r, decode fo m' data dc sc false ex = .ok r ↔ ∃ i ∈ ids, ∃ mi,
      Message.create fid name len (sel :: (branchAt sel A B i ++ [])) pat' ext true .default = .ok mi ∧
        decode fo mi data dc sc false ex = .ok r := by
    intro r
    rw [hspread, d1]
    constructor
    · rintro ⟨i, hi, hr⟩
      have hi := h.spread_ids.1 hi
      obtain ⟨mi, hmi⟩ := h.create_one hO hm hi pat'
      refine ⟨i, hi, mi, hmi, ?_⟩
      obtain ⟨j, hj, hr⟩ := ((hbranch i hi).1 r).1 hr
      rw [List.mem_singleton] at hj
      subst hj
      rw [hone j hi mi hmi]
      exact hr
    · rintro ⟨i, hi, mi, hmi, hr⟩
      refine ⟨i, h.spread_ids.2 hi, ((hbranch i hi).1 r).2 ⟨i, by simp, ?_⟩⟩
      rw [hone i hi mi hmi] at hr
      exact hr
  have herror : ∀ e, decode fo m' data dc sc false ex = .error e → e = .decodeError := by
    intro e he
    rw [hspread] at he
    rcases d2 e he with h1 | ⟨i, hi, h1⟩
    · exact h1
    · have hi := h.spread_ids.1 hi
      obtain ⟨mi, hmi⟩ := h.create_one hO hm hi pat'
      rcases (hbranch i hi).2 e h1 with h2 | ⟨j, hj, h2⟩
      · exact h2
      · rw [List.mem_singleton] at hj
        subst hj
        obtain ⟨ha, -, -⟩ := accepted_of_create (h.one hi).names hmi
        refine ha.decode_error (fo := fo) (h.built_one hb0 j) (h.plain_one hpt0 j) (data := data) (dc := dc) (sc := sc)
          (tr := false) (ex := ex) ?_
        rw [hone j hi mi hmi]
        exact h2
  cases had : adjustData data len false ex with
  | error e =>
    have he := adjustData_error had
    subst he
    refine .inl ⟨decodeNode_wrong_size (hl0.symm ▸ had), ?_⟩
    rw [hspread]
    exact decodeNode_wrong_size had
  | ok d =>
    have hpos : ∀ s ∈ sel :: (A ++ B), 0 < s.length := fun s hs => ha0.pos s ((ha0.mem s).2 hs)
    obtain ⟨val, hval⟩ := selectorsIn_exists (fo := fo) h.names hpos d dc sc (receivedBytes data.length len false)
    -- the selector is there
    have hk : ∃ k, val sel.name = some k := by
      have hfit : Fits (receivedBytes data.length len false) sel := by
        have := ha0.valid.1 sel ⟨val, .root _ ((ha0.mem _).2 (by simp)) h.root⟩
        rw [hl0] at this
        simpa [receivedBytes] using this
      obtain ⟨r, -, h2⟩ := (hval sel (by simp)).1 hfit
      have h3 : shown sel dc sc r = .num (if sc then r * sel.conversion.scale + sel.conversion.offset else r) := by
        unfold shown table
        rw [h.choices]
        have : (if dc = true ∧ r.den = 1 then dictGet? ((none : Option (List (Int × Choice))).getD []) r.num else none) = none := by
          split <;> rfl
        rw [this]
      rw [h3] at h2
      exact ⟨_, h2⟩
    obtain ⟨k, hk⟩ := hk
    have hval' : ∀ i, SelectorsIn fo (sel :: (branchAt sel A B i ++ [])) d dc sc (receivedBytes data.length len false) val := by
      intro i s hs
      rw [List.append_nil] at hs
      rcases List.mem_cons.1 hs with rfl | hs
      · exact hval s (by simp)
      · obtain ⟨x, hx, rfl⟩ := mem_branchAt.1 hs
        have := hval x (by rcases hx with hx | hx <;> simp [hx])
        refine ⟨fun hf => ?_, this.2⟩
        obtain ⟨r, g1, g2⟩ := this.1 hf
        refine ⟨r, g1, g2.trans ?_⟩
        show selectorNumber x (shown x dc sc r) = selectorNumber _ (shown x dc sc r)
        cases shown x dc sc r <;> rfl
    obtain ⟨o1, o2⟩ := ha0.decode_ok (fo := fo) hb0 hpt0 (hl0.symm ▸ had) (hl0.symm ▸ hval)
    have hmux : ∀ {A B : List Signal} {ids : List Int}, OneMux sel A B ids → ∀ p, Present (sel :: (A ++ B)) val p →
        p.isMultiplexer = true → p = sel := by
      intro A B ids h p hp hpm
      rcases List.mem_cons.1 hp.mem with e | e
      · exact e
      · rw [h.unmux e] at hpm; cases hpm
    by_cases hki : k ∈ ids
    · right
      obtain ⟨r, hr⟩ := o2 (fun p hp hpm _ i hi => by
        have := hmux h p hp hpm
        subst this
        rw [hk] at hi
        cases hi
        exact h.hasBranch_iff.2 hki)
      obtain ⟨mk, hmk⟩ := h.create_one hO hm hki pat'
      obtain ⟨hak, hlk, -⟩ := accepted_of_create (h.one hki).names hmk
      obtain ⟨-, q2⟩ := hak.decode_ok (fo := fo) (h.built_one hb0 k) (h.plain_one hpt0 k) (hlk.symm ▸ had) (hlk.symm ▸ hval' k)
      obtain ⟨r', hr'⟩ := q2 (fun p hp hpm _ i hi => by
        have := hmux (h.one hki) p hp hpm
        subst this
        rw [hk] at hi
        cases hi
        exact (h.one hki).hasBranch_iff.2 (by simp))
      refine ⟨r, r', hr, (hcodec r').2 ⟨k, hki, mk, hmk, hr'⟩, ?_⟩
      exact decode_moved hb0 hpt0 (h.built_one hb0 k) (h.plain_one hpt0 k) ha0 hak (hlk.trans hl0.symm) (hl0.symm ▸ had)
        (hl0.symm ▸ hval) (hl0.symm ▸ hval' k) (fun a ha => h.moved_to hki hk ha) (fun b hb => h.moved_from hki hk hb) hr hr'
    · left
      constructor
      · cases hr : decode fo m0 data dc sc false ex with
        | error e => rw [ha0.decode_error hb0 hpt0 hr]
        | ok r =>
          exact absurd (h.hasBranch_iff.1 ((o1 r hr).2.1 sel (h.present_iff.2 (.inl rfl)) h.mux
            (by obtain ⟨j, hj⟩ := List.exists_mem_of_ne_nil _ h.ne; exact ⟨j, h.hasBranch_iff.2 hj⟩) k hk)) hki
      · cases hr : decode fo m' data dc sc false ex with
        | error e => rw [herror e hr]
        | ok r =>
          obtain ⟨i, hi, mi, hmi, hri⟩ := (hcodec r).1 hr
          obtain ⟨hai, hli, -⟩ := accepted_of_create (h.one hi).names hmi
          obtain ⟨q1, -⟩ := hai.decode_ok (fo := fo) (h.built_one hb0 i) (h.plain_one hpt0 i) (hli.symm ▸ had) (hli.symm ▸ hval' i)
          have := (h.one hi).hasBranch_iff.1 ((q1 r hri).2.1 sel ((h.one hi).present_iff.2 (.inl rfl)) h.mux
            ⟨i, (h.one hi).hasBranch_iff.2 (by simp)⟩ k hk)
          rw [List.mem_singleton] at this
          exact absurd (this ▸ hi) hki

end

end Cantools
