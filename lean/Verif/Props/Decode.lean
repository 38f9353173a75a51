import Verif.Props.Encode
import Verif.Lemmas.RoundTrip

/-
Properties of decoding: C03, C04, C06 (second half), C11, C12.

As in `Encode.lean`; in addition float signals have no value tables (for those the code names
values by their truncation, see `C15`).
-/

namespace Cantools
open Spec

section
variable {fo : FloatOps} {fid : Int} {name : String} {len : Nat} {sigs : List Signal} {pat : UInt8}
  {ext : Bool} {m : Message}

/-- C04 and C06: decoding a payload of the right size.  The result has exactly the signals whose
selectors have the right values in the payload, each with the value shown for the number written in
its bits.  It fails, with `DecodeError`, exactly if a selector that is there has a value without
branch. -/
theorem C04_decode_reads_bits (hnd : (sigs.map (·.name)).Nodup)
    (hb : ∀ s ∈ sigs, Built s.conversion)
    (hpt : ∀ s ∈ sigs, s.conversion.isFloat = true → s.conversion.choices = none)
    (hm : Message.create fid name len sigs pat ext true .default = .ok m)
    {data : Bytes} (hlen : data.length = len) {decodeChoices scaling truncated excess : Bool} :
    ∃ sel, SelectorsIn fo sigs data decodeChoices scaling len sel ∧
      ((∃ r, decode fo m data decodeChoices scaling truncated excess = .ok r ∧
          Selectable sigs sel ∧ (r.map (·.1)).Nodup ∧
          ∀ n v, dictGet? r n = some v ↔ ∃ s, Present sigs sel s ∧ s.name = n ∧
            ∃ raw, RawIn fo s data raw ∧ v = shown s decodeChoices scaling raw) ∨
        (decode fo m data decodeChoices scaling truncated excess = .error .decodeError ∧
          ¬ Selectable sigs sel)) := by
  obtain ⟨ha, hl, _⟩ := accepted_of_create hnd hm
  have hpos : ∀ s ∈ sigs, 0 < s.length := fun s hs => ha.pos s ((ha.mem s).2 hs)
  obtain ⟨sel, hsel⟩ := selectorsIn_exists (fo := fo) hnd hpos data decodeChoices scaling len
  have had := (adjustData_spec data m.length truncated excess).1 (hlen.trans hl.symm)
  have hrec : receivedBytes data.length m.length truncated = len := by
    unfold receivedBytes; rw [if_neg] <;> omega
  obtain ⟨d1, d2⟩ := ha.decode_ok (fo := fo) hb hpt had (by rw [hrec]; exact hsel)
  have hfit : ∀ s, Present sigs sel s → Fits len s := fun s hs =>
    hl ▸ (validLayout_congr ha.mem ha.valid).1 s ⟨_, hs⟩
  -- a present selector fits, so it has a number
  have hnum : ∀ p, Present sigs sel p → ∃ r, RawIn fo p data r ∧
      sel p.name = selectorNumber p (shown p decodeChoices scaling r) :=
    fun p hp => (hsel p (Present.mem hp)).1 (hfit p hp)
  refine ⟨sel, hsel, ?_⟩
  cases hd : decode fo m data decodeChoices scaling truncated excess with
  | ok r =>
    obtain ⟨k1, k2, k3⟩ := d1 r hd
    refine .inl ⟨r, rfl, ?_, k1, ?_⟩
    · intro p hp hmx hbr
      obtain ⟨raw, h1, h2⟩ := hnum p hp
      obtain ⟨i, hi⟩ := Option.isSome_iff_exists.1
        (shown_selector_isSome (s := p) (dc := decodeChoices) (sc := scaling) (r := raw))
      exact ⟨i, h2.trans hi, k2 p hp hmx hbr i (h2.trans hi)⟩
    · intro n v
      rw [k3, hrec]
      constructor
      · rintro ⟨s, h1, h2, _, h3⟩; exact ⟨s, h1, h2, h3⟩
      · rintro ⟨s, h1, h2, h3⟩; exact ⟨s, h1, h2, hfit s h1, h3⟩
  | error e =>
    have := ha.decode_error hb hpt hd
    subst this
    refine .inr ⟨rfl, fun hs => ?_⟩
    obtain ⟨r, hr⟩ := d2 (fun p hp hmx hbr i hi => by
      obtain ⟨j, hj, hjb⟩ := hs p hp hmx hbr
      rw [hj] at hi; cases hi; exact hjb)
    rw [hd] at hr; cases hr

/-- The selector values of C04 are unique as far as they matter: they are the numbers in the bits of
the selector signals. -/
theorem C04_selectors_unique {data : Bytes} {decodeChoices scaling : Bool} {n : Nat}
    {sel sel' : String → Option Int} (hpos : ∀ s ∈ sigs, 0 < s.length)
    (h : SelectorsIn fo sigs data decodeChoices scaling n sel)
    (h' : SelectorsIn fo sigs data decodeChoices scaling n sel') {s : Signal} (hs : s ∈ sigs) :
    sel s.name = sel' s.name := by
  by_cases hf : Fits n s
  · obtain ⟨r, h1, h2⟩ := (h s hs).1 hf
    obtain ⟨r', h1', h2'⟩ := (h' s hs).1 hf
    rw [h2, h2', rawIn_unique (hpos s hs) h1 h1']
  · rw [(h s hs).2 hf, (h' s hs).2 hf]

/-- C04: the number read from a signal depends only on the signal's bits. -/
theorem C04_raw_unique {s : Signal} (hl : 0 < s.length) {d d' : Bytes} {r r' : Rat}
    (hbits : ∀ p, Occupies s p → payloadBit d p = payloadBit d' p)
    (h : RawIn fo s d r) (h' : RawIn fo s d' r') : r = r' :=
  rawIn_unique hl (rawIn_congr hbits h) h'

/-- C04: two payloads that agree on the bits of a signal and of the selectors above it give the same
result for the signal, whatever their other bits are. -/
theorem C04_decode_depends_on_own_bits (hnd : (sigs.map (·.name)).Nodup)
    (hb : ∀ s ∈ sigs, Built s.conversion)
    (hpt : ∀ s ∈ sigs, s.conversion.isFloat = true → s.conversion.choices = none)
    (hm : Message.create fid name len sigs pat ext true .default = .ok m)
    {d d' : Bytes} (hlen : d.length = len) (hlen' : d'.length = len)
    {decodeChoices scaling truncated excess : Bool} {r r' : List (String × Value)}
    (hr : decode fo m d decodeChoices scaling truncated excess = .ok r)
    (hr' : decode fo m d' decodeChoices scaling truncated excess = .ok r')
    {s : Signal} (hs : s ∈ sigs)
    (hown : ∀ p, Occupies s p → payloadBit d p = payloadBit d' p)
    (habove : ∀ q, Above sigs q s → ∀ p, Occupies q p → payloadBit d p = payloadBit d' p) :
    dictGet? r s.name = dictGet? r' s.name := by
  obtain ⟨ha, hl, _⟩ := accepted_of_create hnd hm
  have hpos : ∀ s ∈ sigs, 0 < s.length := fun s hs => ha.pos s ((ha.mem s).2 hs)
  obtain ⟨sel, hsel, hcase⟩ := C04_decode_reads_bits (fo := fo) hnd hb hpt hm hlen
    (decodeChoices := decodeChoices) (scaling := scaling) (truncated := truncated)
    (excess := excess)
  obtain ⟨sel', hsel', hcase'⟩ := C04_decode_reads_bits (fo := fo) hnd hb hpt hm hlen'
    (decodeChoices := decodeChoices) (scaling := scaling) (truncated := truncated)
    (excess := excess)
  rw [hr] at hcase; rw [hr'] at hcase'
  rcases hcase with ⟨_, h0, _, _, hg⟩ | ⟨h0, _⟩
  swap; · cases h0
  cases h0
  rcases hcase' with ⟨_, h0, _, _, hg'⟩ | ⟨h0, _⟩
  swap; · cases h0
  cases h0
  -- one direction, for any two such payloads
  have half : ∀ (s : Signal) (d d' : Bytes) (r r' : List (String × Value))
      (sel sel' : String → Option Int), s ∈ sigs →
      SelectorsIn fo sigs d decodeChoices scaling len sel →
      SelectorsIn fo sigs d' decodeChoices scaling len sel' →
      (∀ n v, dictGet? r n = some v ↔ ∃ s, Present sigs sel s ∧ s.name = n ∧
            ∃ raw, RawIn fo s d raw ∧ v = shown s decodeChoices scaling raw) →
      (∀ n v, dictGet? r' n = some v ↔ ∃ s, Present sigs sel' s ∧ s.name = n ∧
            ∃ raw, RawIn fo s d' raw ∧ v = shown s decodeChoices scaling raw) →
      (∀ p, Occupies s p → payloadBit d p = payloadBit d' p) →
      (∀ q, Above sigs q s → ∀ p, Occupies q p → payloadBit d p = payloadBit d' p) →
      ∀ v, dictGet? r s.name = some v → dictGet? r' s.name = some v := by
    intro s d d' r r' sel sel' hs hsel hsel' hg hg' hown habove v hv
    obtain ⟨s', hp, hn, raw, hraw, hvs⟩ := (hg s.name v).1 hv
    have hss : s' = s := List.inj_on_of_nodup_map hnd (Present.mem hp) hs hn
    subst hss
    refine (hg' s'.name v).2 ⟨s', ?_, rfl, raw, rawIn_congr hown hraw, hvs⟩
    -- presence carries over
    clear hv hvs hraw hown hs hn
    induction hp with
    | root s hs hp => exact .root s hs hp
    | child s p i ids hs hp hmx hpar hseli hids hi ih =>
      have hpm := Present.mem hpar
      refine .child s p i ids hs hp hmx (ih ?_) ?_ hids hi
      · intro q hq; exact habove q (.step p s hpm hp hq)
      · have hbits := habove p (.direct s hpm hp)
        by_cases hf : Fits len p
        · obtain ⟨x, h1, h2⟩ := (hsel p hpm).1 hf
          obtain ⟨x', h1', h2'⟩ := (hsel' p hpm).1 hf
          rw [h2', ← C04_raw_unique (hpos p hpm) hbits h1 h1', ← h2]; exact hseli
        · rw [(hsel p hpm).2 hf] at hseli; cases hseli
  have one := half s d d' r r' sel sel' hs hsel hsel' hg hg' hown habove
  have two := half s d' d r' r sel' sel hs hsel' hsel hg' hg (fun p h => (hown p h).symm)
    (fun q hq p h => (habove q hq p h).symm)
  cases h1 : dictGet? r s.name with
  | some v => rw [one v h1]
  | none =>
    cases h2 : dictGet? r' s.name with
    | none => rfl
    | some v => rw [two v h2] at h1; cases h1

/-- C03: decoding an encoded payload returns exactly the selected signals, each as the value shown
for the raw number that was encoded.  The hypothesis on selectors says that what is shown for a
written selector value stands for the same branch number as the value the user gave; see
`C03_round_trip` and `C03_raw_round_trip` for conditions under which it holds and
`C03_selector_between_integers` for a case in which it does not. -/
theorem C03_round_trip_general (hnd : (sigs.map (·.name)).Nodup)
    (hb : ∀ s ∈ sigs, Built s.conversion)
    (hpt : ∀ s ∈ sigs, s.conversion.isFloat = true → s.conversion.choices = none)
    (hm : Message.create fid name len sigs pat ext true .default = .ok m)
    {data : List (String × Value)} {scaling padding strict : Bool} {payload : Bytes}
    (he : encode fo m data scaling padding strict = .ok payload)
    {decodeChoices scaling' truncated excess : Bool}
    (hsel : ∀ p v raw raw', Present sigs (requested sigs data) p → p.isMultiplexer = true →
      dictGet? data p.name = some v → RawOf p scaling v raw → Stored fo p raw raw' →
      selectorNumber p (shown p decodeChoices scaling' raw') = selectorNumber p v) :
    ∃ r, decode fo m payload decodeChoices scaling' truncated excess = .ok r ∧
      (r.map (·.1)).Nodup ∧
      ∀ n v', dictGet? r n = some v' ↔ ∃ s v raw raw', Present sigs (requested sigs data) s ∧
        s.name = n ∧ dictGet? data n = some v ∧ RawOf s scaling v raw ∧ Stored fo s raw raw' ∧
        v' = shown s decodeChoices scaling' raw' :=
  (accepted_of_create hnd hm).1.round_trip hnd hb hpt (encode_encodeRaw.1 he).2 hsel

/-- C03 for messages whose selectors are unscaled integers with distinct names, given integer values
or names: for all options of encoding and decoding. -/
theorem C03_round_trip (hnd : (sigs.map (·.name)).Nodup)
    (hb : ∀ s ∈ sigs, Built s.conversion)
    (hpt : ∀ s ∈ sigs, s.conversion.isFloat = true → s.conversion.choices = none)
    (hm : Message.create fid name len sigs pat ext true .default = .ok m)
    (hmux : ∀ p ∈ sigs, p.isMultiplexer = true → p.conversion.isFloat = false ∧
      p.conversion.scale = 1 ∧ p.conversion.offset = 0 ∧ ((table p).map (·.2.toStr)).Nodup)
    {data : List (String × Value)}
    (hint : ∀ p ∈ sigs, p.isMultiplexer = true → ∀ q, dictGet? data p.name = some (.num q) →
      q.den = 1)
    {scaling padding strict : Bool} {payload : Bytes}
    (he : encode fo m data scaling padding strict = .ok payload)
    {decodeChoices scaling' truncated excess : Bool} :
    ∃ r, decode fo m payload decodeChoices scaling' truncated excess = .ok r ∧
      (r.map (·.1)).Nodup ∧
      ∀ n v', dictGet? r n = some v' ↔ ∃ s v raw raw', Present sigs (requested sigs data) s ∧
        s.name = n ∧ dictGet? data n = some v ∧ RawOf s scaling v raw ∧ Stored fo s raw raw' ∧
        v' = shown s decodeChoices scaling' raw' := by
  refine C03_round_trip_general hnd hb hpt hm he fun p v raw raw' hp hmx hv hr hst => ?_
  obtain ⟨hf, hs, ho, hn⟩ := hmux p (Present.mem hp) hmx
  obtain ⟨i, rfl, hi⟩ := selector_raw hf hs ho hn
    (fun q hq => hint p (Present.mem hp) hmx q (hq ▸ hv)) hr
  unfold Stored at hst
  rw [hf] at hst
  simp only [Bool.false_eq_true, if_false] at hst
  rw [hst, hi]
  exact selector_shown hs ho hn _ _ i

/-- C03 for raw values: for a message without float signals, decoding with `scaling=False` returns
exactly the integers that were encoded with `scaling=False`, whatever the selectors look like. -/
theorem C03_raw_round_trip (hnd : (sigs.map (·.name)).Nodup)
    (hb : ∀ s ∈ sigs, Built s.conversion) (hfl : ∀ s ∈ sigs, s.conversion.isFloat = false)
    (hm : Message.create fid name len sigs pat ext true .default = .ok m)
    {data : List (String × Value)}
    (hint : ∀ n v, dictGet? data n = some v → ∃ i : Int, v = .num i)
    {padding strict : Bool} {payload : Bytes}
    (he : encode fo m data false padding strict = .ok payload) {truncated excess : Bool} :
    ∃ r, decode fo m payload false false truncated excess = .ok r ∧ (r.map (·.1)).Nodup ∧
      ∀ n v, dictGet? r n = some v ↔ dictGet? data n = some v ∧
        ∃ s, Present sigs (requested sigs data) s ∧ s.name = n := by
  have hshown : ∀ (s : Signal) (r : Rat), shown s false false r = .num r := by
    intro s r; unfold shown; simp
  have hraw : ∀ (s : Signal) (i : Int) (r r' : Rat), s ∈ sigs → RawOf s false (.num i) r →
      Stored fo s r r' → r' = i := by
    intro s i r r' hs hr hst
    obtain ⟨_, x, hx, h⟩ := hr
    rw [hfl s hs] at h
    obtain ⟨j, hj, hne⟩ := h
    simp only [Bool.false_eq_true, if_false] at hx
    rw [hx] at hne
    have := pyRound_iff.2 hne
    rw [pyRound_int] at this
    unfold Stored at hst
    rw [hfl s hs] at hst
    simp only [Bool.false_eq_true, if_false] at hst
    rw [hst, hj, this]
  obtain ⟨r, h1, h2, h3⟩ := C03_round_trip_general hnd hb
    (fun s hs h => by rw [hfl s hs] at h; cases h) hm he (decodeChoices := false)
    (scaling' := false) (truncated := truncated) (excess := excess) (by
      intro p v raw raw' hp hmx hv hr hst
      obtain ⟨i, rfl⟩ := hint _ _ hv
      rw [hshown, hraw p i raw raw' (Present.mem hp) hr hst])
  refine ⟨r, h1, h2, fun n v' => ?_⟩
  rw [h3]
  constructor
  · rintro ⟨s, v, raw, raw', hp, hn, hv, hr, hst, rfl⟩
    obtain ⟨i, rfl⟩ := hint _ _ hv
    rw [hshown, hraw s i raw raw' (Present.mem hp) hr hst]
    exact ⟨hv, s, hp, hn⟩
  · rintro ⟨hv, s, hp, rfl⟩
    obtain ⟨i, rfl⟩ := hint _ _ hv
    have hs := Present.mem hp
    have hr : RawOf s false (.num i) i := by
      refine ⟨fun h => (by cases h), i, rfl, ?_⟩
      rw [hfl s hs]
      exact ⟨i, rfl, pyRound_iff.1 (pyRound_int i)⟩
    refine ⟨s, .num i, i, i, hp, rfl, hv, hr, ?_, (hshown _ _).symm⟩
    unfold Stored; rw [hfl s hs]; rfl

/-- C11: a frame shorter than the message, decoded with `allow_truncated`.  For every completion of
the frame: the result has exactly the signals that are selected by the received selectors and all of
whose bits were received, with the values they have in the completion. -/
theorem C11_truncated (hnd : (sigs.map (·.name)).Nodup) (hb : ∀ s ∈ sigs, Built s.conversion)
    (hpt : ∀ s ∈ sigs, s.conversion.isFloat = true → s.conversion.choices = none)
    (hm : Message.create fid name len sigs pat ext true .default = .ok m)
    {data full : Bytes} (hlen : data.length ≤ len) (hfull : full.length = len)
    (hpre : data <+: full) {decodeChoices scaling excess : Bool} {sel : String → Option Int}
    (hsel : SelectorsIn fo sigs full decodeChoices scaling data.length sel) :
    (∀ e, decode fo m data decodeChoices scaling true excess = .error e →
      e = .decodeError ∧ ∃ p i, Present sigs sel p ∧ p.isMultiplexer = true ∧
        sel p.name = some i ∧ ¬ HasBranch sigs p i) ∧
    (∀ r, decode fo m data decodeChoices scaling true excess = .ok r →
      (r.map (·.1)).Nodup ∧
      ∀ n v, dictGet? r n = some v ↔ ∃ s, Present sigs sel s ∧ s.name = n ∧
        Fits data.length s ∧ ∃ raw, RawIn fo s full raw ∧ v = shown s decodeChoices scaling raw) := by
  obtain ⟨ha, hl, _⟩ := accepted_of_create hnd hm
  obtain ⟨tail, htail⟩ := hpre
  -- the data the code works on agrees with the completion on all received bits
  have had : ∃ d, adjustData data m.length true excess = .ok d ∧
      ∀ p, p < 8 * data.length → payloadBit d p = payloadBit full p := by
    obtain ⟨a1, a2, _⟩ := adjustData_spec data m.length true excess
    rcases Nat.lt_or_eq_of_le (hl ▸ hlen) with h | h
    · refine ⟨_, (a2 h).trans (if_pos rfl), fun p hp => ?_⟩
      rw [payloadBit_append hp, ← htail, payloadBit_append hp]
    · refine ⟨data, a1 h, fun p hp => ?_⟩
      rw [← htail, payloadBit_append hp]
  obtain ⟨d, had, hbits⟩ := had
  have hrec : receivedBytes data.length m.length true = data.length := by
    unfold receivedBytes; rw [hl]
    by_cases h : data.length < len
    · rw [if_pos ⟨h, rfl⟩]
    · rw [if_neg (fun h' => h h'.1)]; omega
  have hocc : ∀ s, Fits data.length s → ∀ p, Occupies s p → payloadBit d p = payloadBit full p :=
    fun s hf p hp => hbits p (hf p hp)
  have hsel' : SelectorsIn fo sigs d decodeChoices scaling
      (receivedBytes data.length m.length true) sel := by
    rw [hrec]
    intro s hs
    refine ⟨fun hf => ?_, (hsel s hs).2⟩
    obtain ⟨r, h1, h2⟩ := (hsel s hs).1 hf
    exact ⟨r, rawIn_congr (fun p hp => (hocc s hf p hp).symm) h1, h2⟩
  obtain ⟨d1, d2⟩ := ha.decode_ok (fo := fo) hb hpt had hsel'
  constructor
  · intro e he
    refine ⟨ha.decode_error hb hpt he, ?_⟩
    by_contra hcon
    obtain ⟨r, hr⟩ := d2 (fun p hp hmx _ i hi => by
      by_contra hno; exact hcon ⟨p, i, hp, hmx, hi, hno⟩)
    rw [he] at hr; cases hr
  · intro r hr
    obtain ⟨k1, _, k3⟩ := d1 r hr
    refine ⟨k1, fun n v => ?_⟩
    rw [k3, hrec]
    constructor
    · rintro ⟨s, h1, h2, hf, raw, h3, h4⟩
      exact ⟨s, h1, h2, hf, raw, rawIn_congr (hocc s hf) h3, h4⟩
    · rintro ⟨s, h1, h2, hf, raw, h3, h4⟩
      exact ⟨s, h1, h2, hf, raw, rawIn_congr (fun p hp => (hocc s hf p hp).symm) h3, h4⟩

/-- C11: every value reported for a truncated frame is also reported for each completion of it. -/
theorem C11_truncated_agrees (hnd : (sigs.map (·.name)).Nodup)
    (hb : ∀ s ∈ sigs, Built s.conversion)
    (hpt : ∀ s ∈ sigs, s.conversion.isFloat = true → s.conversion.choices = none)
    (hm : Message.create fid name len sigs pat ext true .default = .ok m)
    {data full : Bytes} (hlen : data.length ≤ len) (hfull : full.length = len)
    (hpre : data <+: full) {decodeChoices scaling excess truncated' excess' : Bool}
    {r r' : List (String × Value)}
    (hr : decode fo m data decodeChoices scaling true excess = .ok r)
    (hr' : decode fo m full decodeChoices scaling truncated' excess' = .ok r')
    {n : String} {v : Value} (hv : dictGet? r n = some v) : dictGet? r' n = some v := by
  obtain ⟨ha, hl, _⟩ := accepted_of_create hnd hm
  have hpos : ∀ s ∈ sigs, 0 < s.length := fun s hs => ha.pos s ((ha.mem s).2 hs)
  obtain ⟨sel, hsel⟩ := selectorsIn_exists (fo := fo) hnd hpos full decodeChoices scaling data.length
  obtain ⟨sel', hsel', hcase⟩ := C04_decode_reads_bits (fo := fo) hnd hb hpt hm hfull
    (decodeChoices := decodeChoices) (scaling := scaling) (truncated := truncated')
    (excess := excess')
  rw [hr'] at hcase
  rcases hcase with ⟨_, h0, _, _, hg⟩ | ⟨h0, _⟩
  swap; · cases h0
  cases h0
  obtain ⟨s, hp, hn, hf, raw, h3, h4⟩ :=
    (((C11_truncated hnd hb hpt hm hlen hfull hpre hsel).2 r hr).2 n v).1 hv
  refine (hg n v).2 ⟨s, ?_, hn, raw, h3, h4⟩
  clear hv hn h4 h3 hf
  induction hp with
  | root s hs hp => exact .root s hs hp
  | child s p i ids hs hp hmx hpar hseli hids hi ih =>
    have hpm := Present.mem hpar
    refine .child s p i ids hs hp hmx ih ?_ hids hi
    by_cases hf : Fits data.length p
    · obtain ⟨x, h1, h2⟩ := (hsel p hpm).1 hf
      obtain ⟨x', h1', h2'⟩ := (hsel' p hpm).1 (fun q hq => by have := hf q hq; omega)
      rw [h2', rawIn_unique (hpos p hpm) h1' h1, ← h2]; exact hseli
    · rw [(hsel p hpm).2 hf] at hseli; cases hseli

/-- C12: a longer frame decoded with `allow_excess` gives what its first bytes give.  (For every
message object, also those accepted without the strict check.) -/
theorem C12_excess (m : Message) {data : Bytes} (h : m.length ≤ data.length)
    (decodeChoices scaling truncated excess' : Bool) :
    decode fo m data decodeChoices scaling truncated true =
      decode fo m (data.take m.length) decodeChoices scaling truncated excess' :=
  decodeNode_excess h m.codec

/-- C12: without the respective flag a frame of the wrong size raises `DecodeError`. -/
theorem C12_wrong_size (m : Message) (data : Bytes) (decodeChoices scaling flag : Bool) :
    (data.length < m.length →
      decode fo m data decodeChoices scaling false flag = .error .decodeError) ∧
    (m.length < data.length →
      decode fo m data decodeChoices scaling flag false = .error .decodeError) := by
  constructor
  · intro h
    exact decodeNode_wrong_size ((adjustData_spec data m.length false flag).2.1 h)
  · intro h
    exact decodeNode_wrong_size ((adjustData_spec data m.length flag false).2.2 h)

/-- C06, decoding: the only exception `decode` raises is `DecodeError`. -/
theorem C06_decode_error (hnd : (sigs.map (·.name)).Nodup)
    (hb : ∀ s ∈ sigs, Built s.conversion)
    (hpt : ∀ s ∈ sigs, s.conversion.isFloat = true → s.conversion.choices = none)
    (hm : Message.create fid name len sigs pat ext true .default = .ok m)
    {data : Bytes} {decodeChoices scaling truncated excess : Bool} {e : Err}
    (he : decode fo m data decodeChoices scaling truncated excess = .error e) : e = .decodeError :=
  (accepted_of_create hnd hm).1.decode_error hb hpt he

end

/-! ### The hypotheses can be met; claims that fail -/

section
open Example

example := C04_decode_reads_bits (fo := fo) nodup built plain msg_ok (data := [0x91, 0xa5, 0xaf, 0xc5])
  (by decide) (decodeChoices := true) (scaling := true) (truncated := false) (excess := false)
example : decode fo msg [0x91, 0xa5, 0xaf, 0xc5] true true false false =
    .ok [("Mux", .named { value := 1, name := "drive" }), ("P", .num 9), ("A", .num (-12))] := by
  decide +kernel
example : decode fo msg [0x95, 0xa5, 0xaf, 0xc5] true true false false = .error .decodeError := by
  decide +kernel

theorem mux_plain : ∀ p ∈ sigs, p.isMultiplexer = true → p.conversion.isFloat = false ∧
      p.conversion.scale = 1 ∧ p.conversion.offset = 0 ∧ ((table p).map (·.2.toStr)).Nodup := by
  decide +kernel

example := C03_round_trip nodup built plain msg_ok mux_plain (data := data)
  (by intro p hp _ q hq
      simp only [sigs, List.mem_cons, List.not_mem_nil, or_false] at hp
      rcases hp with rfl | rfl | rfl | rfl
      · cases hq
      · have : q = -12 := by
          have h2 : dictGet? data a.name = some (.num (-12)) := by decide +kernel
          rw [h2] at hq; cases hq; rfl
        rw [this]; rfl
      · have : q = 9 := by
          have h2 : dictGet? data p.name = some (.num 9) := by decide +kernel
          rw [h2] at hq; cases hq; rfl
        rw [this]; rfl
      · have h2 : dictGet? data mux.name = some (.str "drive") := by decide +kernel
        rw [h2] at hq; cases hq)
  encode_ok (decodeChoices := true) (scaling' := true) (truncated := false) (excess := false)

example : ∃ payload, encode fo msg [("Mux", .num 2), ("B", .num 4660), ("P", .num 3)] false false true =
    .ok payload ∧ decode fo msg payload false false false false =
      .ok [("Mux", .num 2), ("P", .num 3), ("B", .num 4660)] :=
  ⟨[0x32, 0xd0, 0x48, 0], by decide +kernel, by decide +kernel⟩

/-- Two bytes of four: `A` needs byte 3 and is left out. -/
example : decode fo msg [0x91, 0xa5] true true true false =
    .ok [("Mux", .named { value := 1, name := "drive" }), ("P", .num 9)] := by decide +kernel
example := C11_truncated_agrees (fo := fo) nodup built plain msg_ok (data := [0x91, 0xa5])
  (full := [0x91, 0xa5, 0xaf, 0xc5]) (by decide) rfl ⟨[0xaf, 0xc5], rfl⟩
  (decodeChoices := true) (scaling := true) (excess := false) (truncated' := false)
  (excess' := false) (by decide +kernel : _ = Except.ok
    [("Mux", .named { value := 1, name := "drive" }), ("P", .num 9)])
  (by decide +kernel : _ = Except.ok [("Mux", .named { value := 1, name := "drive" }), ("P", .num 9),
    ("A", .num (-12))]) (n := "P") (v := .num 9) (by decide +kernel)
example := C12_excess (fo := fo) msg (data := [0x91, 0xa5, 0xaf, 0xc5, 0x77]) (by decide +kernel) true
  true false false
example : decode fo msg [0x91, 0xa5, 0xaf, 0xc5, 0x77] true true false false = .error .decodeError :=
  (C12_wrong_size msg _ true true false).2 (by decide +kernel)

/-- The round trip fails for a selector value between two integers: 1.6 selects branch 1 but is
written as 2, so the frame is decoded along another branch. -/
theorem C03_selector_between_integers :
    ∃ data payload r, encode fo msg data true false true = .ok payload ∧
      (dictGet? data "A").isSome = true ∧ decode fo msg payload true true false false = .ok r ∧
      dictGet? r "A" = none ∧ (dictGet? r "B").isSome = true :=
  ⟨[("Mux", .num (8/5)), ("A", .num (-12)), ("P", .num 9)], [0x92, 0x00, 0x0f, 0xc4],
    [("Mux", .num 2), ("P", .num 9), ("B", .num 960)],
    by decide +kernel, by decide +kernel, by decide +kernel, by decide +kernel, by decide +kernel⟩

end

end Cantools
