import Verif.Lemmas.Assert

namespace Cantools
open Spec

/-- What a payload carries is what is read from it. -/
theorem carries_rawIn {fo : FloatOps} {s : Signal} {d : Bytes} {r : Rat} (h : Carries fo s d r) :
    ∃ r', Stored fo s r r' ∧ RawIn fo s d r' := by
  unfold Carries at h
  unfold Stored RawIn
  split at h
  · rename_i hf
    simp only [hf, if_true]
    obtain ⟨l, hl, hbits⟩ := h
    refine ⟨fo.unpack l, ⟨l, hl, rfl⟩, ?_⟩
    congr 1
    have hlen := fo.pack_length _ _ _ hl
    apply List.ext_getElem
    · simp [hlen]
    · intro k hk _
      simp only [List.getElem_map, List.getElem_range]
      have hk' : k < s.length := by omega
      rw [hbits _ (by omega)]
      have : s.length - 1 - (s.length - 1 - k) = k := by omega
      rw [this, List.getD_eq_getElem?_getD, List.getElem?_eq_getElem hk]; rfl
  · rename_i hf
    simp only [hf, Bool.false_eq_true, if_false]
    obtain ⟨i, hi, hr⟩ := h
    exact ⟨r, rfl, i, hi, hr⟩

/-- Two selections that agree on the present selectors make the same signals present. -/
theorem present_agree {sigs : List Signal} {sel sel' : String → Option Int}
    (h : ∀ p, Present sigs sel p → p.isMultiplexer = true → sel' p.name = sel p.name) (s : Signal) :
    Present sigs sel s ↔ Present sigs sel' s := by
  constructor
  · intro hs
    induction hs with
    | root s hs hp => exact .root s hs hp
    | child s p i ids hs hp hm hpar hsel hids hi ih =>
      exact .child s p i ids hs hp hm ih ((h p hpar hm).trans hsel) hids hi
  · intro hs
    induction hs with
    | root s hs hp => exact .root s hs hp
    | child s p i ids hs hp hm hpar hsel hids hi ih =>
      exact .child s p i ids hs hp hm ih ((h p ih hm).symm.trans hsel) hids hi

theorem requested_of_mem {sigs : List Signal} (hnd : (sigs.map (·.name)).Nodup) {s : Signal}
    (hs : s ∈ sigs) {data : List (String × Value)} {v : Value} (hv : dictGet? data s.name = some v) :
    requested sigs data s.name = selectorNumber s v := by
  unfold requested
  rw [find?_name hnd hs, hv]

theorem Accepted.round_trip {fo : FloatOps} {sigs : List Signal} {m : Message} (h : Accepted sigs m)
    (hnd : (sigs.map (·.name)).Nodup) (hb : ∀ s ∈ sigs, Built s.conversion)
    (hpt : ∀ s ∈ sigs, PlainTable s) {data : List (String × Value)} {sc pad : Bool}
    {payload : Bytes} (he : encodeRaw fo m data sc pad = .ok payload) {dc sc' tr ex : Bool}
    (hco : ∀ p v raw raw', Present sigs (requested sigs data) p → p.isMultiplexer = true →
      dictGet? data p.name = some v → RawOf p sc v raw → Stored fo p raw raw' →
      selectorNumber p (shown p dc sc' raw') = selectorNumber p v) :
    ∃ r, decode fo m payload dc sc' tr ex = .ok r ∧ (r.map (·.1)).Nodup ∧
      ∀ n v', dictGet? r n = some v' ↔ ∃ s v raw raw', Present sigs (requested sigs data) s ∧
        s.name = n ∧ dictGet? data n = some v ∧ RawOf s sc v raw ∧ Stored fo s raw raw' ∧
        v' = shown s dc sc' raw' := by
  obtain ⟨h1, h2, h3, h4⟩ := encodeRaw_ok h hnd hb he
  have hpos : ∀ s ∈ sigs, 0 < s.length := fun s hs => h.pos s ((h.mem s).2 hs)
  have had := (adjustData_spec payload m.length tr ex).1 h1
  have hrec : receivedBytes payload.length m.length tr = m.length := by
    unfold receivedBytes; rw [if_neg]; omega
  obtain ⟨sel, hsel⟩ := selectorsIn_exists (fo := fo) hnd hpos payload dc sc' m.length
  have hfits : ∀ s, Present sigs (requested sigs data) s → Fits m.length s := fun s hs =>
    (validLayout_congr h.mem h.valid).1 s ⟨_, hs⟩
  -- what is read of a present signal
  have hread : ∀ s, Present sigs (requested sigs data) s → ∃ v raw raw',
      dictGet? data s.name = some v ∧ RawOf s sc v raw ∧ Stored fo s raw raw' ∧
      RawIn fo s payload raw' := by
    intro s hs
    obtain ⟨v, r, hv, hr, hc⟩ := (h3 s hs).2
    obtain ⟨r', hst, hin⟩ := carries_rawIn hc
    exact ⟨v, r, r', hv, hr, hst, hin⟩
  have hagree : ∀ p, Present sigs (requested sigs data) p → p.isMultiplexer = true →
      sel p.name = requested sigs data p.name := by
    intro p hp hmx
    have hps := Present.mem hp
    obtain ⟨v, raw, raw', hv, hr, hst, hin⟩ := hread p hp
    obtain ⟨r2, hin2, hs2⟩ := (hsel p hps).1 (hfits p hp)
    rw [rawIn_unique (hpos p hps) hin2 hin] at hs2
    rw [hs2, requested_of_mem hnd hps hv]
    exact hco p v raw raw' hp hmx hv hr hst
  have hpres := present_agree hagree
  obtain ⟨d1, d2⟩ := h.decode_ok (fo := fo) hb hpt had (by rw [hrec]; exact hsel)
  obtain ⟨r, hr⟩ := d2 (by
    intro p hp hmx hbr i hi
    have hp' := (hpres p).2 hp
    obtain ⟨j, hj, hjb⟩ := h2 p hp' hmx hbr
    rw [hagree p hp' hmx, hj] at hi
    cases hi; exact hjb)
  obtain ⟨k1, _, k3⟩ := d1 r hr
  refine ⟨r, hr, k1, fun n v' => ?_⟩
  rw [k3]
  constructor
  · rintro ⟨s, hs, hn, _, raw2, hin2, hv'⟩
    have hp := (hpres s).2 hs
    obtain ⟨v, raw, raw', hv, hr, hst, hin⟩ := hread s hp
    rw [rawIn_unique (hpos s (Present.mem hp)) hin2 hin] at hv'
    exact ⟨s, v, raw, raw', hp, hn, hn ▸ hv, hr, hst, hv'⟩
  · rintro ⟨s, v, raw, raw', hp, hn, hv, hr, hst, hv'⟩
    obtain ⟨v2, raw2, raw2', hv2, hr2, hst2, hin⟩ := hread s hp
    subst hn
    rw [hv] at hv2; cases hv2
    have hbs := hb s (Present.mem hp)
    have e1 : raw = raw2 := by
      have e1 := (encodeSignalValue_iff hbs).2 hr
      have e2 := (encodeSignalValue_iff hbs).2 hr2
      rw [e1] at e2; cases e2; rfl
    subst e1
    have e2 : raw' = raw2' := by
      unfold Stored at hst hst2
      split at hst
      · rename_i hf
        rw [if_pos hf] at hst2
        obtain ⟨l, hl, rfl⟩ := hst
        obtain ⟨l2, hl2, rfl⟩ := hst2
        rw [hl] at hl2; cases hl2; rfl
      · rename_i hf
        rw [if_neg hf] at hst2
        exact hst.trans hst2.symm
    subst e2
    refine ⟨s, (hpres s).1 hp, rfl, ?_, raw', hin, hv'⟩
    rw [hrec]; exact hfits s hp

/-- Names and numbers of a value table with distinct numbers and distinct names. -/
theorem numberNamed_of_get {s : Signal} (hnames : ((table s).map (·.2.toStr)).Nodup) {i : Int}
    {ch : Choice} (h : dictGet? (table s) i = some ch) : numberNamed s ch.toStr = some i := by
  have hmem := dictGet?_mem h
  unfold numberNamed
  cases hf : (table s).reverse.find? (fun e => e.2.toStr == ch.toStr) with
  | none =>
    rw [List.find?_eq_none] at hf
    exact absurd (by simp) (hf (i, ch) (by simpa using hmem))
  | some e =>
    have h1 := List.mem_of_find?_eq_some hf
    have h2 := List.find?_some hf
    simp only [beq_iff_eq] at h2
    have : e = (i, ch) := List.inj_on_of_nodup_map hnames (by simpa using h1) hmem h2
    rw [this]; rfl

theorem get_of_numberNamed {s : Signal} (hkeys : ((table s).map (·.1)).Nodup) {i : Int}
    {n : String} (h : numberNamed s n = some i) : ∃ ch, dictGet? (table s) i = some ch ∧
      ch.toStr = n := by
  unfold numberNamed at h
  rw [Option.map_eq_some_iff] at h
  obtain ⟨e, he, rfl⟩ := h
  have h1 := List.mem_of_find?_eq_some he
  have h2 := List.find?_some he
  simp only [beq_iff_eq] at h2
  exact ⟨e.2, dictGet?_of_mem hkeys (by simpa using h1), h2⟩

theorem selectorNumber_choice {s : Signal} (ch : Choice) :
    selectorNumber s ch.toValue = numberNamed s ch.toStr := by
  cases ch <;> rfl

/-- An integer raw value of an unscaled selector with distinct names is shown as something that
stands for this number. -/
theorem selector_shown {p : Signal} (hs : p.conversion.scale = 1) (ho : p.conversion.offset = 0)
    (hnames : ((table p).map (·.2.toStr)).Nodup) (dc sc : Bool) (i : Int) :
    selectorNumber p (shown p dc sc (i : Rat)) = some i := by
  unfold shown
  cases hg : (if dc = true ∧ ((i : Rat)).den = 1 then dictGet? (table p) ((i : Rat)).num
      else none) with
  | none =>
    simp only [hs, ho, selectorNumber, mul_one, add_zero, ite_self, pyInt_int]
  | some ch =>
    have hg' : dictGet? (table p) i = some ch := by
      split at hg
      · simpa using hg
      · cases hg
    have := numberNamed_of_get hnames hg'
    cases ch with
    | str c => exact this
    | named nv => exact this

/-- Encoding a value of an unscaled integer selector with distinct names writes the number that
selects the branch. -/
theorem selector_raw {p : Signal} (hf : p.conversion.isFloat = false)
    (hs : p.conversion.scale = 1) (ho : p.conversion.offset = 0)
    (hnames : ((table p).map (·.2.toStr)).Nodup) {sc : Bool} {v : Value} {raw : Rat}
    (hint : ∀ q, v = .num q → q.den = 1) (hr : RawOf p sc v raw) :
    ∃ i : Int, raw = i ∧ selectorNumber p v = some i := by
  cases v with
  | num q =>
    obtain ⟨_, x, hx, h⟩ := hr
    rw [hf] at h
    obtain ⟨i, hi, hne⟩ := h
    have hxq : x = q := by rw [hx, hs, ho]; simp
    have hq : q = ((q.num : Int) : Rat) := by
      have := hint q rfl
      rw [← Rat.num_div_den q, this]; simp
    refine ⟨i, hi, ?_⟩
    have e1 := pyRound_iff.2 hne
    rw [hxq, hq, pyRound_int] at e1
    rw [hq]
    simp only [selectorNumber, pyInt_int, e1]
  | str c =>
    obtain ⟨i, h1, h2⟩ := hr
    exact ⟨i, h2, h1⟩
  | named nv =>
    obtain ⟨h1, h2⟩ := hr
    refine ⟨nv.value, h1, ?_⟩
    rcases h2 with h2 | h2
    · exact numberNamed_of_get hnames h2
    · exact numberNamed_of_get hnames h2

/-! ### Sizes -/

section
variable {fo : FloatOps} {sigs : List Signal} {L : Nat} {data : Bytes} {dc sc tr ex' : Bool}

theorem removeTruncated_long {signals : List Signal} {actual : Nat} (h : L ≤ actual)
    (u : List (String × Rat)) : removeTruncated signals actual L tr u = .ok u := by
  unfold removeTruncated
  rw [if_neg]; omega

mutual
theorem decodeNode_excess (h : L ≤ data.length) : ∀ c : Codec,
    decodeNode fo sigs L data dc sc tr true c = decodeNode fo sigs L (data.take L) dc sc tr ex' c
  | .mk signals muxes => by
    have hl : (data.take L).length = L := by simp; omega
    have h1 : adjustData data L tr true = .ok (data.take L) := by
      rcases Nat.eq_or_lt_of_le h with h' | h'
      · rw [(adjustData_spec data L tr true).1 h'.symm, h', List.take_length]
      · rw [(adjustData_spec data L tr true).2.2 h']; rfl
    have h2 : adjustData (data.take L) L tr ex' = .ok (data.take L) :=
      (adjustData_spec _ _ _ _).1 hl
    have hd : decodeData fo data L signals (createFormats signals L) dc sc tr true =
        decodeData fo (data.take L) L signals (createFormats signals L) dc sc tr ex' := by
      unfold decodeData
      rw [h1, h2]
      simp only [hl, removeTruncated_long h, removeTruncated_long (Nat.le_refl L)]
    simp only [decodeNode]
    rw [hd]
    congr 1
    funext acc
    exact decodeMuxes_excess h muxes acc
theorem decodeMuxes_excess (h : L ≤ data.length) : ∀ (ms : Muxes) (acc : List (String × Value)),
    decodeMuxes fo sigs L data dc sc tr true ms acc =
      decodeMuxes fo sigs L (data.take L) dc sc tr ex' ms acc
  | .nil, acc => rfl
  | .cons name branches rest, acc => by
    simp only [decodeMuxes]
    rw [decodeMuxes_excess h rest acc]
    split
    · rfl
    · congr 1
      funext i
      rw [decodeBranch_excess h i branches]
      congr 1
      funext sub
      exact decodeMuxes_excess h rest _
theorem decodeBranch_excess (h : L ≤ data.length) (i : Int) : ∀ b : Branches,
    decodeBranch fo sigs L data dc sc tr true i b =
      decodeBranch fo sigs L (data.take L) dc sc tr ex' i b
  | .nil => rfl
  | .cons id c rest => by
    simp only [decodeBranch]
    rw [decodeNode_excess h c, decodeBranch_excess h i rest]
end

theorem decodeNode_wrong_size {ex : Bool} {c : Codec} {e : Err}
    (h : adjustData data L tr ex = .error e) :
    decodeNode fo sigs L data dc sc tr ex c = .error e := by
  cases c with
  | mk signals muxes =>
    simp only [decodeNode, decodeData, h]
    rfl

end

end Cantools
