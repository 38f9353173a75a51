import Verif.Lemmas.Accepted

namespace Cantools
open Spec

/-! ### Size adjustment -/

/-- Number of bytes of the message that were really received. -/
def receivedBytes (actual L : Nat) (tr : Bool) : Nat := if actual < L ∧ tr = true then actual else L

theorem keeps_iff {actual L : Nat} {tr : Bool} {s : Signal} (hl : 0 < s.length) (hf : Fits L s) :
    keeps actual L tr s = true ↔ Fits (receivedBytes actual L tr) s := by
  unfold keeps receivedBytes
  by_cases h : actual < L ∧ tr = true
  · simp only [h, and_self, if_true, fits_iff hl, decide_true, Bool.and_self, Bool.not_true,
      Bool.false_or, decide_eq_true_eq]
    constructor <;> intro h' <;> omega
  · rw [if_neg h]
    simp only [hf, iff_true]
    simp only [not_and, Bool.not_eq_true] at h
    by_cases ha : actual < L
    · simp [h ha]
    · simp [ha]

theorem adjustData_spec (data : Bytes) (L : Nat) (tr ex : Bool) :
    (data.length = L → adjustData data L tr ex = .ok data) ∧
    (data.length < L → adjustData data L tr ex =
      if tr then .ok (data ++ List.replicate (L - data.length) 0xff) else .error .decodeError) ∧
    (L < data.length → adjustData data L tr ex =
      if ex then .ok (data.take L) else .error .decodeError) := by
  unfold adjustData
  refine ⟨fun h => by simp [h], fun h => ?_, fun h => ?_⟩
  · have hne : data.length ≠ L := by omega
    simp only [ne_eq, hne, not_false_eq_true, if_true]
    cases tr with
    | true =>
      simp only [if_true]
      have hl : (data ++ List.replicate (L - data.length) (0xff : UInt8)).length = L := by
        simp; omega
      have ht : (data ++ List.replicate (L - data.length) (0xff : UInt8)).take L =
          data ++ List.replicate (L - data.length) (0xff : UInt8) := by
        rw [List.take_of_length_le (by omega)]
      cases ex with
      | true => simp only [if_true, ht, hl, not_true, if_false]
      | false => simp only [Bool.false_eq_true, if_false, hl, not_true]
    | false =>
      simp only [Bool.false_eq_true, if_false]
      cases ex with
      | true => simp only [if_true]; rw [List.take_of_length_le (by omega)]; simp [hne]
      | false => simp [hne]
  · have hne : data.length ≠ L := by omega
    simp only [ne_eq, hne, not_false_eq_true, if_true]
    have h0 : L - data.length = 0 := by omega
    have : (if tr = true then data ++ List.replicate (L - data.length) (0xff : UInt8) else data) = data := by
      cases tr <;> simp [h0]
    rw [this]
    cases ex with
    | true =>
      simp only [if_true]
      have : (data.take L).length = L := by simp; omega
      simp [this]
    | false => simp [hne]

theorem adjustData_error {data : Bytes} {L : Nat} {tr ex : Bool} {e : Err}
    (h : adjustData data L tr ex = .error e) : e = .decodeError := by
  obtain ⟨h1, h2, h3⟩ := adjustData_spec data L tr ex
  rcases Nat.lt_trichotomy data.length L with hl | hl | hl
  · rw [h2 hl] at h; split at h <;> cases h; rfl
  · rw [h1 hl] at h; cases h
  · rw [h3 hl] at h; split at h <;> cases h; rfl

/-! ### Values -/

/-- Bit of a prefix. -/
theorem payloadBit_append {a b : Bytes} {p : Nat} (h : p < 8 * a.length) :
    payloadBit (a ++ b) p = payloadBit a p := by
  unfold payloadBit
  rw [List.getD_eq_getElem?_getD, List.getD_eq_getElem?_getD, List.getElem?_append_left (by omega)]

theorem rawIn_congr {fo : FloatOps} {s : Signal} {d d' : Bytes}
    (h : ∀ p, Occupies s p → payloadBit d p = payloadBit d' p) {r : Rat} (hr : RawIn fo s d r) :
    RawIn fo s d' r := by
  unfold RawIn at *
  split at hr
  · rename_i hf
    rw [if_pos hf, hr]
    congr 1
    apply List.map_congr_left
    intro k hk
    rw [List.mem_range] at hk
    exact h _ ⟨s.length - 1 - k, by omega, rfl⟩
  · rename_i hf
    rw [if_neg hf]
    obtain ⟨i, h1, h2, h3⟩ := hr
    exact ⟨i, h1, h2, fun j hj => (h _ ⟨j, hj, rfl⟩).symm.trans (h3 j hj)⟩

theorem readValue_eq {fo : FloatOps} {s : Signal} (hl : 0 < s.length) (hb : Built s.conversion)
    (hpt : PlainTable s) {d : Bytes} {dc sc : Bool} {r : Rat} (hr : RawIn fo s d r) :
    readValue fo d dc sc s = shown s dc sc r := by
  have h := unpack_rawIn (fo := fo) hl d
  have := rawIn_unique hl h hr
  unfold readValue
  rw [this]
  apply decodeSignalValue_eq hb
  cases hf : s.conversion.isFloat with
  | true => exact .inr (hpt hf)
  | false => exact .inl (rawIn_den hf hr)

/-! ### Decoding accepted messages -/

section
variable {fo : FloatOps} {sigs : List Signal} {m : Message} {data d : Bytes}
  {dc sc tr ex : Bool}

theorem Accepted.fits (h : Accepted sigs m) {sel : String → Option Int} {s : Signal}
    (hs : Present m.signals sel s) : Fits m.length s := h.valid.1 s ⟨sel, hs⟩

/-- The selector values the code finds are the specified ones. -/
theorem Accepted.decSel (h : Accepted sigs m) (hb : ∀ s ∈ sigs, Built s.conversion)
    (hpt : ∀ s ∈ sigs, PlainTable s) {s : Signal} (hs : s ∈ sigs) (hfit : Fits m.length s) :
    (Fits (receivedBytes data.length m.length tr) s → ∀ r, RawIn fo s d r →
      decSel fo m.signals m.length d data.length dc sc tr s.name =
        selectorNumber s (shown s dc sc r)) ∧
    (¬ Fits (receivedBytes data.length m.length tr) s →
      decSel fo m.signals m.length d data.length dc sc tr s.name = none) := by
  have hsm := (h.mem s).2 hs
  have hl := h.pos s hsm
  unfold Cantools.decSel
  rw [find?_name h.nodup hsm]
  simp only
  constructor
  · intro hk r hr
    rw [if_pos ((keeps_iff hl hfit).2 hk)]
    rw [getMuxNumber_eq h.nodup hsm (hb s hs) (v := readValue fo d dc sc s)
      (by simp [dictGet?_cons])]
    rw [readValue_eq hl (hb s hs) (hpt s hs) hr]
  · intro hk
    rw [if_neg]
    rw [keeps_iff hl hfit]; exact hk

end

/-- Selectors found in a frame with `n` received bytes: like `SelectorsIn`, for the signals that
can be in a frame. -/
theorem Accepted.decode_ok {fo : FloatOps} {sigs : List Signal} {m : Message} {data d : Bytes}
    {dc sc tr ex : Bool} (h : Accepted sigs m)
    (hb : ∀ s ∈ sigs, Built s.conversion) (hpt : ∀ s ∈ sigs, PlainTable s)
    (had : adjustData data m.length tr ex = .ok d) {sel : String → Option Int}
    (hsel : SelectorsIn fo sigs d dc sc (receivedBytes data.length m.length tr) sel) :
    (∀ r, decode fo m data dc sc tr ex = .ok r →
      (r.map (·.1)).Nodup ∧
      (∀ p, Present sigs sel p → p.isMultiplexer = true → (∃ i, HasBranch sigs p i) →
        ∀ i, sel p.name = some i → HasBranch sigs p i) ∧
      ∀ n v, dictGet? r n = some v ↔ ∃ s, Present sigs sel s ∧ s.name = n ∧
        Fits (receivedBytes data.length m.length tr) s ∧
        ∃ raw, RawIn fo s d raw ∧ v = shown s dc sc raw) ∧
    ((∀ p, Present sigs sel p → p.isMultiplexer = true → (∃ i, HasBranch sigs p i) →
        ∀ i, sel p.name = some i → HasBranch sigs p i) →
      ∃ r, decode fo m data dc sc tr ex = .ok r) := by
  obtain ⟨fuel, hc⟩ := h.codec
  -- presence under the two selections
  have hagree : ∀ s ∈ sigs, Fits m.length s →
      Cantools.decSel fo m.signals m.length d data.length dc sc tr s.name = sel s.name := by
    intro s hs hfit
    obtain ⟨a1, a2⟩ := hsel s hs
    obtain ⟨b1, b2⟩ := h.decSel (fo := fo) (d := d) (data := data) (dc := dc) (sc := sc) (tr := tr)
      hb hpt hs hfit
    by_cases hk : Fits (receivedBytes data.length m.length tr) s
    · obtain ⟨r, hr, he⟩ := a1 hk
      rw [b1 hk r hr, he]
    · rw [a2 hk, b2 hk]
  have hpres : ∀ s, Present m.signals
      (Cantools.decSel fo m.signals m.length d data.length dc sc tr) s ↔ Present sigs sel s := by
    intro s
    constructor
    · intro hp
      induction hp with
      | root s hs hp => exact .root s ((h.mem s).1 hs) hp
      | child s p i ids hs hp hm hpar hs' hids hi ih =>
        have := hagree p ih.mem (h.fits hpar)
        exact .child s p i ids ((h.mem s).1 hs) hp hm ih (this ▸ hs') hids hi
    · intro hp
      induction hp with
      | root s hs hp => exact .root s ((h.mem s).2 hs) hp
      | child s p i ids hs hp hm hpar hs' hids hi ih =>
        have := hagree p hpar.mem (h.fits ih)
        exact .child s p i ids ((h.mem s).2 hs) hp hm ih (this.symm ▸ hs') hids hi
  have hreach : ∀ s, Reach m.signals
      (Cantools.decSel fo m.signals m.length d data.length dc sc tr) none none s ↔
      Present sigs sel s := fun s => by rw [← present_iff_reach]; exact hpres s
  have hspec := decodeNode_spec (fo := fo) (dc := dc) (sc := sc) hc had h.nodup h.sorted
    (fun s hs => ⟨h.pos s hs.mem, h.fits (present_iff_reach.2 hs)⟩)
    (fun a b ha hb' hab => h.valid.2 _ a b (present_iff_reach.2 ha) (present_iff_reach.2 hb') hab)
  have hsn := selNode_spec (skip := decSkip m.signals m.length data.length tr)
    (sel := Cantools.decSel fo m.signals m.length d data.length dc sc tr) hc
  have hbr : ∀ p i, HasBranch sigs p i ↔ i ∈ childrenIds m.signals p := by
    intro p i
    rw [← hasBranch_iff]
    exact ⟨hasBranch_congr fun t ht => (h.mem t).2 ht, hasBranch_congr fun t ht => (h.mem t).1 ht⟩
  have hne : ∀ p, (∃ i, HasBranch sigs p i) ↔ childrenIds m.signals p ≠ [] := by
    intro p
    rw [childrenIds_ne]
    simp only [hbr, hasBranch_iff]
  constructor
  · intro r hr
    obtain ⟨all, h1, h2, h3⟩ := hspec.1 r hr
    obtain ⟨h4, h5⟩ := hsn.1 all h1
    refine ⟨h3, ?_, ?_⟩
    · intro p hp hm hi i hsi
      have hfit := h.fits ((hpres p).2 hp)
      have := h5 p ((hreach p).2 hp) hm ((hne p).1 hi)
      rw [hagree p hp.mem hfit, hsi] at this
      exact (hbr p i).2 this
    · intro n v
      rw [h2 n v]
      constructor
      · rintro (hx | ⟨s, k1, k2, k3, k4⟩)
        · simp at hx
        · have hp := (hreach s).1 ((h4 s).1 k1)
          have hfit := h.fits ((hpres s).2 hp)
          have hl := h.pos s ((h.mem s).2 hp.mem)
          have hr' := unpack_rawIn (fo := fo) hl d
          exact ⟨s, hp, k2, (keeps_iff hl hfit).1 k3, _, hr',
            k4.trans (readValue_eq hl (hb s hp.mem) (hpt s hp.mem) hr')⟩
      · rintro ⟨s, hp, k2, k3, raw, hr', k4⟩
        have hfit := h.fits ((hpres s).2 hp)
        have hl := h.pos s ((h.mem s).2 hp.mem)
        exact .inr ⟨s, (h4 s).2 ((hreach s).2 hp), k2, (keeps_iff hl hfit).2 k3,
          k4.trans (readValue_eq hl (hb s hp.mem) (hpt s hp.mem) hr').symm⟩
  · intro hall
    apply hspec.2
    apply hsn.2
    intro p hpr hm hch
    have hp := (hreach p).1 hpr
    have hfit := h.fits ((hpres p).2 hp)
    have hl := h.pos p ((h.mem p).2 hp.mem)
    have hag := hagree p hp.mem hfit
    rw [hag]
    cases hs : sel p.name with
    | some i => exact (hbr p i).1 (hall p hp hm ((hne p).2 hch) i hs)
    | none =>
      -- a received selector always has a number
      have hk : ¬ Fits (receivedBytes data.length m.length tr) p := by
        intro hk
        obtain ⟨r, hr, he⟩ := (hsel p hp.mem).1 hk
        have := shown_selector_isSome (s := p) (dc := dc) (sc := sc) (r := r)
        rw [← he, hs] at this; cases this
      have hkeep : keeps data.length m.length tr p = false := by
        rw [← Bool.not_eq_true, keeps_iff hl hfit]; exact hk
      have htr : tr = true := by
        cases htr : tr with
        | true => rfl
        | false => rw [htr] at hkeep; simp [keeps] at hkeep
      subst htr
      simp only [decSkip, find?_name h.nodup ((h.mem p).2 hp.mem), hkeep]
      rfl

/-- The selector values in a payload exist. -/
theorem selectorsIn_exists {fo : FloatOps} {sigs : List Signal} (hnd : (sigs.map (·.name)).Nodup)
    (hpos : ∀ s ∈ sigs, 0 < s.length) (d : Bytes) (dc sc : Bool) (n : Nat) :
    ∃ sel, SelectorsIn fo sigs d dc sc n sel := by
  classical
  refine ⟨fun nm => match sigs.find? (fun s => s.name == nm) with
    | none => none
    | some s => if Fits n s then
        selectorNumber s (shown s dc sc (unpackField fo s.kind (readBits s d))) else none, ?_⟩
  intro s hs
  simp only [find?_name hnd hs]
  constructor
  · intro hf
    rw [if_pos hf]
    exact ⟨_, unpack_rawIn (hpos s hs) d, rfl⟩
  · intro hf; rw [if_neg hf]

/-! ### Errors of decoding -/

/-- The result satisfies `P`, and the only exception is `e0`. -/
def Only {α : Type} (e0 : Err) (P : α → Prop) (x : Except Err α) : Prop :=
  (∀ e, x = .error e → e = e0) ∧ ∀ r, x = .ok r → P r

theorem Only.ok {α : Type} {e0 : Err} {P : α → Prop} {a : α} (h : P a) :
    Only e0 P (.ok a : Except Err α) :=
  ⟨fun _ h' => (by cases h'), fun _ h' => (by cases h'; exact h)⟩

theorem Only.error {α : Type} {e0 : Err} {P : α → Prop} :
    Only e0 P (.error e0 : Except Err α) :=
  ⟨fun _ h' => (by cases h'; rfl), fun _ h' => (by cases h')⟩

theorem Only.bind {α β : Type} {e0 : Err} {P : α → Prop} {Q : β → Prop} {x : Except Err α}
    {f : α → Except Err β} (h : Only e0 P x) (hf : ∀ a, P a → Only e0 Q (f a)) :
    Only e0 Q (x >>= f) := by
  cases x with
  | error e => exact ⟨fun e' h' => (by cases h'; exact h.1 e rfl), fun r h' => (by cases h')⟩
  | ok a => exact hf a (h.2 a rfl)

/-- Values from which the selector number can be computed. -/
def GoodValues (sigs : List Signal) (acc : List (String × Value)) : Prop :=
  ∀ s ∈ sigs, ∀ v, dictGet? acc s.name = some v → (selectorNumber s v).isSome

theorem GoodValues.update {sigs : List Signal} {a b : List (String × Value)}
    (ha : GoodValues sigs a) (hb : GoodValues sigs b) (hn : (b.map (·.1)).Nodup) :
    GoodValues sigs (dictUpdate a b) := by
  intro s hs v hv
  rw [dictGet?_update, dictGet?_reverse hn] at hv
  cases hg : dictGet? b s.name with
  | some w => rw [hg] at hv; cases hv; exact hb s hs _ hg
  | none => rw [hg] at hv; exact ha s hs v hv

theorem decodeNode_error {fo : FloatOps} {sigs : List Signal} {L : Nat} {data d : Bytes}
    {dc sc tr ex : Bool} (hnd : (sigs.map (·.name)).Nodup)
    (hso : (sigs.filter fun s => !(s.byteOrder == .big)).Pairwise fun a b => a.start ≤ b.start)
    (hpos : ∀ s ∈ sigs, 0 < s.length) (hvalid : ValidLayout L sigs)
    (hb : ∀ s ∈ sigs, Built s.conversion) (hpt : ∀ s ∈ sigs, PlainTable s)
    (had : adjustData data L tr ex = .ok d)
    {fuel : Nat} {π : MuxPath} {c : Codec} (hπ : IsPath sigs π)
    (hc : createCodec sigs fuel (MuxPath.parent π) (MuxPath.id π) = some c) :
    Only .decodeError (fun r => GoodValues sigs r ∧ (r.map (·.1)).Nodup)
      (decodeNode fo sigs L data dc sc tr ex c) := by
  induction fuel generalizing π c with
  | zero => simp [createCodec] at hc
  | succ fuel ih =>
    obtain ⟨fuel', ms, hf, rfl, hms⟩ := createCodec_cases hc
    cases hf
    have hpres : ∀ s ∈ nodeAt sigs π, Present sigs (fun n => dictGet? π n) s := fun s hs =>
      hπ.present (fun n i h => dictGet?_of_mem (hπ.nodup hnd) h) hs
    have hn : NodeOK L (nodeAt sigs π) :=
      ⟨hnd.sublist (List.filter_sublist.map _), fun s hs => hpos s (hpres s hs).mem,
        fun s hs => hvalid.1 s ⟨_, hpres s hs⟩,
        fun a ha b hb hab => hvalid.2 _ a b (hpres a ha) (hpres b hb) hab,
        hso.sublist (List.filter_sublist.filter _)⟩
    simp only [decodeNode]
    have hfirst : decodeData fo data L (nodeAt sigs π) (createFormats (nodeAt sigs π) L) dc sc tr ex
        = .ok (((nodeAt sigs π).filter (keeps data.length L tr)).map fun s =>
          (s.name, readValue fo d dc sc s)) := by rw [decodeData_eq hn, had]; rfl
    change Only _ _ (decodeData fo data L (nodeAt sigs π) (createFormats (nodeAt sigs π) L) dc sc
      tr ex >>= _)
    rw [hfirst]
    generalize hfe : (((nodeAt sigs π).filter (keeps data.length L tr)).map fun s =>
          (s.name, readValue fo d dc sc s)) = first
    have hfnd : (first.map (·.1)).Nodup := by
      have : first.map (·.1) = ((nodeAt sigs π).filter (keeps data.length L tr)).map
          (·.name) := by rw [← hfe]; simp
      rw [this]
      exact hn.nodup.sublist (List.filter_sublist.map _)
    have hgood : GoodValues sigs first := by
      intro s hs v hv
      have := dictGet?_mem hv
      rw [← hfe, List.mem_map] at this
      obtain ⟨t, ht, he⟩ := this
      have htm := List.mem_of_mem_filter ht
      injection he with he1 he2
      have htsig := (hpres t htm).mem
      have := name_inj hnd htsig hs he1
      subst this
      rw [← he2, readValue_eq (hpos t htsig) (hb t htsig) (hpt t htsig)
        (unpack_rawIn (hpos t htsig) d)]
      exact shown_selector_isSome
    have hhas : tr = false → ∀ s ∈ nodeAt sigs π, (dictGet? first s.name).isSome := by
      intro htr s hs
      have hm : (s.name, readValue fo d dc sc s) ∈ first := by
        rw [← hfe]
        exact List.mem_map.2 ⟨s, List.mem_filter.2 ⟨hs, by simp [keeps, htr]⟩, rfl⟩
      rw [dictGet?_of_mem hfnd hm]; rfl
    change Only _ _ (decodeMuxes fo sigs L data dc sc tr ex (Muxes.ofList ms) first)
    have hsub : ∀ s ∈ selectorsOf sigs (MuxPath.parent π) (MuxPath.id π),
        s ∈ nodeAt sigs π ∧ s.isMultiplexer = true :=
      fun s hs => ⟨(mem_selectorsOf.1 hs).1, (mem_selectorsOf.1 hs).2.1⟩
    clear hfe hfirst hc
    generalize selectorsOf sigs (MuxPath.parent π) (MuxPath.id π) = sl at hms hsub
    induction hms generalizing first with
    | nil => exact .ok ⟨hgood, hfnd⟩
    | @cons p mm sl' ms' hpm _ ihl =>
      obtain ⟨n, b⟩ := mm
      obtain ⟨hn', brs, hb', hbrs⟩ := hpm
      simp only at hn' hb'
      subst hn'; subst hb'
      have hpn := (hsub p (by simp)).1
      have hpsig := (hpres p hpn).mem
      simp only [Muxes.ofList, decodeMuxes]
      by_cases hcond : (tr && (dictGet? first p.name).isNone) = true
      · rw [if_pos hcond]
        exact ihl first hfnd hgood hhas (fun s hs => hsub s (by simp [hs]))
      · rw [if_neg hcond]
        have hsome : (dictGet? first p.name).isSome := by
          cases htr : tr with
          | false => exact hhas htr p hpn
          | true =>
            cases hg : dictGet? first p.name with
            | none => rw [htr, hg] at hcond; simp at hcond
            | some v => rfl
        obtain ⟨v, hv⟩ := Option.isSome_iff_exists.1 hsome
        have hmux := getMuxNumber_eq hnd hpsig (hb p hpsig) hv
        obtain ⟨i, hi⟩ := Option.isSome_iff_exists.1 (hgood p hpsig v hv)
        rw [hi, toOption_eq_some] at hmux
        rw [hmux]
        change Only _ _ (decodeBranch fo sigs L data dc sc tr ex i (Branches.ofList brs) >>= _)
        have hbr : Only .decodeError (fun r => GoodValues sigs r ∧ (r.map (·.1)).Nodup)
            (decodeBranch fo sigs L data dc sc tr ex i (Branches.ofList brs)) := by
          rw [decodeBranch_ofList]
          cases hfb : brs.find? (fun ic => ic.1 == i) with
          | none => exact .error
          | some ic =>
            have hicm := List.mem_of_find?_eq_some hfb
            obtain ⟨i', _, hie, hcc⟩ := forall₂_mem_right hbrs hicm
            exact ih (π := (p.name, i') :: π) (.cons p i' hpn (hsub p (by simp)).2 hπ) hcc
        refine hbr.bind ?_
        rintro sub ⟨g1, g2⟩
        refine ihl (dictUpdate first sub)
          (dictUpdate_nodup _ hfnd) (hgood.update g1 g2) ?_ (fun s hs => hsub s (by simp [hs]))
        intro htr s hs
        have := hhas htr s hs
        rw [dictGet?_update]
        split
        · rfl
        · exact this

theorem Accepted.decode_error {fo : FloatOps} {sigs : List Signal} {m : Message} {data : Bytes}
    {dc sc tr ex : Bool} (h : Accepted sigs m)
    (hb : ∀ s ∈ sigs, Built s.conversion) (hpt : ∀ s ∈ sigs, PlainTable s) {e : Err}
    (he : decode fo m data dc sc tr ex = .error e) : e = .decodeError := by
  obtain ⟨fuel, hc⟩ := h.codec
  cases had : adjustData data m.length tr ex with
  | ok d =>
    exact (decodeNode_error (fo := fo) (dc := dc) (sc := sc) h.nodup h.sorted h.pos h.valid
      (fun s hs => hb s ((h.mem s).1 hs)) (fun s hs => hpt s ((h.mem s).1 hs)) had
      (π := []) .nil hc).1 e he
  | error e' =>
    have he' := adjustData_error had
    subst he'
    obtain ⟨fuel', ms, hf, hc', _⟩ := createCodec_cases hc
    unfold decode at he
    rw [hc'] at he
    simp only [decodeNode, decodeData, had] at he
    cases he
    rfl

end Cantools
