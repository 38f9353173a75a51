import Verif.Lemmas.Dbc

namespace Cantools
open Spec

/-- the marker written for a signal with ids, if it has some -/
def muxMarker (s : Signal) : MuxMarker :=
  if s.isMultiplexer then .selector
  else
    match s.multiplexerIds with
    | some (i :: _) => .multiplexed i
    | _ => .none

/-- the entry written for a signal -/
def muxEntry (s : Signal) : MuxEntry :=
  { signal := s.name, multiplexer := muxName s
    ranges := match createMuxRanges (s.multiplexerIds.getD []) with
      | .ok r => r
      | .error _ => [] }

theorem formatMux_eq {s : Signal} (h : s.multiplexerIds ≠ some []) : formatMux s = .ok (muxMarker s) := by
  unfold formatMux muxMarker
  split
  · rfl
  · cases hm : s.multiplexerIds with
    | none => rfl
    | some l =>
      cases l with
      | nil => exact absurd hm h
      | cons a r => rfl

theorem mapM_ok_map {α β : Type} {f : α → Except Err β} {g : α → β} {l : List α}
    (h : ∀ a ∈ l, f a = .ok (g a)) : l.mapM f = .ok (l.map g) := by
  induction l with
  | nil => rfl
  | cons a r ih =>
    rw [List.mapM_cons, h a (by simp), ih fun b hb => h b (List.mem_cons_of_mem _ hb)]
    rfl

theorem muxEntry_ranges {s : Signal} (h : s.multiplexerIds.getD [] ≠ []) :
    createMuxRanges (s.multiplexerIds.getD []) = .ok (muxEntry s).ranges ∧
      ∀ i, i ∈ expandRanges (muxEntry s).ranges ↔ i ∈ s.multiplexerIds.getD [] := by
  obtain ⟨rs, h1, h2⟩ := createMuxRanges_spec h
  have : (muxEntry s).ranges = rs := by unfold muxEntry; simp only [h1]
  rw [this]
  exact ⟨h1, h2⟩

theorem dumpMuxEntries_eq (signals : List Signal) :
    dumpMuxEntries signals =
      .ok ((signals.filter fun s => !(s.multiplexerIds.getD []).isEmpty).map muxEntry) := by
  unfold dumpMuxEntries
  apply mapM_ok_map
  intro s hs
  simp only [List.mem_filter, Bool.not_eq_true', List.isEmpty_eq_false_iff] at hs
  rw [(muxEntry_ranges hs.2).1]
  rfl

theorem nodup_inj {signals : List Signal} (h : (signals.map (·.name)).Nodup) {s t : Signal}
    (hs : s ∈ signals) (ht : t ∈ signals) (e : s.name = t.name) : s = t :=
  List.inj_on_of_nodup_map h hs ht e

/-- What is loaded from the entries of a message. -/
theorem values_spec {signals : List Signal} (hnd : (signals.map (·.name)).Nodup) {ext : Bool}
    {entries : List MuxEntry}
    (he : (if ext then dumpMuxEntries signals else .ok []) = .ok entries) :
    (∀ mux sig ids, muxIds (loadMuxValues entries) mux sig = some ids ↔
      ext = true ∧ ∃ s ∈ signals, s.multiplexerIds.getD [] ≠ [] ∧ s.name = sig ∧ muxName s = mux ∧
        ids = expandRanges (muxEntry s).ranges) ∧
    (∀ mux sig, dictGet? (multiplexerOfSignal (loadMuxValues entries)) sig = some mux ↔
      ext = true ∧ ∃ s ∈ signals, s.multiplexerIds.getD [] ≠ [] ∧ s.name = sig ∧ muxName s = mux) := by
  have hent : ∀ e, e ∈ entries ↔
      ext = true ∧ ∃ s ∈ signals, s.multiplexerIds.getD [] ≠ [] ∧ muxEntry s = e := by
    intro e
    cases ext with
    | false => simp at he; subst he; simp
    | true =>
      simp only [if_true, dumpMuxEntries_eq] at he
      cases he
      simp only [List.mem_map, List.mem_filter, Bool.not_eq_true', List.isEmpty_eq_false_iff,
        true_and, and_assoc]
  have hn : (entries.map (·.signal)).Nodup := by
    cases ext with
    | false => simp at he; subst he; simp
    | true =>
      simp only [if_true, dumpMuxEntries_eq] at he
      cases he
      rw [List.map_map]
      exact List.Nodup.sublist (List.Sublist.map _ List.filter_sublist) hnd
  obtain ⟨h1, h2⟩ := loadMuxValues_spec entries hn
  have h3 : ∀ mux sig ids, muxIds (loadMuxValues entries) mux sig = some ids ↔
      ext = true ∧ ∃ s ∈ signals, s.multiplexerIds.getD [] ≠ [] ∧ s.name = sig ∧ muxName s = mux ∧
        ids = expandRanges (muxEntry s).ranges := by
    intro mux sig ids
    rw [h2]
    constructor
    · rintro ⟨e, hm, rfl, rfl, rfl⟩
      obtain ⟨hx, s, hs, hi, rfl⟩ := (hent e).1 hm
      exact ⟨hx, s, hs, hi, rfl, rfl, rfl⟩
    · rintro ⟨hx, s, hs, hi, rfl, rfl, rfl⟩
      exact ⟨muxEntry s, (hent _).2 ⟨hx, s, hs, hi, rfl⟩, rfl, rfl, rfl⟩
  refine ⟨h3, fun mux sig => ?_⟩
  rw [multiplexerOfSignal_spec _ h1]
  · rw [Option.isSome_iff_exists]
    simp only [h3]
    constructor
    · rintro ⟨ids, hx, s, hs, hi, ha, hb, _⟩; exact ⟨hx, s, hs, hi, ha, hb⟩
    · rintro ⟨hx, s, hs, hi, ha, hb⟩; exact ⟨_, hx, s, hs, hi, ha, hb, rfl⟩
  · intro m m' sig hm hm'
    obtain ⟨i, hi⟩ := Option.isSome_iff_exists.1 hm
    obtain ⟨i', hi'⟩ := Option.isSome_iff_exists.1 hm'
    obtain ⟨_, s, hs, _, ha, hb, _⟩ := (h3 _ _ _).1 hi
    obtain ⟨_, s', hs', _, ha', hb', _⟩ := (h3 _ _ _).1 hi'
    have := nodup_inj hnd hs hs' (ha.trans ha'.symm)
    subst this
    exact hb.symm.trans hb'

/-- One loaded signal. -/
theorem loaded_same {messages : List (List Signal)} {signals : List Signal}
    (hmem : signals ∈ messages) (hw : WellMuxed signals) {sel : List Signal}
    (hsel : ∀ p, p ∈ sel ↔ p ∈ signals ∧ p.isMultiplexer = true)
    (hlen : sel.length = (signals.filter (·.isMultiplexer)).length)
    {entries : List MuxEntry}
    (he : (if isExtendedMuxNeeded messages then dumpMuxEntries signals else .ok []) = .ok entries)
    {single : Option String}
    (hsingle : single = match sel with
      | [p] => some p.name
      | _ => none)
    {s : Signal} (hs : s ∈ signals) :
    SameMux s
      { name := s.name
        isMultiplexer := (muxMarker s).isSelector
        multiplexerIds := loadMultiplexerIds (loadMuxValues entries) single ⟨s.name, muxMarker s⟩
        multiplexerSignal := loadMultiplexerSignal (loadMuxValues entries) single ⟨s.name, muxMarker s⟩ } := by
  obtain ⟨hv, hm⟩ := values_spec hw.nodup he
  have hnoids : s.multiplexerIds = none → (∀ mux, muxIds (loadMuxValues entries) mux s.name = none) ∧
      dictGet? (multiplexerOfSignal (loadMuxValues entries)) s.name = none := by
    intro hn
    constructor
    · intro mux
      cases hq : muxIds (loadMuxValues entries) mux s.name with
      | none => rfl
      | some ids =>
        obtain ⟨_, t, ht, hi, ha, _⟩ := (hv _ _ _).1 hq
        have := nodup_inj hw.nodup ht hs ha
        subst this
        simp [hn] at hi
    · cases hq : dictGet? (multiplexerOfSignal (loadMuxValues entries)) s.name with
      | none => rfl
      | some mux =>
        obtain ⟨_, t, ht, hi, ha, _⟩ := (hm _ _).1 hq
        have := nodup_inj hw.nodup ht hs ha
        subst this
        simp [hn] at hi
  have hyes : ∀ ids, s.multiplexerIds = some ids → isExtendedMuxNeeded messages = true →
      muxIds (loadMuxValues entries) (muxName s) s.name = some (expandRanges (muxEntry s).ranges) ∧
      dictGet? (multiplexerOfSignal (loadMuxValues entries)) s.name = some (muxName s) ∧
      ∀ i, i ∈ expandRanges (muxEntry s).ranges ↔ i ∈ ids := by
    intro ids hids hx
    have hne : s.multiplexerIds.getD [] ≠ [] := by
      rw [hids]; intro h; exact hw.some_id s hs (by rw [hids]; exact congrArg some h)
    refine ⟨(hv _ _ _).2 ⟨hx, s, hs, hne, rfl, rfl, rfl⟩, (hm _ _).2 ⟨hx, s, hs, hne, rfl, rfl⟩, ?_⟩
    have := (muxEntry_ranges hne).2
    rw [hids] at this
    exact this
  have hnoext : isExtendedMuxNeeded messages = false →
      (signals.filter (·.isMultiplexer)).length ≤ 1 ∧ (s.multiplexerIds.getD []).length ≤ 1 := by
    intro hx
    simp only [isExtendedMuxNeeded, List.any_eq_false, Bool.or_eq_true, decide_eq_true_eq, not_or,
      List.any_eq_true, not_exists, not_and] at hx
    have := hx signals hmem
    exact ⟨by omega, by have := this.2 s hs; omega⟩
  have hmux : (muxMarker s).isSelector = s.isMultiplexer := by
    unfold muxMarker
    split
    · rename_i h; rw [h]; rfl
    · rename_i h
      have : s.isMultiplexer = false := by simpa using h
      rw [this]
      split <;> rfl
  refine ⟨rfl, hmux, ?_⟩
  beta_reduce
  cases hids : s.multiplexerIds with
  | none =>
    have hsig := (hw.both s hs).1 hids
    obtain ⟨hn1, hn2⟩ := hnoids hids
    have hmark : muxMarker s = if s.isMultiplexer then .selector else .none := by
      unfold muxMarker; rw [hids]
    refine ⟨?_, fun _ => ?_, by simp⟩
    · rw [hsig]
      unfold loadMultiplexerSignal
      simp only [hmark]
      by_cases hsm : s.isMultiplexer = true
      · simp only [hsm, if_true, reduceCtorEq, if_false]
        match single, sel, hsingle with
        | _, [p], hsg =>
          simp only at hsg
          subst hsg
          have hp : s = p := by simpa using (hsel s).2 ⟨hs, hsm⟩
          simp [hp]
        | _, [], hsg => simp only at hsg; subst hsg; exact hn2
        | _, _ :: _ :: _, hsg => simp only at hsg; subst hsg; exact hn2
      · rw [if_neg hsm, if_pos rfl]
    · unfold loadMultiplexerIds
      have hl : (match single, muxMarker s with
          | some _, .multiplexed i => [i]
          | _, _ => ([] : List Int)) = [] := by
        rw [hmark]; split <;> rename_i h
        · split at h <;> cases h
        · rfl
      simp only [hl, hn2, List.nil_append]
      have : ∀ mux, ((dictGet? (loadMuxValues entries) mux).bind fun e => dictGet? e s.name) = none := hn1
      split
      · rfl
      · simp only [this, Option.getD_none, List.append_nil]
        exact if_pos hl
  | some ids =>
    obtain ⟨m, hsig⟩ : ∃ m, s.multiplexerSignal = some m := by
      cases h : s.multiplexerSignal with
      | none => rw [(hw.both s hs).2 h] at hids; cases hids
      | some m => exact ⟨m, rfl⟩
    have hmn : muxName s = m := by unfold muxName; rw [hsig]; rfl
    obtain ⟨p, hp, hpn, hpne, hpm⟩ := hw.parent s hs m hsig
    have hpsel := (hsel p).2 ⟨hp, hpm⟩
    obtain ⟨i, r, rfl⟩ : ∃ i r, ids = i :: r := by
      cases ids with
      | nil => exact absurd hids (hw.some_id s hs)
      | cons i r => exact ⟨i, r, rfl⟩
    have hmknone : muxMarker s ≠ .none := by
      unfold muxMarker; rw [hids]; split <;> simp
    rw [hsig]
    simp only [reduceCtorEq, false_implies, true_and]
    match single, sel, hsingle, hsel, hlen, hpsel with
    | _, [q], hsg, hsel, _, hpsel =>
      simp only at hsg
      subst hsg
      have hpq : p = q := by simpa using hpsel
      subst hpq
      have hsm : s.isMultiplexer = false := by
        cases h : s.isMultiplexer with
        | false => rfl
        | true => exact absurd (by simpa using (hsel s).2 ⟨hs, h⟩ : s = p) (Ne.symm hpne)
      have hmk : muxMarker s = .multiplexed i := by unfold muxMarker; rw [hids]; simp [hsm]
      have hname : s.name ≠ p.name := fun h => hpne (nodup_inj hw.nodup hp hs h.symm)
      constructor
      · unfold loadMultiplexerSignal
        rw [if_neg hmknone]
        rw [← hpn]; exact if_pos hname
      · intro ids hi
        cases hi
        unfold loadMultiplexerIds
        simp only [hmk, List.cons_append, List.nil_append, reduceCtorEq, if_false]
        refine ⟨_, rfl, fun j => ?_⟩
        rw [mem_uniqueIds]
        simp only [List.mem_cons]
        cases hx : isExtendedMuxNeeded messages with
        | true =>
          obtain ⟨h1, _, h3⟩ := hyes _ hids hx
          rw [hmn, ← hpn] at h1
          unfold muxIds at h1
          rw [h1, Option.getD_some, h3]
          simp
        | false =>
          have hr : r = [] := by
            have := (hnoext hx).2
            rw [hids] at this
            simpa using this
          have hq : muxIds (loadMuxValues entries) p.name s.name = none := by
            cases hq : muxIds (loadMuxValues entries) p.name s.name with
            | none => rfl
            | some ids => rw [hv, hx] at hq; exact absurd hq.1 (by simp)
          unfold muxIds at hq
          rw [hq, hr]
          simp
    | _, a :: b :: t, hsg, hsel, hlen, hpsel =>
      simp only at hsg
      subst hsg
      have hx : isExtendedMuxNeeded messages = true := by
        cases hx : isExtendedMuxNeeded messages with
        | true => rfl
        | false =>
          have := (hnoext hx).1
          rw [← hlen] at this
          simp at this
      obtain ⟨h1, h2, h3⟩ := hyes _ hids hx
      rw [hmn] at h1 h2
      constructor
      · unfold loadMultiplexerSignal
        rw [if_neg hmknone]
        exact h2
      · intro ids hi
        cases hi
        unfold loadMultiplexerIds
        simp only [h2, List.nil_append]
        unfold muxIds at h1
        rw [h1, Option.getD_some]
        have hne : expandRanges (muxEntry s).ranges ≠ [] := by
          intro h
          have := (h3 i).2 (by simp)
          rw [h] at this; cases this
        rw [if_neg hne]
        exact ⟨_, rfl, fun j => by rw [mem_uniqueIds, h3]⟩

end Cantools
