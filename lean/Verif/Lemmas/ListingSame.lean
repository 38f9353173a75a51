import Verif.Lemmas.Listing

/-
What the listing of a message tells about its signals, and that its lines have no line ends.
-/

namespace Cantools.Listing
open Cantools Dbc Spec Spec.Listed

variable {F : Type} {T : FloatText F}

/-! ### Signals -/

/-- What the listings of two signals have in common, if they are the same. -/
structure SameParts (T : FloatText F) (sigs sigs' : List (LSignal F)) (s s' : LSignal F) : Prop where
  name : s'.name = s.name
  comments : commentLines "      Comment[" (s.comments.getD []) = commentLines "      Comment[" (s'.comments.getD [])
  receivers : namesLine "      Receiving ECUs: " s.receivers = namesLine "      Receiving ECUs: " s'.receivers
  type : signalType sigs s = signalType sigs' s'
  selector : ∃ l, selectorLines sigs s = .ok l ∧ selectorLines sigs' s' = .ok l
  place : placeLines s = placeLines s'
  unit : unitLine s = unitLine s'
  isSigned : boolText s.isSigned = boolText s'.isSigned
  minimum : valueLine T "      Minimum: " (s.unit.getD []) (s.minimum.map .num) =
    valueLine T "      Minimum: " (s'.unit.getD []) (s'.minimum.map .num)
  maximum : valueLine T "      Maximum: " (s.unit.getD []) (s.maximum.map .num) =
    valueLine T "      Maximum: " (s'.unit.getD []) (s'.maximum.map .num)
  scaling : scalingLines T s = scalingLines T s'
  choices : choicesLines s = choicesLines s'

theorem signal_split {sigs sigs' : List (LSignal F)} {s s' : LSignal F} {lines : List Line}
    (h : signalLines T sigs s = .ok lines) (h' : signalLines T sigs' s' = .ok lines) : SameParts T sigs sigs' s s' := by
  obtain ⟨sel, h1, rfl⟩ := signalLines_ok h
  obtain ⟨sel', h1', e⟩ := signalLines_ok h'
  rw [List.cons.injEq] at e
  have hs := sections_eq (key := key 8) signalKeys_disjoint (signal_keys h1) (signal_keys h1') e.2
  simp only [signalSections, List.cons.injEq, and_true] at hs
  obtain ⟨c1, c2, c3, c4, c5, c6, c7, c8, c9, c10, c11, c12, c13⟩ := hs
  exact ⟨(List.append_cancel_right (List.append_cancel_left e.1)).symm, c1, c2, List.append_cancel_left c3,
    ⟨sel, h1, c4 ▸ h1'⟩, c5, c6, List.append_cancel_left c9, c10, c11, c12, c13⟩

theorem type_float {sigs sigs' : List (LSignal F)} {s s' : LSignal F} (h : signalType sigs s = signalType sigs' s') :
    s'.isFloat = s.isFloat := by
  unfold signalType at h
  cases hs : s.isFloat <;> cases hs' : s'.isFloat <;> rw [hs, hs'] at h
  · exfalso
    simp only [if_true, Bool.false_eq_true, if_false] at h
    split at h <;> exact absurd h (by decide)
  · exfalso
    simp only [if_true, Bool.false_eq_true, if_false] at h
    split at h <;> exact absurd h (by decide)

theorem unit_eq {s s' : LSignal F} (h : unitLine s = unitLine s') : s'.unit.getD [] = s.unit.getD [] := by
  unfold unitLine at h
  split at h <;> split at h
  · rename_i h1 h2
    rw [h1, h2]
  · cases h
  · cases h
  · exact (List.append_cancel_left (List.cons.inj h).1).symm

theorem scaling_eq (L : FloatLaws T) {s s' : LSignal F}
    (hs : s.scale.value T = 1 ∨ 1 + 1 / 10 ^ 10 < s.scale.value T ∨ s.scale.value T < 1 - 1 / 10 ^ 10)
    (hs' : s'.scale.value T = 1 ∨ 1 + 1 / 10 ^ 10 < s'.scale.value T ∨ s'.scale.value T < 1 - 1 / 10 ^ 10)
    (hu : s'.unit.getD [] = s.unit.getD []) (h : scalingLines T s = scalingLines T s') :
    s'.scale.value T = s.scale.value T ∧ s'.offset.value T = s.offset.value T := by
  have not : ∀ {s : LSignal F},
      (s.scale.value T = 1 ∨ 1 + 1 / 10 ^ 10 < s.scale.value T ∨ s.scale.value T < 1 - 1 / 10 ^ 10) →
      ¬ scaled T s = true → s.scale.value T = 1 ∧ s.offset.value T = 0 := by
    intro s hs h
    simp only [scaled, Bool.or_eq_true, decide_eq_true_eq, not_or, not_not] at h
    exact ⟨hs.resolve_right fun e => e.elim h.2.1 h.2.2, h.1⟩
  unfold scalingLines at h
  rw [hu] at h
  split at h <;> split at h
  · simp only [List.cons.injEq, and_true] at h
    rw [formatNum_inj L (List.append_cancel_left h.1), formatNum_inj L (List.append_cancel_left h.2)]
    exact ⟨rfl, rfl⟩
  · cases h
  · cases h
  · rename_i h1 h2
    rw [(not hs h1).1, (not hs h1).2, (not hs' h2).1, (not hs' h2).2]
    exact ⟨rfl, rfl⟩

theorem selectorValue_inj {sel : LSignal F} (h : ((sel.choices.getD []).map (·.2.name)).Nodup ∧
      ∀ e ∈ sel.choices.getD [], ',' ∉ e.2.name ∧ ∀ i : Int, e.2.name ≠ intText i) {i j : Int}
    (e : selectorValue sel i = selectorValue sel j) : i = j := by
  unfold selectorValue at e
  cases hi : dictGet? (sel.choices.getD []) i with
  | none =>
    cases hj : dictGet? (sel.choices.getD []) j with
    | none =>
      rw [hi, hj] at e
      exact intText_inj e
    | some d =>
      rw [hi, hj] at e
      exact absurd e.symm ((h.2 _ (dictGet?_mem hj)).2 i)
  | some c =>
    cases hj : dictGet? (sel.choices.getD []) j with
    | none =>
      rw [hi, hj] at e
      exact absurd e ((h.2 _ (dictGet?_mem hi)).2 j)
    | some d =>
      rw [hi, hj] at e
      have := List.inj_on_of_nodup_map h.1 (dictGet?_mem hi) (dictGet?_mem hj) e
      exact congrArg Prod.fst this

theorem selectorValue_comma {sel : LSignal F} (h : ∀ e ∈ sel.choices.getD [], ',' ∉ e.2.name ∧ ∀ i : Int, e.2.name ≠ intText i)
    (i : Int) : ',' ∉ selectorValue sel i := by
  unfold selectorValue
  cases hi : dictGet? (sel.choices.getD []) i with
  | none =>
    intro hc
    rcases intText_chars hc with e | e <;> exact absurd e (by decide)
  | some c => exact (h _ (dictGet?_mem hi)).1

theorem signalNamed_ok {sigs : List (LSignal F)} {n : Chars} {s : LSignal F} (h : signalNamed sigs n = .ok s) :
    s ∈ sigs ∧ s.name = n := by
  unfold signalNamed at h
  cases hf : sigs.reverse.find? fun s => s.name = n with
  | none => rw [hf] at h; cases h
  | some t =>
    rw [hf] at h
    cases h
    exact ⟨List.mem_reverse.1 (List.mem_of_find?_eq_some hf), by simpa using List.find?_some hf⟩

theorem forall₂_partner {α β : Type} {R : α → β → Prop} {l : List α} {k : List β} (h : List.Forall₂ R l k) {a : α} (ha : a ∈ l) :
    ∃ b ∈ k, R a b := by
  induction h with
  | nil => cases ha
  | cons e _ ih =>
    rcases List.mem_cons.1 ha with rfl | ha
    · exact ⟨_, by simp, e⟩
    · obtain ⟨b, hb, e⟩ := ih ha
      exact ⟨b, by simp [hb], e⟩

theorem forall₂_partner' {α β : Type} {R : α → β → Prop} {l : List α} {k : List β} (h : List.Forall₂ R l k) {b : β} (hb : b ∈ k) :
    ∃ a ∈ l, R a b := by
  obtain ⟨a, ha, e⟩ := forall₂_partner h.flip hb
  exact ⟨a, ha, e⟩

section
variable {sigs sigs' : List (LSignal F)} (fine : ∀ s ∈ sigs, FineSignal T sigs s) (fine' : ∀ s ∈ sigs', FineSignal T sigs' s)
  (nodup' : (sigs'.map (·.name)).Nodup) (h : List.Forall₂ (SameParts T sigs sigs') sigs sigs')
include fine fine' nodup' h

/-- The selector of a signal, and the values for which the signal is there. -/
theorem selector_eq {s s' : LSignal F} (hs : s ∈ sigs) (hs' : s' ∈ sigs') (e : SameParts T sigs sigs' s s') :
    s'.multiplexerSignal = s.multiplexerSignal ∧ s'.multiplexerIds = s.multiplexerIds := by
  obtain ⟨l, h1, h2⟩ := e.selector
  have hf := fine s hs
  have hf' := fine' s' hs'
  rcases selectorLines_cases h1 with ⟨a, rfl⟩ | ⟨n, sel, a, hsel, rfl⟩ <;>
    rcases selectorLines_cases h2 with ⟨b, hl⟩ | ⟨n', sel', b, hsel', hl⟩
  · exact ⟨b.trans a.symm, (hf'.muxed.2 b).trans (hf.muxed.2 a).symm⟩
  · cases hl
  · cases hl
  · simp only [List.cons.injEq, and_true] at hl
    have hn := List.append_cancel_left hl.1
    subst hn
    have hv := List.append_cancel_left hl.2
    have m1 := signalNamed_ok hsel
    have m2 := signalNamed_ok hsel'
    have hc : sel.choices = sel'.choices := by
      obtain ⟨t, ht, et⟩ := forall₂_partner h m1.1
      have : t = sel' := List.inj_on_of_nodup_map nodup' ht m2.1 (et.name.trans (m1.2.trans m2.2.symm))
      subst this
      have f1 := fine sel m1.1
      have f2 := fine' t ht
      exact choicesLines_eq f1.choiceNames f2.choiceNames f1.choices f2.choices et.choices
    have hm : sel.isMultiplexer = true := (fine sel m1.1).multiplexer.2 ⟨s, hs, by rw [a, m1.2]⟩
    have hfun : selectorValue sel = selectorValue sel' := by
      funext i
      unfold selectorValue
      rw [hc]
    have hS := (fine sel m1.1).selector hm
    refine ⟨b.trans a.symm, ?_⟩
    obtain ⟨ids, hi⟩ : ∃ ids, s.multiplexerIds = some ids := by
      cases hi : s.multiplexerIds with
      | none => rw [hf.muxed.1 hi] at a; cases a
      | some ids => exact ⟨ids, rfl⟩
    obtain ⟨ids', hi'⟩ : ∃ ids, s'.multiplexerIds = some ids := by
      cases hi : s'.multiplexerIds with
      | none => rw [hf'.muxed.1 hi] at b; cases b
      | some ids => exact ⟨ids, rfl⟩
    have n1 : ids ≠ [] := fun e => hf.some_id (e ▸ hi)
    have n2 : ids' ≠ [] := fun e => hf'.some_id (e ▸ hi')
    rw [hi, hi', ← hfun] at hv
    have := join_eq (fun t ht => by obtain ⟨i, -, rfl⟩ := List.mem_map.1 ht; exact selectorValue_comma hS.2 i)
      (fun t ht => by obtain ⟨i, -, rfl⟩ := List.mem_map.1 ht; exact selectorValue_comma hS.2 i)
      (by simpa using n1) (by simpa using n2) hv
    have := List.map_injective_iff.2 (fun i j e => selectorValue_inj hS e) this
    rw [hi, hi']
    exact congrArg some this.symm

theorem multiplexer_eq {s s' : LSignal F} (hs : s ∈ sigs) (hs' : s' ∈ sigs') (e : SameParts T sigs sigs' s s') :
    s'.isMultiplexer = s.isMultiplexer := by
  rw [Bool.eq_iff_iff, (fine s hs).multiplexer, (fine' s' hs').multiplexer]
  constructor
  · rintro ⟨t', ht', hn⟩
    obtain ⟨t, ht, et⟩ := forall₂_partner' h ht'
    exact ⟨t, ht, by rw [← (selector_eq fine fine' nodup' h ht ht' et).1, hn, e.name]⟩
  · rintro ⟨t, ht, hn⟩
    obtain ⟨t', ht', et⟩ := forall₂_partner h ht
    exact ⟨t', ht', by rw [(selector_eq fine fine' nodup' h ht ht' et).1, hn, e.name]⟩

theorem sameSignal (L : FloatLaws T) {s s' : LSignal F} (hs : s ∈ sigs) (hs' : s' ∈ sigs') (e : SameParts T sigs sigs' s s') :
    SameSignal T s s' := by
  have f := fine s hs
  have f' := fine' s' hs'
  have hu := unit_eq e.unit
  have hp := e.place
  simp only [placeLines, List.cons.injEq, and_true] at hp
  have hsc := scaling_eq L f.scale f'.scale hu e.scaling
  have hm := e.minimum
  have hM := e.maximum
  rw [hu] at hm hM
  exact {
    name := e.name
    start := (decimal_inj (List.append_cancel_left hp.1)).symm
    length := (decimal_inj (List.append_cancel_right (List.append_cancel_left hp.2.1))).symm
    byteOrder := (orderText_inj (List.append_cancel_left hp.2.2)).symm
    isSigned := (boolText_inj e.isSigned).symm
    isFloat := type_float e.type
    scale := hsc.1
    offset := hsc.2
    minimum := (valueNum_inj L hm).symm
    maximum := (valueNum_inj L hM).symm
    unit := hu
    receivers := names_eq f.receivers f'.receivers e.receivers
    comments := (comments_eq f.comments f'.comments e.comments).symm
    choices := (choicesLines_eq f.choiceNames f'.choiceNames f.choices f'.choices e.choices).symm
    isMultiplexer := multiplexer_eq fine fine' nodup' h hs hs' e
    multiplexerIds := (selector_eq fine fine' nodup' h hs hs' e).2
    multiplexerSignal := (selector_eq fine fine' nodup' h hs hs' e).1 }

end

theorem forall₂_mem {α β : Type} {R : α → β → Prop} {l : List α} {k : List β} (h : List.Forall₂ R l k) :
    List.Forall₂ (fun a b => R a b ∧ a ∈ l ∧ b ∈ k) l k := by
  induction h with
  | nil => exact .nil
  | cons e _ ih =>
    refine .cons ⟨e, by simp, by simp⟩ (ih.imp fun a b h => ⟨h.1, by simp [h.2.1], by simp [h.2.2]⟩)

/-! ### Messages -/

/-- The properties of the message itself. -/
theorem same_ids {c c' : Bool} {m m' : LMessage F} (h : idLines c m = idLines c' m') :
    m'.headerId = m.headerId ∧ m'.length = m.length ∧
      (m.headerId = none → m'.frameId = m.frameId ∧ m'.isExtendedFrame = m.isExtendedFrame ∧ m'.isFd = m.isFd) := by
  unfold idLines at h
  cases hh : m.headerId with
  | none =>
    cases hh' : m'.headerId with
    | none =>
      rw [hh, hh'] at h
      simp only [List.cons.injEq, and_true] at h
      refine ⟨rfl, ?_, fun _ =>
        ⟨(idsText_inj (List.append_cancel_left h.1)).symm, (boolText_inj (List.append_cancel_left h.2.2.1)).symm,
          (boolText_inj (List.append_cancel_left h.2.2.2)).symm⟩⟩
      have h2 := h.2.1
      cases c <;> cases c'
      · exact (decimal_inj (List.append_cancel_right (List.append_cancel_left h2))).symm
      · have : "  S".toList = "  M".toList := congrArg (List.take 3) h2
        exact absurd this (by decide)
      · have : "  M".toList = "  S".toList := congrArg (List.take 3) h2
        exact absurd this (by decide)
      · exact (decimal_inj (List.append_cancel_right (List.append_cancel_left h2))).symm
    | some _ =>
      rw [hh, hh'] at h
      simp at h
  | some i =>
    cases hh' : m'.headerId with
    | none =>
      rw [hh, hh'] at h
      simp at h
    | some j =>
      rw [hh, hh'] at h
      simp only [List.cons.injEq, and_true] at h
      exact ⟨congrArg some (idsText_inj (List.append_cancel_left h.1)).symm,
        (decimal_inj (List.append_cancel_right (List.append_cancel_left h.2))).symm, fun e => by cases e⟩

theorem same_bus {m m' : LMessage F} (h : busLine m = busLine m') : m'.busName.getD [] = m.busName.getD [] := by
  unfold busLine at h
  split at h <;> split at h
  · rename_i h1 h2
    rw [h1, h2]
  · cases h
  · cases h
  · exact (List.append_cancel_left (List.cons.inj h).1).symm

theorem same_cycle (L : FloatLaws T) {m m' : LMessage F} (h : cycleLine T m = cycleLine T m') : m'.cycleTime = m.cycleTime := by
  unfold cycleLine at h
  cases hh : m.cycleTime with
  | none =>
    cases hh' : m'.cycleTime with
    | none => rfl
    | some _ => rw [hh, hh'] at h; cases h
  | some i =>
    cases hh' : m'.cycleTime with
    | none => rw [hh, hh'] at h; cases h
    | some j =>
      rw [hh, hh'] at h
      exact congrArg some (formatNum_inj L (List.append_cancel_left (List.cons.inj h).1)).symm

/-- Messages whose properties and whose signals are listed in the same way. -/
theorem same_of_parts (L : FloatLaws T) {sp sp' c c' : Bool} {m m' : LMessage F} (hm : FineMessage T m) (hm' : FineMessage T m')
    {tree tree' : List Line} (hn : m.name = m'.name) (hs : messageSections T sp c m tree = messageSections T sp' c' m' tree')
    {details : List Line} (hd : detailLines T m.signals = .ok details) (hd' : detailLines T m'.signals = .ok details) :
    SameMessage T m m' := by
  simp only [messageSections, List.cons.injEq, and_true] at hs
  obtain ⟨c1, c2, c3, c4, c5, -, -⟩ := hs
  have hi := same_ids c4
  have hp := details_split (fun s hs => (hm.signals s hs).name) (fun s hs => (hm'.signals s hs).name) hd hd'
  have hp' : List.Forall₂ (SameParts T m.signals m'.signals) m.signals m'.signals :=
    hp.imp fun s s' ⟨l, h1, h2⟩ => signal_split h1 h2
  exact {
    name := hn.symm
    headerId := hi.1
    frame := hi.2.2
    length := hi.2.1
    comments := (comments_eq hm.comments hm'.comments c1).symm
    busName := same_bus c2
    senders := names_eq hm.senders hm'.senders c3
    cycleTime := same_cycle L c5
    signals := (forall₂_mem hp').imp fun s s' ⟨e, h1, h2⟩ => sameSignal hm.signals hm'.signals hm'.names hp' L h1 h2 e }

theorem sameMessage (L : FloatLaws T) {sp sp' : Bool} {m m' : LMessage F} (hm : FineMessage T m) (hm' : FineMessage T m')
    {lines : List Line} (h : messageLines T sp m = .ok lines) (h' : messageLines T sp' m' = .ok lines) :
    SameMessage T m m' := by
  obtain ⟨hn, ⟨tree, tree', hs⟩, details, hd, hd'⟩ := message_split h h'
  exact same_of_parts L hm hm' hn hs hd hd'

end Cantools.Listing
