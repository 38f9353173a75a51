import Verif.Lemmas.DbcRestore

/-
The signals that are read from a written DBC file.
-/

namespace Cantools.Dbc
open Cantools Spec

variable {F : Type} {T : FloatText F} {sort sortAttrs : List (DSignal F) → List (DSignal F)} {db : DDatabase F}

/-! ### Multiplexing -/

/-- The number of a marker is lost. -/
def blurMarker : MuxMarker → MuxMarker
  | .multiplexed _ => .multiplexed 0
  | m => m

def blur (f : MuxField) : MuxField := { f with marker := blurMarker f.marker }

theorem blur_selector (m : MuxMarker) : (blurMarker m).isSelector = m.isSelector := by cases m <;> rfl
theorem blur_none (m : MuxMarker) : blurMarker m = .none ↔ m = .none := by cases m <;> simp [blurMarker]

theorem singleSelector_blur (fields : List MuxField) : singleSelector (fields.map blur) = singleSelector fields := by
  unfold singleSelector
  rw [List.filter_map]
  have : ((fun x : MuxField => x.marker.isSelector) ∘ blur) = fun x => x.marker.isSelector := by
    funext f; exact blur_selector f.marker
  rw [this]
  generalize fields.filter (fun x => x.marker.isSelector) = l
  match l with
  | [] => rfl
  | [f] => rfl
  | _ :: _ :: _ => rfl

/-- Without a single selector the numbers are not used. -/
theorem loadMux_blur {fields : List MuxField} (h : singleSelector fields = none) (entries : List MuxEntry) :
    loadMux (fields.map blur) entries = loadMux fields entries := by
  unfold loadMux
  rw [List.map_map, singleSelector_blur, h]
  apply List.map_congr_left
  intro f _
  simp only [Function.comp_apply]
  congr 1
  · exact blur_selector f.marker
  · unfold loadMultiplexerSignal
    have hb : (blur f).marker = .none ↔ f.marker = .none := blur_none f.marker
    by_cases hn : f.marker = .none
    · rw [if_pos hn, if_pos (hb.2 hn)]
    · rw [if_neg hn, if_neg (fun h => hn (hb.1 h))]
      rfl

theorem intText_last (i : Int) : ∃ c, (intText i).getLast? = some c ∧ isDigit c = true := by
  obtain ⟨h1, h2⟩ := decimal_digits i.natAbs
  obtain ⟨c, hc⟩ : ∃ c, (decimal i.natAbs).getLast? = some c := by
    cases h : (decimal i.natAbs).getLast? with
    | none => exact absurd (List.getLast?_eq_none_iff.1 h) h1
    | some c => exact ⟨c, rfl⟩
  refine ⟨c, ?_, h2 c (List.mem_of_getLast? hc)⟩
  unfold intText
  split
  · rw [List.getLast?_cons, hc]; rfl
  · exact hc

theorem muxWord_last (s : DSignal F) :
    ((muxWord s).bind (·.getLast?) = some 'M') ↔ s.isMultiplexer = true := by
  unfold muxWord
  split
  · rename_i h; simp [h]
  · rename_i h
    simp only [h, iff_false, Bool.false_eq_true]
    split
    · rename_i i r _
      obtain ⟨c, h1, h2⟩ := intText_last i
      simp only [Option.bind_some, List.getLast?_cons, h1, Option.getD_some, Option.some.injEq]
      rintro rfl
      revert h2; decide
    · simp

theorem loadMuxText_tree (T : FloatText F) (s : DSignal F) :
    loadMuxText (eSig T s).tree = .ok (s.name, muxWord s) := by
  unfold loadMuxText eSig SigE.tree
  rd
  cases muxWord s <;> rfl

theorem loadMarker_single {s : DSignal F} (T : FloatText F) : loadMarker true (muxWord s) = .ok (muxMarker (s.core T)) := by
  unfold muxWord muxMarker
  show loadMarker true (if s.isMultiplexer = true then _ else _) = .ok (if s.isMultiplexer = true then _ else _)
  split
  · rfl
  · show loadMarker true (match s.multiplexerIds with | some (i :: _) => _ | _ => _) =
      .ok (match s.multiplexerIds with | some (i :: _) => _ | _ => _)
    match s.multiplexerIds with
    | none => rfl
    | some [] => rfl
    | some (i :: r) =>
      obtain ⟨c, h1, h2⟩ := intText_last i
      simp only [loadMarker]
      rw [if_neg, if_neg (by simp), readInt_intText]
      · rfl
      · rw [List.getLast?_cons, h1]
        simp only [Option.getD_some, Option.some.injEq]
        rintro rfl
        revert h2; decide

theorem loadMarker_other {s : DSignal F} (T : FloatText F) :
    loadMarker false (muxWord s) = .ok (blurMarker (muxMarker (s.core T))) := by
  unfold muxWord muxMarker
  show loadMarker false (if s.isMultiplexer = true then _ else _) = .ok (blurMarker (if s.isMultiplexer = true then _ else _))
  split
  · rfl
  · show loadMarker false (match s.multiplexerIds with | some (i :: _) => _ | _ => _) =
      .ok (blurMarker (match s.multiplexerIds with | some (i :: _) => _ | _ => _))
    match s.multiplexerIds with
    | none => rfl
    | some [] => rfl
    | some (i :: r) =>
      obtain ⟨c, h1, h2⟩ := intText_last i
      simp only [loadMarker]
      rw [if_neg, if_pos (by simp)]
      · rfl
      · rw [List.getLast?_cons, h1]
        simp only [Option.getD_some, Option.some.injEq]
        rintro rfl
        revert h2; decide

/-- The names and markers of some signals. -/
def fieldsOf (T : FloatText F) (l : List (DSignal F)) : List MuxField :=
  l.map fun s => { name := String.ofList s.name, marker := muxMarker (s.core T) }

theorem marker_selector (T : FloatText F) (s : DSignal F) : (muxMarker (s.core T)).isSelector = s.isMultiplexer := by
  unfold muxMarker
  show (if s.isMultiplexer = true then _ else _ : MuxMarker).isSelector = _
  split
  · rename_i h; rw [h]; rfl
  · rename_i h
    have : s.isMultiplexer = false := by simpa using h
    rw [this]
    split <;> rfl

/-- The multiplexing that is read for the signals of a message. -/
theorem load_fields (T : FloatText F) (l : List (DSignal F)) (entries : List MuxEntry) :
    ∃ fields, loadMuxFields (l.map fun s => (eSig T s).tree) = .ok fields ∧
      loadMux fields entries = loadMux (fieldsOf T l) entries := by
  have h1 : (l.map fun s => (eSig T s).tree).mapM loadMuxText = .ok (l.map fun s => (s.name, muxWord s)) := by
    rw [List.mapM_map]
    exact mapM_ok_map fun s _ => loadMuxText_tree T s
  have hsel : ∀ l : List (DSignal F), (((l.map fun s => (s.name, muxWord s)).filter fun f =>
      decide (f.2.bind (·.getLast?) = some 'M')).length) =
        ((fieldsOf T l).filter (·.marker.isSelector)).length := by
    intro l
    unfold fieldsOf
    rw [List.filter_map, List.filter_map, List.length_map, List.length_map]
    congr 2
    funext s
    simp only [Function.comp_apply, marker_selector]
    rw [Bool.eq_iff_iff, decide_eq_true_iff]
    exact muxWord_last s
  unfold loadMuxFields
  rw [h1]
  simp only [ok_bind2]
  have hmark : ∀ b, (l.map fun s => (s.name, muxWord s)).mapM (fun f => (loadMarker b f.2).map fun m =>
      ({ name := String.ofList f.1, marker := m } : MuxField)) =
        .ok (if b then fieldsOf T l else (fieldsOf T l).map blur) := by
    intro b
    rw [List.mapM_map]
    cases b with
    | true => exact mapM_ok_map fun s _ => by simp only [Function.comp_apply]; rw [loadMarker_single T]; rfl
    | false =>
      simp only [Bool.false_eq_true, if_false]
      unfold fieldsOf
      rw [List.map_map]
      exact mapM_ok_map fun s _ => by simp only [Function.comp_apply]; rw [loadMarker_other T]; rfl
  refine ⟨_, hmark _, ?_⟩
  split
  · rfl
  · rename_i h
    apply loadMux_blur
    unfold hasSingleSelector at h
    rw [hsel] at h
    unfold singleSelector
    split
    · rename_i f hf
      rw [hf] at h
      simp at h
    · rfl

/-- The multiplexer entries that are read for a message. -/
theorem mux_entries (W : WritableDatabase T db) {m : DMessage F} (hm : m ∈ db.messages) :
    (dictGet? (accum (fun o e => o.getD [] ++ [e]) [] (muxPairs T db)) (mid m)).getD [] =
      if extendedMuxNeeded db = true then
        ((m.signals.map (·.core T)).filter fun s => !(s.multiplexerIds.getD []).isEmpty).map muxEntry else [] := by
  have := concat_getD (ids_nodup W) (fun m => if extendedMuxNeeded db = true then
    ((m.signals.map (·.core T)).filter fun s => !(s.multiplexerIds.getD []).isEmpty).map muxEntry else [])
    (fun e => [e]) hm
  refine this.trans ?_
  generalize (if extendedMuxNeeded db = true then
        ((m.signals.map (·.core T)).filter fun s => !(s.multiplexerIds.getD []).isEmpty).map muxEntry else []) = l
  induction l with
  | nil => rfl
  | cons a r ih => rw [List.flatMap_cons, ih]; rfl

theorem extended_eq (T : FloatText F) (db : DDatabase F) :
    extendedMuxNeeded db = isExtendedMuxNeeded (db.messages.map fun m => m.signals.map (·.core T)) := by
  unfold extendedMuxNeeded isExtendedMuxNeeded
  rw [List.any_map]
  congr 1
  funext m
  simp only [Function.comp_apply, List.any_map]
  rw [List.filter_map, List.length_map]
  rfl

open Classical in
/-- Every signal has its multiplexing after reading. -/
theorem mux_same (W : WritableDatabase T db) (hs : Sorts sort) {m : DMessage F} (hm : m ∈ db.messages) :
    List.Forall₂ (fun (s : DSignal F) l => SameMux (s.core T) l) (sort m.signals)
      (loadMux (fieldsOf T (sort m.signals))
        ((dictGet? (accum (fun o e => o.getD [] ++ [e]) [] (muxPairs T db)) (mid m)).getD [])) := by
  have hw := (W.messages m hm).muxed
  obtain ⟨fields, entries, h1, h2⟩ := C27_multiplexing_round_trip (db.messages.map fun m => m.signals.map (·.core T))
    (m.signals.map (·.core T)) (fun l => if l = m.signals.map (·.core T) then (sort m.signals).map (·.core T) else l)
    (fun l => by
      split
      · rename_i h; rw [h]; exact (hs _).map _
      · exact .refl _) (List.mem_map.2 ⟨m, hm, rfl⟩) hw
  rw [if_pos rfl] at h2
  unfold dumpMux at h1
  simp only [if_true] at h1
  rw [mapM_ok_map (g := fun s : Signal => ({ name := s.name, marker := muxMarker s } : MuxField)), ← extended_eq,
    dumpMuxEntries_eq] at h1
  · simp only [ok_bind2] at h1
    rw [mux_entries W hm]
    rw [List.forall₂_map_left_iff] at h2
    have : fields = fieldsOf T (sort m.signals) ∧ entries = if extendedMuxNeeded db = true then
        ((m.signals.map (·.core T)).filter fun s => !(s.multiplexerIds.getD []).isEmpty).map muxEntry else [] := by
      split at h1
      · rename_i h
        cases h1
        refine ⟨?_, by rw [if_pos h]⟩
        unfold fieldsOf
        rw [List.map_map]
        rfl
      · rename_i h
        cases h1
        refine ⟨?_, by rw [if_neg h]⟩
        unfold fieldsOf
        rw [List.map_map]
        rfl
    rw [← this.1, ← this.2]
    exact h2
  · intro s hs'
    rw [formatMux_eq]
    · rfl
    · obtain ⟨t, ht, rfl⟩ := List.mem_map.1 hs'
      exact hw.some_id _ (List.mem_map.2 ⟨t, (hs _).mem_iff.1 ht, rfl⟩)

/-! ### Signals -/

/-- What is read from the other sections. -/
def gotContext (T : FloatText F) (sortAttrs : List (DSignal F) → List (DSignal F)) (db : DDatabase F) : Context F :=
  { comments := gotComments sortAttrs db
    attributes := gotAttrs T sortAttrs (syncDefinitions T db) db
    definitions := gotDefs T (syncDefinitions T db)
    choices := accum last [] (choicePairs sortAttrs db)
    senders := accum (fun o l => o.getD [] ++
      l.map (nodeLongName T (gotAttrs T sortAttrs (syncDefinitions T db) db))) [] (senderPairs db)
    signalTypes := accum last [] (typePairs db)
    muxEntries := accum (fun o e => o.getD [] ++ [e]) [] (muxPairs T db)
    groups := accum (fun o e => o.getD [] ++ [e.2]) []
      (groupPairs T (gotAttrs T sortAttrs (syncDefinitions T db) db) db)
    busName := db.buses.head?.map (·.name) }

variable (L : FloatLaws T) (W : WritableDatabase T db)

include L in
theorem text_zero {n : Num F} (h : n.text T = ['0']) : n = .int 0 := by
  have h1 := num_text L n
  have h2 := num_text L (.int 0 : Num F)
  have : (Num.int 0 : Num F).text T = ['0'] := by
    show intText 0 = _
    decide +kernel
  rw [this] at h2
  rw [h, h2] at h1
  exact (Except.ok.inj h1).symm

include L in
theorem load_limits {a b : Option (Num F)} (h : a = none ↔ b = none) (h0 : ¬ (a = some (.int 0) ∧ b = some (.int 0))) :
    loadLimits T (limitText T a) (limitText T b) = .ok (a, b) := by
  unfold loadLimits
  cases a with
  | none =>
    rw [h.1 rfl, if_pos ⟨rfl, rfl⟩]
  | some x =>
    cases b with
    | none => cases h.2 rfl
    | some y =>
      refine (if_neg ?_).trans ?_
      rotate_left
      · simp only [limitText]
        rw [num_text L, num_text L]; rfl
      · simp only [limitText]
        rintro ⟨h1, h2⟩
        rw [h2] at h1
        exact h0 ⟨by rw [text_zero L h1], by rw [text_zero L h2]⟩

theorem sig_tree (s : SigE) : ∃ l, s.tree = .list
    [sk "SG_", .list (st s.name :: l), sk ":", st s.start, sk "|",
     st s.len, sk "@", st s.order, st [if s.signed then '-' else '+'], sk "(", st s.scale, sk ",", st s.offset, sk ")",
     sk "[", st s.lo, sk "|", st s.hi, sk "]", st s.unit.val, .list ((s.recv :: s.more).map st)] := by
  unfold SigE.tree
  cases s.mux <;> exact ⟨_, rfl⟩

theorem mapM_strs_cons (a : Chars) (l : List Chars) : (st a :: l.map st).mapM asStr = .ok (a :: l) :=
  mapM_strs (a :: l)

include L W in
/-- A signal is read as it was written, with its long name and those of its receivers. -/
theorem load_signal (hsa : Sorts sortAttrs) {m : DMessage F} (hm : m ∈ db.messages) {s : DSignal F} (hs : s ∈ m.signals)
    {mux : LoadedMux} (hmux : SameMux (s.core T) mux) :
    ∃ s', loadSignal T (gotContext T sortAttrs db) (mid m) (eSig T s).tree mux = .ok s' ∧
      SameSignal T (restoreSignal T db s) s' := by
  have hw := (W.messages m hm).signals s hs
  obtain ⟨ha, ⟨ini, hi1, hi2⟩, hspn⟩ := sig_loaded L W hm hs
  have hattr : (dictGet? (gotContext T sortAttrs db).attributes.signals (mid m, s.name)).getD [] = _ :=
    sig_attrs L W hsa hm hs
  have hcom : dictGet? (gotContext T sortAttrs db).comments.signals (mid m, s.name) = s.comment :=
    last_get (key := sid) (sids_nodup W hsa) (fun x => x.2.comment) (mem_sigPairs hsa hm hs)
  have hcho : dictGet? (gotContext T sortAttrs db).choices (mid m, s.name) = s.choices :=
    last_get (key := sid) (sids_nodup W hsa) (fun x => x.2.choices) (mem_sigPairs hsa hm hs)
  have htyp : dictGet? (gotContext T sortAttrs db).signalTypes (mid m, s.name) =
      if s.isFloat = true then some (if s.length = 32 then (1 : Int) else 2) else none :=
    last_get (key := sid) (sids_nodup (sort := id) W fun l => .refl l)
      (fun x => if x.2.isFloat = true then some (if x.2.length = 32 then (1 : Int) else 2) else none)
      (mem_sigPairs (fun l => .refl l) hm hs)
  unfold loadSignal
  obtain ⟨fl, hfl⟩ := sig_tree (eSig T s)
  rw [hfl]
  unfold eSig
  rd
  simp only [readInt_decimal, mapM_strs_cons, ok_bind2, hattr, hi1, num_text L, load_limits L hw.limits hw.noZeros, hcom, hcho, htyp]
  have : loadSpn (gotContext T sortAttrs db).definitions (loadedAttrs T (syncDefinitions T db) (syncStartValue T s)) = _ :=
    hspn
  rw [this]
  refine ⟨_, rfl, ?_⟩
  obtain ⟨hm1, hm2, hm3, hm4, hm5⟩ := hmux
  constructor
  case name =>
    show longName T systemSignal _ s.name = longName T systemSignal _ s.name
    unfold longName
    rw [ha systemSignal (by decide +kernel)]
  case start => exact Int.toNat_natCast _
  case length => exact Int.toNat_natCast _
  case byteOrder =>
    show (if _ then ByteOrder.big else .little) = s.byteOrder
    cases s.byteOrder <;> decide
  case isSigned =>
    show decide ([if s.isSigned = true then '-' else '+'] = ['-']) = s.isSigned
    cases s.isSigned <;> decide
  case scale => rfl
  case offset => rfl
  case isFloat =>
    show (decide (_ = some (1 : Int)) || decide (_ = some (2 : Int))) = s.isFloat
    cases s.isFloat with
    | false => rfl
    | true => simp only [if_true]; split <;> rfl
  case minimum => rfl
  case maximum => rfl
  case unit =>
    show (if s.unit.getD [] = [] then none else some (s.unit.getD [])) = s.unit
    cases hu : s.unit with
    | none => rfl
    | some u => rw [Option.getD_some, if_neg (hw.unit u hu).1]
  case receivers =>
    show (if (s.receivers.head?.getD vectorXXX :: s.receivers.tail) = [vectorXXX] then [] else
      (s.receivers.head?.getD vectorXXX :: s.receivers.tail)).map (nodeLongName T _) = s.receivers.map (restoreNode T db)
    have : (if (s.receivers.head?.getD vectorXXX :: s.receivers.tail) = [vectorXXX] then [] else
      (s.receivers.head?.getD vectorXXX :: s.receivers.tail)) = s.receivers := by
      have hv := hw.noVector
      cases hr : s.receivers with
      | nil => rfl
      | cons a r =>
        rw [hr] at hv
        exact if_neg hv
    rw [this]
    exact List.map_congr_left fun n _ => nodeLongName_eq L W n
  case comment => rfl
  case choices => rfl
  case isMultiplexer => exact hm2
  case multiplexerSignal =>
    show mux.multiplexerSignal.map (·.toList) = s.multiplexerSignal
    rw [hm3]
    show (s.multiplexerSignal.map String.ofList).map (·.toList) = _
    cases s.multiplexerSignal <;> simp
  case multiplexed =>
    show mux.multiplexerIds = none ↔ s.multiplexerIds = none
    constructor
    · intro h
      cases hids : s.multiplexerIds with
      | none => rfl
      | some ids =>
        obtain ⟨ids', h1, -⟩ := hm5 ids hids
        rw [h] at h1; cases h1
    · exact hm4
  case ids =>
    intro i
    show i ∈ mux.multiplexerIds.getD [] ↔ i ∈ s.multiplexerIds.getD []
    cases hids : s.multiplexerIds with
    | none => rw [hm4 hids]
    | some ids =>
      obtain ⟨ids', h1, h2⟩ := hm5 ids hids
      rw [h1]
      exact h2 i
  case initial => exact hi2
  case spn => rfl
  case attributes =>
    intro k hk
    exact ha k (by
      simp only [List.mem_cons, List.not_mem_nil, or_false, not_or] at hk ⊢
      exact hk.1)

end Cantools.Dbc
