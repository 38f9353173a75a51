import Verif.Lemmas.DbcWritten

/-
The written database is one a DBC file keeps, and reading it restores the names.
-/

namespace Cantools.Dbc
open Cantools Spec

variable {F : Type} {T : FloatText F} {db : DDatabase F} {shorten : Bool}

/-! ### Attributes -/

theorem shortAttrs_get {sys k : Chars} (hk : k ≠ sys) (d : AttrDef F) (new old : Chars) (as : Attrs F) :
    dictGet? (shortAttrs sys d new old as) k = dictGet? as k := by
  unfold shortAttrs
  split
  · rw [dictGet?_pop, if_neg hk]
  · rw [dictGet?_set, if_neg (Ne.symm hk), dictGet?_pop, if_neg hk]

theorem shortAttrs_sys (sys : Chars) (d : AttrDef F) (new old : Chars) (as : Attrs F) :
    dictGet? (shortAttrs sys d new old as) sys = if new = old then none else some { value := .str old, definition := d } := by
  unfold shortAttrs
  split
  · rw [dictGet?_pop, if_pos rfl]
  · rw [dictGet?_set, if_pos rfl]

theorem longName_short (T : FloatText F) (sys : Chars) (d : AttrDef F) (new old : Chars) (as : Attrs F) :
    longName T sys (shortAttrs sys d new old as) new = old := by
  unfold longName
  rw [shortAttrs_sys]
  by_cases h : new = old
  · rw [if_pos h]; exact h
  · rw [if_neg h]; rfl

theorem shortAttrs_same (sys : Chars) (d : AttrDef F) (new old : Chars) (as : Attrs F) :
    SameBut [sys] as (shortAttrs sys d new old as) := by
  intro k hk
  exact shortAttrs_get (by simpa using hk) d new old as

/-! ### Definitions -/

/-- The attributes for long names. -/
def sysNames : List Chars := [systemNode, systemMessage, systemSignal, systemEnvvar]

theorem defs_other {k : Chars} (hk : k ∉ sysNames) : dictGet? (writtenDefs shorten db) k = dictGet? db.definitions k := by
  unfold sysNames at hk
  simp only [List.mem_cons, List.not_mem_nil, or_false, not_or] at hk
  unfold writtenDefs
  rw [addDef_get, if_neg (fun x => hk.2.2.2 x.2.1), addDef_get, if_neg (fun x => hk.2.2.1 x.2.1), addDef_get,
    if_neg (fun x => hk.2.1 x.2.1), addDef_get, if_neg (fun x => hk.1 x.2.1)]

theorem addDef_kept {need : Bool} {x d : AttrDef F} {defs : Defs F} {k : Chars} (hd : dictGet? defs k = some d) :
    dictGet? (addDef need x defs) k = some d := by
  rw [addDef_get, if_neg]
  · exact hd
  · rintro ⟨-, rfl, hn⟩
    rw [hn] at hd
    cases hd

theorem defs_kept {k : Chars} {d : AttrDef F} (h : dictGet? db.definitions k = some d) :
    dictGet? (writtenDefs shorten db) k = some d := by
  unfold writtenDefs
  exact addDef_kept (addDef_kept (addDef_kept (addDef_kept h)))

theorem addDef_new {d : AttrDef F} {defs : Defs F} : dictGet? (addDef true d defs) d.name = some (sysDefOf defs d) := by
  rw [addDef_get]
  unfold sysDefOf
  cases h : dictGet? defs d.name with
  | none => rw [if_pos ⟨rfl, rfl, rfl⟩]; rfl
  | some x => rw [if_neg (by simp)]; rfl

theorem defs_node (h : changes shorten (nodeNames db) (nodeNames db) = true) :
    dictGet? (writtenDefs shorten db) systemNode = some (sysDefOf db.definitions (longSymbolDef systemNode "BU_")) := by
  unfold writtenDefs
  rw [h]
  exact addDef_kept (addDef_kept (addDef_kept addDef_new))

theorem defs_message (h : changes shorten (messageNames db) (messageNames db) = true) :
    dictGet? (writtenDefs shorten db) systemMessage =
      some (sysDefOf db.definitions (longSymbolDef systemMessage "BO_")) := by
  unfold writtenDefs
  rw [h]
  refine addDef_kept (addDef_kept (addDef_new.trans ?_))
  rw [sysDefOf_other _ (by sysne)]

theorem defs_signal (h : db.messages.any (sigChanges shorten) = true) :
    dictGet? (writtenDefs shorten db) systemSignal =
      some (sysDefOf db.definitions (longSymbolDef systemSignal "SG_")) := by
  unfold writtenDefs
  rw [h]
  refine addDef_kept (addDef_new.trans ?_)
  rw [sysDefOf_other _ (by sysne), sysDefOf_other _ (by sysne)]

theorem defs_envvar (h : changes shorten (envvarNames db) (envvarNames db) = true) :
    dictGet? (writtenDefs shorten db) systemEnvvar =
      some (sysDefOf db.definitions (longSymbolDef systemEnvvar "EV_")) := by
  unfold writtenDefs
  rw [h]
  refine addDef_new.trans ?_
  rw [sysDefOf_other _ (by sysne), sysDefOf_other _ (by sysne), sysDefOf_other _ (by sysne)]

theorem changes_of {names : List Chars} {n : Chars} (hn : n ∈ names) (h : ren shorten names n ≠ n) :
    changes shorten names names = true := by
  unfold changes
  rw [List.any_eq_true]
  exact ⟨n, hn, by simpa using h⟩

theorem longSymbolDef_writable {name : Chars} (hn : PlainText name) {kind : String}
    (hk : kind = "BU_" ∨ kind = "BO_" ∨ kind = "SG_" ∨ kind = "EV_") : WritableDef (longSymbolDef (F := F) name kind) where
  name := hn
  kind := by
    rcases hk with rfl | rfl | rfl | rfl <;> simp [longSymbolDef]
  type := by simp [longSymbolDef]
  default := by
    intro v hv
    simp only [longSymbolDef, Option.some.injEq] at hv
    subst hv
    exact ⟨.inl rfl, plain_nil⟩
  limits := .inl ⟨rfl, rfl⟩
  choices := by intro c hc; simp [longSymbolDef] at hc
  enum := by intro h; exact absurd rfl h

theorem defs_writable (W : WritableDatabase T db) : ((writtenDefs shorten db).map (·.1)).Nodup ∧
    ∀ e ∈ writtenDefs shorten db, e.1 = e.2.name ∧ WritableDef e.2 := by
  unfold writtenDefs
  refine addDef_all _ ⟨rfl, longSymbolDef_writable (by plain) (by simp)⟩ ?_
  refine addDef_all _ ⟨rfl, longSymbolDef_writable (by plain) (by simp)⟩ ?_
  refine addDef_all _ ⟨rfl, longSymbolDef_writable (by plain) (by simp)⟩ ?_
  refine addDef_all _ ⟨rfl, longSymbolDef_writable (by plain) (by simp)⟩ ?_
  exact ⟨W.definitionNames, W.definitions⟩

/-- The definition used for a long name. -/
theorem sysDefOf_kind {name : Chars} {kind : String} (h : DefinedAs db.definitions name (some kind) ["STRING"]) :
    (sysDefOf db.definitions (longSymbolDef name kind)).kind = some kind ∧
      (sysDefOf db.definitions (longSymbolDef name kind)).typeName = some "STRING" := by
  unfold sysDefOf
  cases hd : dictGet? db.definitions (longSymbolDef (F := F) name kind).name with
  | none => exact ⟨rfl, rfl⟩
  | some d =>
    obtain ⟨h1, t, h2, h3⟩ := h d hd
    simp only [List.mem_singleton] at h2
    subst h2
    exact ⟨h1, h3⟩

theorem name_plain {n : Chars} (h : Name n) : PlainText n := by
  obtain ⟨⟨h1, h2, -⟩, -⟩ := h
  refine ⟨fun hq => ?_, fun hl => ?_⟩
  · exact absurd (h2 _ hq) (by decide)
  · exact absurd (h2 _ (List.mem_of_getLast? hl)) (by decide)

theorem shortAttrs_writable {sys : Chars} {kind : String} {d : AttrDef F} {new old : Chars} {as : Attrs F}
    (h : WritableAttrs db.definitions (some kind) as)
    (hd : new ≠ old → dictGet? (writtenDefs shorten db) sys = some d ∧ d.kind = some kind ∧ d.typeName = some "STRING")
    (hn : PlainText old) : WritableAttrs (writtenDefs shorten db) (some kind) (shortAttrs sys d new old as) := by
  have hmem : ∀ e ∈ shortAttrs sys d new old as, e ∈ as ∨
      new ≠ old ∧ e = (sys, { value := .str old, definition := d }) := by
    intro e he
    unfold shortAttrs at he
    split at he
    · exact .inl (mem_dictPop he).1
    · rename_i hne
      rcases mem_dictSet he with rfl | he
      · exact .inr ⟨hne, rfl⟩
      · exact .inl (mem_dictPop he).1
  refine ⟨?_, ?_, ?_⟩
  · unfold shortAttrs
    split
    · exact dictPop_nodup _ h.nodup
    · exact dictSet_nodup _ _ (dictPop_nodup _ h.nodup)
  · intro e he
    rcases hmem e he with he | ⟨hne, rfl⟩
    · obtain ⟨h1, h2⟩ := h.defined e he
      exact ⟨defs_kept h1, h2⟩
    · exact ⟨(hd hne).1, (hd hne).2.1⟩
  · intro e he
    rcases hmem e he with he | ⟨hne, rfl⟩
    · exact h.typed e he
    · exact ⟨(hd hne).2.2, hn⟩

/-! ### The names -/

theorem ren_shorten {names : List Chars} {n : Chars} (h : ren shorten names n ≠ n) : shorten = true := by
  cases shorten
  · exact absurd rfl h
  · rfl

theorem ren_eq_short {names : List Chars} (hnd : names.Nodup) {n v : Chars} (hv : v.length < 32)
    (h : ren shorten names n = v) : n = v := by
  by_contra hc
  have : ren shorten names n ≠ n := fun e => hc (e.symm.trans h)
  have := (ren_long hnd this).2.2.1
  rw [h] at this
  omega

theorem envvarNames_nodup (W : WritableDatabase T db) : (envvarNames db).Nodup := by
  unfold envvarNames
  rw [← List.map_congr_left fun e he => (W.envvars e he).key]; exact W.envvarNames

theorem signalNames_nodup (W : WritableDatabase T db) {m : DMessage F} (hm : m ∈ db.messages) : (signalNames m).Nodup :=
  names_nodup (W.messages m hm).muxed

variable (W : WritableDatabase T db) (K : shorten = true → KeptNames db)

include W in
/-- The long name of a node is found again. -/
theorem restoreNode_ren {n : Chars} (hn : shorten = true → n ∈ nodeNames db ∨ n.length < 32) :
    restoreNode T (writtenDb shorten db) (ren shorten (nodeNames db) n) = n := by
  have hnd : (nodeNames db).Nodup := W.nodeNames
  unfold restoreNode
  show longName T systemNode ((dictGet? ((db.nodes.map (shortNode shorten (nodeNames db) db.definitions)).map
    fun x => (x.name, x.attributes)) _).getD []) _ = n
  rw [List.map_map]
  have hkeys : (db.nodes.map ((fun x : DNode F => (x.name, x.attributes)) ∘
      shortNode shorten (nodeNames db) db.definitions)).map (·.1) =
      (nodeNames db).map (ren shorten (nodeNames db)) := by
    unfold nodeNames
    rw [List.map_map, List.map_map]; rfl
  by_cases h : n ∈ nodeNames db
  · obtain ⟨x, hx, rfl⟩ := List.mem_map.1 h
    have h1 := dictGet?_of_mem (d := db.nodes.map ((fun x : DNode F => (x.name, x.attributes)) ∘
      shortNode shorten (nodeNames db) db.definitions)) (k := ren shorten (nodeNames db) x.name)
      (v := (shortNode shorten (nodeNames db) db.definitions x).attributes)
      (by rw [hkeys]; exact ren_map_nodup hnd) (List.mem_map.2 ⟨x, hx, rfl⟩)
    rw [h1]
    exact longName_short T _ _ _ _ _
  · rw [ren_other hnd h]
    have h1 : dictGet? (db.nodes.map ((fun x : DNode F => (x.name, x.attributes)) ∘
        shortNode shorten (nodeNames db) db.definitions)) n = none := by
      rw [dictGet?_eq_none_iff, hkeys]
      intro hm
      obtain ⟨y, hy, he⟩ := List.mem_map.1 hm
      by_cases hyy : ren shorten (nodeNames db) y = y
      · rw [← he, hyy] at h; exact h hy
      · have hl := (hn (ren_shorten hyy)).resolve_left h
        have := (ren_long hnd hyy).2.2.1
        rw [he] at this
        omega
    rw [h1]
    rfl

include W K in
theorem restore_receivers {m : DMessage F} (hm : m ∈ db.messages) {s : DSignal F} (hs : s ∈ m.signals) :
    (s.receivers.map (ren shorten (nodeNames db))).map (restoreNode T (writtenDb shorten db)) = s.receivers := by
  rw [List.map_map]
  conv_rhs => rw [← List.map_id s.receivers]
  apply List.map_congr_left
  intro n hn
  exact restoreNode_ren W fun h => (K h).receivers m hm s hs n hn

include W K in
theorem restore_senders {m : DMessage F} (hm : m ∈ db.messages) :
    (m.senders.map (ren shorten (nodeNames db))).map (restoreNode T (writtenDb shorten db)) = m.senders := by
  rw [List.map_map]
  conv_rhs => rw [← List.map_id m.senders]
  apply List.map_congr_left
  intro n hn
  exact restoreNode_ren W fun h => (K h).senders m hm n hn

/-- A signal with the attributes of its written form. -/
def keptSig (shorten : Bool) (db : DDatabase F) (m : DMessage F) (s : DSignal F) : DSignal F :=
  { s with attributes := (writtenSig shorten db m s).attributes }

include W K in
theorem restoreSignal_eq {m : DMessage F} (hm : m ∈ db.messages) {s : DSignal F} (hs : s ∈ m.signals) :
    restoreSignal T (writtenDb shorten db) (writtenSig shorten db m s) = keptSig shorten db m s := by
  unfold restoreSignal
  have h1 : longName T systemSignal (writtenSig shorten db m s).attributes (writtenSig shorten db m s).name = s.name :=
    longName_short T _ _ _ _ _
  have h2 : (writtenSig shorten db m s).receivers.map (restoreNode T (writtenDb shorten db)) = s.receivers :=
    restore_receivers W K hm hs
  rw [h1, h2]
  rfl

include W K in
theorem restoreSignals_eq {m : DMessage F} (hm : m ∈ db.messages) :
    (writtenMsg shorten db m).signals.map (restoreSignal T (writtenDb shorten db)) =
      m.signals.map (keptSig shorten db m) := by
  show (m.signals.map (writtenSig shorten db m)).map _ = _
  rw [List.map_map]
  exact List.map_congr_left fun s hs => restoreSignal_eq W K hm hs

include W in
theorem restoreSigName_ren {m : DMessage F} (hm : m ∈ db.messages) {n : Chars} (hn : n ∈ signalNames m) :
    restoreSigName T (writtenMsg shorten db m) (ren shorten (signalNames m) n) = n := by
  obtain ⟨s, hs, rfl⟩ := List.mem_map.1 hn
  unfold restoreSigName
  have h1 := dictGet?_of_mem (d := (writtenMsg shorten db m).signals.map fun s => (s.name, s.attributes))
    (k := ren shorten (signalNames m) s.name) (v := (writtenSig shorten db m s).attributes) (by
      have : ((writtenMsg shorten db m).signals.map fun s => (s.name, s.attributes)).map (·.1) =
          (signalNames m).map (ren shorten (signalNames m)) := by
        show ((m.signals.map (writtenSig shorten db m)).map fun s => (s.name, s.attributes)).map (·.1) = _
        unfold signalNames
        rw [List.map_map, List.map_map, List.map_map]; rfl
      rw [this]
      exact ren_map_nodup (signalNames_nodup W hm))
    (List.mem_map.2 ⟨writtenSig shorten db m s, List.mem_map.2 ⟨s, hs, rfl⟩, rfl⟩)
  rw [h1]
  exact longName_short T _ _ _ _ _

/-- A message with the attributes of its written form. -/
def keptMsg (shorten : Bool) (db : DDatabase F) (m : DMessage F) : DMessage F :=
  { m with
    signals := m.signals.map (keptSig shorten db m)
    attributes := (writtenMsg shorten db m).attributes }

include W K in
theorem restoreMessage_eq {m : DMessage F} (hm : m ∈ db.messages) :
    restoreMessage T (writtenDb shorten db) (writtenMsg shorten db m) = keptMsg shorten db m := by
  unfold restoreMessage
  have h1 : longName T systemMessage (writtenMsg shorten db m).attributes (writtenMsg shorten db m).name = m.name :=
    longName_short T _ _ _ _ _
  have h2 : (writtenMsg shorten db m).senders.map (restoreNode T (writtenDb shorten db)) = m.senders :=
    restore_senders W K hm
  have h3 : ((writtenMsg shorten db m).signalGroups.map fun gs => gs.map (restoreGroup T (writtenMsg shorten db m))) =
      m.signalGroups := by
    show ((m.signalGroups.map _).map _) = _
    cases hgs : m.signalGroups with
    | none => rfl
    | some gs =>
      simp only [Option.map_some, List.map_map]
      congr 1
      conv_rhs => rw [← List.map_id gs]
      apply List.map_congr_left
      intro g hg
      unfold restoreGroup
      simp only [Function.comp, List.map_map]
      have : g.signalNames.map (restoreSigName T (writtenMsg shorten db m) ∘ ren shorten (signalNames m)) =
          g.signalNames := by
        conv_rhs => rw [← List.map_id g.signalNames]
        apply List.map_congr_left
        intro n hn
        exact restoreSigName_ren W hm (((W.messages m hm).groups gs hgs).2 g hg |>.2 n hn)
      rw [this]
      rfl
  rw [h1, h2, h3, restoreSignals_eq W K hm]
  rfl

/-! ### The written database can be written -/

theorem vector_length : vectorXXX.length < 32 := by decide +kernel

include K in
theorem written_signal {m : DMessage F} (hm : m ∈ db.messages) {s : DSignal F} (hs : s ∈ m.signals) (W : WritableDatabase T db) :
    WritableSignal (writtenDb shorten db) (writtenSig shorten db m s) := by
  have hw := (W.messages m hm).signals s hs
  have hnd := signalNames_nodup W hm
  constructor
  case name => exact ren_name hnd hw.name
  case float => exact hw.float
  case limits => exact hw.limits
  case noZeros => exact hw.noZeros
  case unit => exact hw.unit
  case receivers =>
    intro r hr
    obtain ⟨n, hn, rfl⟩ := List.mem_map.1 hr
    exact ren_name W.nodeNames (hw.receivers n hn)
  case noVector =>
    intro h
    have h : s.receivers.map (ren shorten (nodeNames db)) = [vectorXXX] := h
    obtain ⟨a, ha, hb⟩ := List.map_eq_singleton_iff.1 h
    have := ren_eq_short (names := nodeNames db) W.nodeNames vector_length hb
    rw [this] at ha
    exact hw.noVector ha
  case comment => exact hw.comment
  case choices => exact hw.choices
  case ids => exact hw.ids
  case parent => exact hw.parent
  case initial =>
    intro n hn d hd
    have hd : dictGet? (writtenDefs shorten db) genSigStartValue = some d := hd
    rw [defs_other (by decide +kernel)] at hd
    exact hw.initial n hn d hd
  case attributes =>
    refine shortAttrs_writable hw.attributes (fun h => ?_) (name_plain hw.name)
    have hk := sysDefOf_kind (K (ren_shorten h)).signal
    refine ⟨defs_signal ?_, hk.1, hk.2⟩
    rw [List.any_eq_true]
    exact ⟨m, hm, changes_of (List.mem_map.2 ⟨s, hs, rfl⟩) h⟩
  case spn =>
    have h0 := hw.spn
    have h1 : dictGet? (writtenSig shorten db m s).attributes spnName = dictGet? s.attributes spnName :=
      shortAttrs_get (by decide +kernel) _ _ _ _
    have h2 : dictGet? (writtenDb shorten db).definitions spnName = dictGet? db.definitions spnName :=
      defs_other (by decide +kernel)
    unfold SpnOf at h0 ⊢
    unfold spnName at h1 h2
    rw [h1, h2]
    exact h0

include K in
theorem written_muxed {m : DMessage F} (hm : m ∈ db.messages) (W : WritableDatabase T db) :
    WellMuxed ((writtenMsg shorten db m).signals.map (·.core T)) := by
  have hw := (W.messages m hm).muxed
  have hnd := signalNames_nodup W hm
  have hmem : ∀ x ∈ (writtenMsg shorten db m).signals.map (·.core T), ∃ s ∈ m.signals,
      x = (writtenSig shorten db m s).core T := by
    intro x hx
    obtain ⟨y, hy, rfl⟩ := List.mem_map.1 hx
    obtain ⟨s, hs, rfl⟩ := List.mem_map.1 hy
    exact ⟨s, hs, rfl⟩
  refine ⟨?_, ?_, ?_, ?_⟩
  · have : ((writtenMsg shorten db m).signals.map (·.core T)).map (·.name) =
        ((signalNames m).map (ren shorten (signalNames m))).map String.ofList := by
      show ((m.signals.map (writtenSig shorten db m)).map (·.core T)).map (·.name) = _
      unfold signalNames
      rw [List.map_map, List.map_map, List.map_map, List.map_map]; rfl
    rw [this]
    exact (ren_map_nodup hnd).map fun a b h => String.ofList_injective h
  · intro x hx
    obtain ⟨s, hs, rfl⟩ := hmem x hx
    exact hw.both (s.core T) (List.mem_map.2 ⟨s, hs, rfl⟩)
  · intro x hx
    obtain ⟨s, hs, rfl⟩ := hmem x hx
    exact hw.some_id (s.core T) (List.mem_map.2 ⟨s, hs, rfl⟩)
  · intro x hx n hn
    obtain ⟨s, hs, rfl⟩ := hmem x hx
    obtain ⟨p, hp, h1, h2, h3⟩ := hw.parent (s.core T) (List.mem_map.2 ⟨s, hs, rfl⟩) n hn
    obtain ⟨q, hq, rfl⟩ := List.mem_map.1 hp
    have hqs : q.name ≠ s.name := by
      intro he
      have := List.inj_on_of_nodup_map hnd hq hs he
      rw [this] at h2
      exact h2 rfl
    have hkeep : ren shorten (signalNames m) q.name = q.name := by
      by_contra hc
      have hl := (ren_long hnd hc).2.1
      have hn' : s.multiplexerSignal.map String.ofList = some n := hn
      obtain ⟨k, hk, hk2⟩ := Option.map_eq_some_iff.1 hn'
      have := (K (ren_shorten hc)).selectors m hm s hs k hk
      have he : k = q.name := String.ofList_injective (hk2.trans h1.symm)
      rw [he] at this
      omega
    refine ⟨(writtenSig shorten db m q).core T,
      List.mem_map.2 ⟨_, List.mem_map.2 ⟨q, hq, rfl⟩, rfl⟩, ?_, ?_, h3⟩
    · show String.ofList (ren shorten (signalNames m) q.name) = n
      rw [hkeep]; exact h1
    · intro he
      have : String.ofList (ren shorten (signalNames m) q.name) = String.ofList (ren shorten (signalNames m) s.name) :=
        congrArg Signal.name he
      exact hqs (ren_inj hnd (List.mem_map.2 ⟨q, hq, rfl⟩) (List.mem_map.2 ⟨s, hs, rfl⟩) (String.ofList_injective this))

include K in
theorem written_message {m : DMessage F} (hm : m ∈ db.messages) (W : WritableDatabase T db) :
    WritableMessage T (writtenDb shorten db) (writtenMsg shorten db m) := by
  have hw := W.messages m hm
  have hdef : ∀ k, k ∉ sysNames → dictGet? (writtenDb shorten db).definitions k = dictGet? db.definitions k :=
    fun k hk => defs_other hk
  have hatt : ∀ k, k ≠ systemMessage → dictGet? (writtenMsg shorten db m).attributes k = dictGet? m.attributes k :=
    fun k hk => shortAttrs_get hk _ _ _ _
  constructor
  case id => exact hw.id
  case name => exact ren_name W.names hw.name
  case kept =>
    intro h
    exact hw.kept (ren_eq_short (names := messageNames db) W.names (by decide +kernel) h)
  case senders =>
    intro x hx
    obtain ⟨n, hn, rfl⟩ := List.mem_map.1 hx
    refine ⟨ren_name W.nodeNames (hw.senders n hn).1, fun h => (hw.senders n hn).2 ?_⟩
    exact ren_eq_short (names := nodeNames db) W.nodeNames vector_length h
  case distinct =>
    have := hw.distinct
    rw [← restore_senders W K hm] at this
    exact List.Nodup.of_map _ this
  case comment => exact hw.comment
  case muxed => exact written_muxed K hm W
  case signals =>
    intro x hx
    obtain ⟨s, hs, rfl⟩ := List.mem_map.1 hx
    exact written_signal K hm hs W
  case groups =>
    intro gs hgs
    have hgs : m.signalGroups.map _ = some gs := hgs
    obtain ⟨gs', h1, rfl⟩ := Option.map_eq_some_iff.1 hgs
    obtain ⟨h2, h3⟩ := hw.groups gs' h1
    refine ⟨by simpa using h2, ?_⟩
    intro g hg
    obtain ⟨g', hg', rfl⟩ := List.mem_map.1 hg
    refine ⟨(h3 g' hg').1, ?_⟩
    intro n hn
    obtain ⟨n', hn', rfl⟩ := List.mem_map.1 hn
    obtain ⟨s, hs, rfl⟩ := List.mem_map.1 ((h3 g' hg').2 n' hn')
    exact List.mem_map.2 ⟨writtenSig shorten db m s, List.mem_map.2 ⟨s, hs, rfl⟩, rfl⟩
  case attributes =>
    refine shortAttrs_writable hw.attributes (fun h => ?_) (name_plain hw.name)
    have hk := sysDefOf_kind (K (ren_shorten h)).message
    exact ⟨defs_message (changes_of (List.mem_map.2 ⟨m, hm, rfl⟩) h), hk.1, hk.2⟩
  case sendType =>
    have h0 := hw.sendType
    unfold SendTypeOf at h0 ⊢
    rw [hdef _ (by decide +kernel), hatt _ (by decide +kernel)]
    exact h0
  case cycleTime =>
    intro n hn
    have := hw.cycleTime n hn
    rw [hdef _ (by decide +kernel)]
    exact this
  case format =>
    have h1 : frameFormat (writtenMsg shorten db m) = frameFormat m := rfl
    have h2 : busIsCanFd (writtenDb shorten db) = busIsCanFd db := rfl
    have := hw.format
    unfold WritableFormat at this ⊢
    rw [h1, h2, hdef _ (by decide +kernel), hatt _ (by decide +kernel)]
    exact this
  case bus => exact hw.bus

include K in
theorem written_writable (W : WritableDatabase T db) : WritableDatabase T (writtenDb shorten db) := by
  have hdef : ∀ k, k ∉ sysNames → dictGet? (writtenDb shorten db).definitions k = dictGet? db.definitions k :=
    fun k hk => defs_other hk
  constructor
  case messages =>
    intro x hx
    obtain ⟨m, hm, rfl⟩ := List.mem_map.1 hx
    exact written_message K hm W
  case ids =>
    show ((db.messages.map (writtenMsg shorten db)).map fun m => (m.frameId, m.isExtendedFrame)).Nodup
    rw [List.map_map]
    exact W.ids
  case names =>
    show ((db.messages.map (writtenMsg shorten db)).map (·.name)).Nodup
    have := ren_map_nodup (shorten := shorten) (names := messageNames db) W.names
    unfold messageNames at this
    rw [List.map_map] at this
    rw [List.map_map]
    exact this
  case nodes =>
    intro x hx
    obtain ⟨n, hn, rfl⟩ := List.mem_map.1 hx
    have hw := W.nodes n hn
    refine ⟨ren_name W.nodeNames hw.name, hw.comment, ?_⟩
    refine shortAttrs_writable hw.attributes (fun h => ?_) (name_plain hw.name)
    have hk := sysDefOf_kind (K (ren_shorten h)).node
    exact ⟨defs_node (changes_of (List.mem_map.2 ⟨n, hn, rfl⟩) h), hk.1, hk.2⟩
  case nodeNames =>
    show ((db.nodes.map (shortNode shorten (nodeNames db) db.definitions)).map (·.name)).Nodup
    have := ren_map_nodup (shorten := shorten) (names := nodeNames db) W.nodeNames
    unfold nodeNames at this
    rw [List.map_map] at this
    rw [List.map_map]
    exact this
  case version => exact W.version
  case buses =>
    rcases W.buses with h | ⟨b, hb, hw⟩
    · exact .inl h
    · exact .inr ⟨b, hb, ⟨hw.name, hw.comment, hw.something⟩⟩
  case attributes =>
    exact ⟨W.attributes.nodup, fun e he => ⟨defs_kept (W.attributes.defined e he).1, (W.attributes.defined e he).2⟩,
      W.attributes.typed⟩
  case definitions => exact (defs_writable W).2
  case definitionNames => exact (defs_writable W).1
  case cycleTime =>
    intro d hd
    rw [hdef _ (by decide +kernel)] at hd
    exact W.cycleTime d hd
  case startValue =>
    intro d hd
    rw [hdef _ (by decide +kernel)] at hd
    exact W.startValue d hd
  case baudrate =>
    intro d hd
    rw [hdef _ (by decide +kernel)] at hd
    exact W.baudrate d hd
  case format =>
    intro d hd
    rw [hdef _ (by decide +kernel)] at hd
    exact W.format d hd
  case envvars =>
    intro x hx
    obtain ⟨e, he, rfl⟩ := List.mem_map.1 hx
    have hw := W.envvars e he
    refine ⟨rfl, ren_name (envvarNames_nodup W) hw.name, hw.unit, hw.access, hw.comment, ?_⟩
    refine shortAttrs_writable hw.attributes (fun h => ?_) (name_plain hw.name)
    have hk := sysDefOf_kind (K (ren_shorten h)).envvar
    exact ⟨defs_envvar (changes_of (List.mem_map.2 ⟨e, he, rfl⟩) h), hk.1, hk.2⟩
  case envvarNames =>
    show ((db.envvars.map (writtenEnv shorten db)).map (·.1)).Nodup
    have := ren_map_nodup (shorten := shorten) (envvarNames_nodup W)
    unfold envvarNames at this
    rw [List.map_map] at this
    rw [List.map_map]
    exact this
  case tables => exact W.tables
  case tableNames => exact W.tableNames

/-! ### The names are restored -/

/-- The messages of a database can be constructed. -/
def Constructible (T : FloatText F) (strict : Bool) (db : DDatabase F) : Prop :=
  ∀ m ∈ db.messages, (∀ s ∈ m.signals, 0 < s.length) ∧
    (strict = true → ValidLayout m.length (m.signals.map (·.core T)))

theorem keptSig_core (m : DMessage F) (s : DSignal F) : (keptSig shorten db m s).core T = s.core T := rfl

theorem restoreEnvvar_eq (e : Chars × DEnvvar F) : restoreEnvvar T (writtenEnv shorten db e) =
    (e.2.name, { e.2 with attributes := (writtenEnv shorten db e).2.attributes }) := by
  unfold restoreEnvvar
  have : longName T systemEnvvar (writtenEnv shorten db e).2.attributes (writtenEnv shorten db e).2.name = e.2.name :=
    longName_short T _ _ _ _ _
  rw [this]
  rfl

include K in
theorem written_restorable (W : WritableDatabase T db) {strict : Bool} (C : Constructible T strict db) :
    Restorable T (writtenDb shorten db) strict := by
  constructor
  case vector =>
    have := restoreNode_ren (shorten := shorten) W (n := vectorXXX) fun _ => .inr vector_length
    rw [ren_short (names := nodeNames db) W.nodeNames (n := vectorXXX) (by have := vector_length; omega)] at this
    exact this
  case senders =>
    intro x hx
    obtain ⟨m, hm, rfl⟩ := List.mem_map.1 hx
    have : (writtenMsg shorten db m).senders.map (restoreNode T (writtenDb shorten db)) = m.senders :=
      restore_senders W K hm
    rw [this]
    exact ⟨(W.messages m hm).distinct, fun h => ((W.messages m hm).senders _ h).2 rfl⟩
  case envvars =>
    show (((db.envvars.map (writtenEnv shorten db)).map (restoreEnvvar T)).map (·.1)).Nodup
    rw [List.map_map, List.map_map]
    have : db.envvars.map (((fun x : Chars × DEnvvar F => x.1) ∘ restoreEnvvar T) ∘ writtenEnv shorten db) =
        envvarNames db := by
      unfold envvarNames
      apply List.map_congr_left
      intro e _
      simp only [Function.comp, restoreEnvvar_eq]
    rw [this]
    exact envvarNames_nodup W
  case names =>
    intro x hx
    obtain ⟨m, hm, rfl⟩ := List.mem_map.1 hx
    rw [restoreSignals_eq W K hm, List.map_map]
    exact signalNames_nodup W hm
  case lengths =>
    intro x hx s hs
    obtain ⟨m, hm, rfl⟩ := List.mem_map.1 hx
    obtain ⟨s, hs', rfl⟩ := List.mem_map.1 hs
    exact (C m hm).1 s hs'
  case layout =>
    intro h x hx
    obtain ⟨m, hm, rfl⟩ := List.mem_map.1 hx
    rw [restoreSignals_eq W K hm, List.map_map]
    exact (C m hm).2 h

/-! ### What is kept -/

theorem same_trans {α : Type} {a b c : List (Chars × α)} {k l : List Chars} (h1 : SameBut k a b) (h2 : SameBut l b c)
    (hk : ∀ x ∈ k, x ∈ l) : SameBut l a c := by
  intro n hn
  rw [h2 n hn, h1 n fun h => hn (hk n h)]

theorem forall₂_comp {α β γ : Type} {R : α → β → Prop} {S : β → γ → Prop} {Q : α → γ → Prop} {a : List α} {b : List β}
    {c : List γ} (h1 : List.Forall₂ R a b) (h2 : List.Forall₂ S b c) (h : ∀ x y z, R x y → S y z → Q x z) :
    List.Forall₂ Q a c := by
  induction h1 generalizing c with
  | nil => cases h2; exact .nil
  | cons hr _ ih => cases h2 with
    | cons hs ht => exact .cons (h _ _ _ hr hs) (ih ht)

theorem same_signal {m : DMessage F} {s b : DSignal F} (h : SameSignal T (keptSig shorten db m s) b) : SameSignal T s b where
  name := h.name
  start := h.start
  length := h.length
  byteOrder := h.byteOrder
  isSigned := h.isSigned
  scale := h.scale
  offset := h.offset
  isFloat := h.isFloat
  minimum := h.minimum
  maximum := h.maximum
  unit := h.unit
  receivers := h.receivers
  comment := h.comment
  choices := h.choices
  isMultiplexer := h.isMultiplexer
  multiplexerSignal := h.multiplexerSignal
  multiplexed := h.multiplexed
  ids := h.ids
  initial := h.initial
  spn := h.spn
  attributes := same_trans (shortAttrs_same _ _ _ _ _) h.attributes (by simp)

theorem same_message {m b : DMessage F} (h : SameMessage T (keptMsg shorten db m) b) : SameMessage T m b where
  frameId := h.frameId
  isExtendedFrame := h.isExtendedFrame
  name := h.name
  length := h.length
  senders := h.senders
  sendType := h.sendType
  cycleTime := h.cycleTime
  comment := h.comment
  protocol := h.protocol
  busName := h.busName
  isFd := h.isFd
  signalGroups := h.signalGroups
  attributes := same_trans (shortAttrs_same _ _ _ _ _) h.attributes (by simp)
  signals := by
    obtain ⟨l, h1, h2⟩ := h.signals
    have h1 : l.Perm (m.signals.map (keptSig shorten db m)) := h1
    obtain ⟨l', h3, h4⟩ := forall₂_perm (l := m.signals) (k := m.signals.map (keptSig shorten db m))
      (R := fun s x => x = keptSig shorten db m s)
      (by rw [List.forall₂_map_right_iff, List.forall₂_same]; exact fun _ _ => rfl) h1
    refine ⟨l', h3, forall₂_comp h4 h2 ?_⟩
    rintro s x b rfl hb
    exact same_signal hb
  sorted := h.sorted

theorem same_database {b : DDatabase F} (W : WritableDatabase T db) (K : shorten = true → KeptNames db)
    (h : SameDatabase T (restore T (writtenDb shorten db)) b) : SameDatabase T db b := by
  constructor
  case messages =>
    have h1 := h.messages
    have e : (restore T (writtenDb shorten db)).messages = db.messages.map (keptMsg shorten db) := by
      show (db.messages.map (writtenMsg shorten db)).map (restoreMessage T (writtenDb shorten db)) = _
      rw [List.map_map]
      exact List.map_congr_left fun m hm => restoreMessage_eq W K hm
    rw [e, List.forall₂_map_left_iff] at h1
    exact h1.imp fun _ _ hb => same_message hb
  case nodes =>
    have h1 := h.nodes
    have e : (restore T (writtenDb shorten db)).nodes = db.nodes.map fun n =>
        { n with attributes := (shortNode shorten (nodeNames db) db.definitions n).attributes } := by
      show (db.nodes.map (shortNode shorten (nodeNames db) db.definitions)).map
        (fun n => { n with name := restoreNode T (writtenDb shorten db) n.name }) = _
      rw [List.map_map]
      apply List.map_congr_left
      intro n hn
      simp only [Function.comp]
      have : restoreNode T (writtenDb shorten db) (shortNode shorten (nodeNames db) db.definitions n).name = n.name :=
        restoreNode_ren W fun _ => .inl (List.mem_map.2 ⟨n, hn, rfl⟩)
      rw [this]
      rfl
    rw [e, List.forall₂_map_left_iff] at h1
    exact h1.imp fun n b hb => ⟨hb.name, hb.comment, same_trans (shortAttrs_same _ _ _ _ _) hb.attributes (by simp)⟩
  case buses => exact h.buses
  case version => exact h.version
  case attributes => exact h.attributes
  case definitions => exact fun n d hn hd => h.definitions n d hn (defs_kept hd)
  case envvars =>
    have h1 := h.envvars
    have e : (restore T (writtenDb shorten db)).envvars = db.envvars.map fun e =>
        (e.1, { e.2 with attributes := (writtenEnv shorten db e).2.attributes }) := by
      show (db.envvars.map (writtenEnv shorten db)).map (restoreEnvvar T) = _
      rw [List.map_map]
      apply List.map_congr_left
      intro e he
      simp only [Function.comp, restoreEnvvar_eq]
      rw [(W.envvars e he).key]
    rw [e, List.forall₂_map_left_iff] at h1
    exact h1.imp fun e b hb => ⟨hb.key, hb.name, hb.envType, hb.minimum, hb.maximum, hb.unit, hb.initialValue, hb.envId,
      hb.accessType, hb.accessNode, hb.comment, same_trans (shortAttrs_same _ _ _ _ _) hb.attributes (by simp)⟩
  case valueTables => exact h.valueTables

/-- Reading what was written gives the same database. -/
theorem round_trip (L : FloatLaws T) {U : Unicode} (hU : UnicodeLaws U) (W : WritableDatabase T db)
    (K : shorten = true → KeptNames db) {strict : Bool} (C : Constructible T strict db)
    {sort sortAttrs : List (DSignal F) → List (DSignal F)} (hs : Sorts sort) (hsa : Sorts sortAttrs) :
    ∃ text, dumpString U T sort sortAttrs shorten db = .ok text ∧
      ∃ db', loadString T strict text = .ok db' ∧ SameDatabase T db db' := by
  have W' := written_writable K W
  have R' := written_restorable K W C
  rw [dumpString_eq hU W fun h => (K h).nodes]
  obtain ⟨db', h1, h2⟩ := load_written L W' hs hsa R' (render_eq L W' hs hsa)
  exact ⟨_, render_eq L W' hs hsa, db', h1, same_database W K h2⟩

end Cantools.Dbc
