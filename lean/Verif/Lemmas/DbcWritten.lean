import Verif.Lemmas.DbcUnique

/-
The database of which the text of a DBC file is made.
-/

namespace Cantools.Dbc
open Cantools Spec

variable {F : Type} {T : FloatText F} {sort sortAttrs : List (DSignal F) → List (DSignal F)} {db : DDatabase F}

/-! ### Special characters -/

theorem getDbcName_name {U : Unicode} (hU : UnicodeLaws U) {n : Chars} (hn : Name n) : getDbcName U n = .ok n := by
  obtain ⟨⟨h1, h2, h3⟩, -⟩ := hn
  have : n.map (fun c => if U.word c then c else '_') = n := by
    conv_rhs => rw [← List.map_id n]
    apply List.map_congr_left
    intro c hc
    rw [if_pos (hU.word c (h2 c hc))]; rfl
  unfold getDbcName
  rw [this]
  match n, h1, h2, h3 with
  | a :: r, _, h2, h3 =>
    show Except.ok (if U.digit a then _ else _) = _
    rw [if_neg]
    rw [hU.digit a (h2 a (by simp)), h3 a rfl]
    decide

theorem renameNode_self (n : Chars) (ms : List (DMessage F)) : renameNode n n ms = ms := by
  have : renameNode n n ms = mapNodes (fun x => if x = n then n else x) ms := rfl
  rw [this]
  have e : (fun x => if x = n then n else x) = fun x : Chars => x := by
    funext x; split
    · rename_i h; exact h.symm
    · rfl
  rw [e, mapNodes_id]

theorem removeSpecialChars_eq {U : Unicode} (hU : UnicodeLaws U) (W : WritableDatabase T db) :
    removeSpecialChars U db = .ok db := by
  unfold removeSpecialChars
  have h1 : db.nodes.foldlM (fun (st : List (DMessage F) × List (DNode F)) node => do
      let new ← getDbcName U node.name
      return (renameNode node.name new st.1, st.2 ++ [{ node with name := new }])) (db.messages, []) =
      .ok (db.messages, db.nodes) := by
    refine foldlM_state (st := fun p => (db.messages, p)) ?_
    intro p n r hp
    have hn : n ∈ db.nodes := by rw [hp]; simp
    rw [getDbcName_name hU (W.nodes n hn).name]
    show Except.ok (renameNode n.name n.name db.messages, p ++ [n]) = _
    rw [renameNode_self]
  refine (bind_of_ok h1).trans ?_
  have h2 : db.messages.mapM (fun (m : DMessage F) => do
      let name ← getDbcName U m.name
      let signals ← m.signals.mapM fun (s : DSignal F) => do
        let name ← getDbcName U s.name
        return ({ s with name := name } : DSignal F)
      let groups ← (match m.signalGroups with
        | none => .ok none
        | some gs => (gs.mapM fun (g : DGroup) => do
            let name ← getDbcName U g.name
            let names ← g.signalNames.mapM (getDbcName U)
            return { g with name := name, signalNames := names }).map some : Except Err (Option (List DGroup)))
      return ({ m with name := name, signals := signals, signalGroups := groups } : DMessage F)) = .ok db.messages := by
    conv_rhs => rw [← List.map_id db.messages]
    apply mapM_eq_map
    intro m hm
    have hw := W.messages m hm
    rw [getDbcName_name hU hw.name, ok_bind2]
    have h3 : (m.signals.mapM fun (s : DSignal F) => do
        let name ← getDbcName U s.name
        return ({ s with name := name } : DSignal F)) = Except.ok m.signals := by
      conv_rhs => rw [← List.map_id m.signals]
      apply mapM_eq_map
      intro s hs
      rw [getDbcName_name hU (hw.signals s hs).name]
      rfl
    refine (bind_of_ok h3).trans ?_
    have h4 : (match m.signalGroups with
        | none => .ok none
        | some gs => (gs.mapM fun (g : DGroup) => do
            let name ← getDbcName U g.name
            let names ← g.signalNames.mapM (getDbcName U)
            return { g with name := name, signalNames := names }).map some : Except Err (Option (List DGroup))) =
        .ok m.signalGroups := by
      cases hgs : m.signalGroups with
      | none => rfl
      | some gs =>
        show Except.map some (List.mapM _ gs) = _
        have : (gs.mapM fun (g : DGroup) => do
            let name ← getDbcName U g.name
            let names ← g.signalNames.mapM (getDbcName U)
            return ({ g with name := name, signalNames := names } : DGroup)) = Except.ok gs := by
          conv_rhs => rw [← List.map_id gs]
          apply mapM_eq_map
          intro g hg
          obtain ⟨h5, h6⟩ := (hw.groups gs hgs).2 g hg
          rw [getDbcName_name hU h5, ok_bind2]
          have h7 : g.signalNames.mapM (getDbcName U) = .ok g.signalNames := by
            conv_rhs => rw [← List.map_id g.signalNames]
            apply mapM_eq_map
            intro n hn
            obtain ⟨s, hs, rfl⟩ := List.mem_map.1 (h6 n hn)
            exact getDbcName_name hU (hw.signals s hs).name
          rw [h7]
          rfl
        rw [this]
        rfl
    refine (bind_of_ok h4).trans ?_
    rfl
  refine (bind_of_ok h2).trans ?_
  rfl

/-! ### The written database -/

def nodeNames (db : DDatabase F) : List Chars := db.nodes.map (·.name)
def messageNames (db : DDatabase F) : List Chars := db.messages.map (·.name)
def signalNames (m : DMessage F) : List Chars := m.signals.map (·.name)
def envvarNames (db : DDatabase F) : List Chars := db.envvars.map (·.2.name)

def writtenSig (shorten : Bool) (db : DDatabase F) (m : DMessage F) (s : DSignal F) : DSignal F :=
  { s with
    name := ren shorten (signalNames m) s.name
    receivers := s.receivers.map (ren shorten (nodeNames db))
    attributes := shortAttrs systemSignal (sysDefOf db.definitions (longSymbolDef systemSignal "SG_"))
      (ren shorten (signalNames m) s.name) s.name s.attributes }

def writtenMsg (shorten : Bool) (db : DDatabase F) (m : DMessage F) : DMessage F :=
  { m with
    name := ren shorten (messageNames db) m.name
    senders := m.senders.map (ren shorten (nodeNames db))
    signals := m.signals.map (writtenSig shorten db m)
    signalGroups := m.signalGroups.map fun gs => gs.map fun g =>
      { g with signalNames := g.signalNames.map (ren shorten (signalNames m)) }
    attributes := shortAttrs systemMessage (sysDefOf db.definitions (longSymbolDef systemMessage "BO_"))
      (ren shorten (messageNames db) m.name) m.name m.attributes }

def writtenEnv (shorten : Bool) (db : DDatabase F) (e : Chars × DEnvvar F) : Chars × DEnvvar F :=
  (ren shorten (envvarNames db) e.2.name, { e.2 with
    name := ren shorten (envvarNames db) e.2.name
    attributes := shortAttrs systemEnvvar (sysDefOf db.definitions (longSymbolDef systemEnvvar "EV_"))
      (ren shorten (envvarNames db) e.2.name) e.2.name e.2.attributes })

def writtenDefs (shorten : Bool) (db : DDatabase F) : Defs F :=
  addDef (changes shorten (envvarNames db) (envvarNames db)) (longSymbolDef systemEnvvar "EV_")
    (addDef (db.messages.any (sigChanges shorten)) (longSymbolDef systemSignal "SG_")
      (addDef (changes shorten (messageNames db) (messageNames db)) (longSymbolDef systemMessage "BO_")
        (addDef (changes shorten (nodeNames db) (nodeNames db)) (longSymbolDef systemNode "BU_") db.definitions)))

/-- The database with the names that are written; environment variables are listed under these. -/
def writtenDb (shorten : Bool) (db : DDatabase F) : DDatabase F :=
  { db with
    messages := db.messages.map (writtenMsg shorten db)
    nodes := db.nodes.map (shortNode shorten (nodeNames db) db.definitions)
    envvars := db.envvars.map (writtenEnv shorten db)
    definitions := writtenDefs shorten db }

/-- The keys of environment variables are not written. -/
def rekey (db : DDatabase F) : DDatabase F := { db with envvars := db.envvars.map fun e => (e.2.name, e.2) }

theorem render_rekey (db : DDatabase F) : render T sort sortAttrs (rekey db) = render T sort sortAttrs db := by
  have h1 : dumpEnvvars T (rekey db) = dumpEnvvars T db := by
    unfold dumpEnvvars rekey
    rw [List.map_map]; rfl
  have h2 : dumpComments sortAttrs (rekey db) = dumpComments sortAttrs db := by
    unfold dumpComments rekey
    simp only [List.flatMap_map]
  have h3 : dumpAttributes T sortAttrs (syncDefinitions T (rekey db)) (rekey db) =
      dumpAttributes T sortAttrs (syncDefinitions T db) db := by
    have : syncDefinitions T (rekey db) = syncDefinitions T db := rfl
    rw [this]
    unfold dumpAttributes
    have e : ((rekey db).envvars.flatMap fun e => e.2.attributes.map fun a => attrLine T (some e.2.name) a.2) =
        db.envvars.flatMap fun e => e.2.attributes.map fun a => attrLine T (some e.2.name) a.2 := by
      unfold rekey
      simp only [List.flatMap_map]
    rw [e]
    rfl
  unfold render
  dsimp only
  rw [h1, h2, h3]
  rfl

theorem sysDefOf_other (b : Bool) {d e : AttrDef F} (h : e.name ≠ d.name) (defs : Defs F) :
    sysDefOf (addDef b d defs) e = sysDefOf defs e := by
  unfold sysDefOf
  rw [addDef_get, if_neg]
  exact fun x => h x.2.1

macro "sysne" : tactic => `(tactic| (simp only [longSymbolDef]; decide +kernel))

/-- The names of the signals do not depend on the steps before. -/
theorem names_before (shorten : Bool) (names : List Chars) (defs : Defs F) (ρ : Chars → Chars) (m : DMessage F) :
    (shortMsg shorten names defs { m with
      senders := m.senders.map ρ
      signals := m.signals.map fun s => { s with receivers := s.receivers.map ρ } }).signals.map (·.name) =
      signalNames m := by
  show (m.signals.map fun s => ({ s with receivers := s.receivers.map ρ } : DSignal F)).map (·.name) = _
  rw [List.map_map]; rfl

theorem written_eq (shorten : Bool) (db : DDatabase F) :
    rekey (envvarsDone shorten (signalsDone shorten (messagesDone shorten (nodesDone shorten db)))) =
      writtenDb shorten db := by
  have hms : (signalsDone shorten (messagesDone shorten (nodesDone shorten db))).messages =
      db.messages.map (writtenMsg shorten db) := by
    show (((mapNodes (ren shorten (nodeNames db)) db.messages).map (shortMsg shorten
      ((mapNodes (ren shorten (nodeNames db)) db.messages).map (·.name)) (nodesDone shorten db).definitions)).map
      (shortSigs shorten (messagesDone shorten (nodesDone shorten db)).definitions)) = _
    have hn : (mapNodes (ren shorten (nodeNames db)) db.messages).map (·.name) = messageNames db := by
      unfold mapNodes
      rw [List.map_map]; rfl
    rw [hn]
    unfold mapNodes
    rw [List.map_map, List.map_map]
    apply List.map_congr_left
    intro m _
    simp only [Function.comp]
    unfold shortSigs
    rw [names_before]
    unfold shortMsg writtenMsg
    simp only [List.map_map]
    congr 1
    · apply List.map_congr_left
      intro s _
      unfold shortSig writtenSig
      simp only [Function.comp]
      congr 2
      show sysDefOf (addDef _ _ (addDef _ _ _)) _ = _
      rw [sysDefOf_other _ (by sysne), sysDefOf_other _ (by sysne)]
    · congr 1
      show sysDefOf (addDef _ _ _) _ = _
      rw [sysDefOf_other _ (by sysne)]
  have hsc : (messagesDone shorten (nodesDone shorten db)).messages.any (sigChanges shorten) =
      db.messages.any (sigChanges shorten) := by
    show ((mapNodes (ren shorten (nodeNames db)) db.messages).map _).any _ = _
    unfold mapNodes
    rw [List.map_map, List.any_map]
    congr 1
    funext m
    simp only [Function.comp]
    unfold sigChanges
    rw [names_before]
    rfl
  have hmn : (mapNodes (ren shorten (nodeNames db)) db.messages).map (·.name) = messageNames db := by
    unfold mapNodes
    rw [List.map_map]; rfl
  have hdf : (signalsDone shorten (messagesDone shorten (nodesDone shorten db))).definitions =
      addDef (db.messages.any (sigChanges shorten)) (longSymbolDef systemSignal "SG_")
      (addDef (changes shorten (messageNames db) (messageNames db)) (longSymbolDef systemMessage "BO_")
        (addDef (changes shorten (nodeNames db) (nodeNames db)) (longSymbolDef systemNode "BU_") db.definitions)) := by
    rw [← hsc, ← hmn]
    rfl
  show DDatabase.mk _ _ _ _ _ _ _ _ = DDatabase.mk _ _ _ _ _ _ _ _
  congr 1
  · show addDef (changes shorten (envvarNames db) (envvarNames db)) _
      (signalsDone shorten (messagesDone shorten (nodesDone shorten db))).definitions = _
    rw [hdf]
    rfl
  · show (db.envvars.map (shortEnv shorten (envvarNames db)
      (signalsDone shorten (messagesDone shorten (nodesDone shorten db))).definitions)).map _ = _
    rw [hdf, List.map_map]
    apply List.map_congr_left
    intro e _
    unfold shortEnv writtenEnv
    simp only [Function.comp]
    congr 3
    rw [sysDefOf_other _ (by sysne), sysDefOf_other _ (by sysne), sysDefOf_other _ (by sysne)]

theorem makeNamesUnique_eq (W : WritableDatabase T db) {shorten : Bool}
    (hfew : shorten = true → db.nodes.length ≤ 10000) :
    makeNamesUnique shorten db =
      .ok (envvarsDone shorten (signalsDone shorten (messagesDone shorten (nodesDone shorten db)))) := by
  unfold makeNamesUnique
  have hkey : (db.envvars.map (·.2.name)).Nodup := by
    rw [← List.map_congr_left fun e he => (W.envvars e he).key]; exact W.envvarNames
  have hmsgs : (nodesDone shorten db).messages.map (·.name) = db.messages.map (·.name) := by
    show (mapNodes _ db.messages).map (·.name) = _
    unfold mapNodes
    rw [List.map_map]; rfl
  have hmem : ∀ m ∈ (messagesDone shorten (nodesDone shorten db)).messages, ∃ x ∈ db.messages,
      m.signals.map (·.name) = x.signals.map (·.name) ∧ m.signalGroups = x.signalGroups := by
    intro m hm
    obtain ⟨y, hy, rfl⟩ := List.mem_map.1 hm
    obtain ⟨x, hx, rfl⟩ := List.mem_map.1 hy
    exact ⟨x, hx, names_before _ _ _ _ _, rfl⟩
  rw [makeNodes_eq W.nodeNames hfew, ok_bind2, makeMessages_eq (by rw [hmsgs]; exact W.names), ok_bind2, makeSignals_eq,
    ok_bind2, makeEnvvars_eq (by exact hkey)]
  · intro m hm
    obtain ⟨x, hx, h1, -⟩ := hmem m hm
    rw [h1]
    exact names_nodup (W.messages x hx).muxed
  · intro m hm gs hgs g hg n hn
    obtain ⟨x, hx, h1, h2⟩ := hmem m hm
    rw [h1]
    exact ((W.messages x hx).groups gs (h2 ▸ hgs)).2 g hg |>.2 n hn

theorem dumpString_eq {U : Unicode} (hU : UnicodeLaws U) (W : WritableDatabase T db) {shorten : Bool}
    (hfew : shorten = true → db.nodes.length ≤ 10000) :
    dumpString U T sort sortAttrs shorten db = render T sort sortAttrs (writtenDb shorten db) := by
  unfold dumpString
  rw [removeSpecialChars_eq hU W, ok_bind2, makeNamesUnique_eq W hfew, ok_bind2, ← render_rekey, written_eq]

end Cantools.Dbc
