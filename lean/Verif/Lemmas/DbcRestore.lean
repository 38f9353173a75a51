import Verif.Lemmas.DbcLoaded

/-
The database that is read from a written DBC file, apart from its messages.
-/

namespace Cantools.Dbc
open Cantools Spec

variable {F : Type} {T : FloatText F} {sort sortAttrs : List (DSignal F) → List (DSignal F)} {db : DDatabase F}

/-! ### Long names -/

/-- The name a node has after reading: the long name of a node of the database. -/
def restoreNode (T : FloatText F) (db : DDatabase F) (n : Chars) : Chars :=
  longName T systemNode ((dictGet? (db.nodes.map fun x => (x.name, x.attributes)) n).getD []) n

def restoreSignal (T : FloatText F) (db : DDatabase F) (s : DSignal F) : DSignal F :=
  { s with name := longName T systemSignal s.attributes s.name, receivers := s.receivers.map (restoreNode T db) }

/-- The name a signal of a message has after reading. -/
def restoreSigName (T : FloatText F) (m : DMessage F) (n : Chars) : Chars :=
  longName T systemSignal ((dictGet? (m.signals.map fun s => (s.name, s.attributes)) n).getD []) n

def restoreGroup (T : FloatText F) (m : DMessage F) (g : DGroup) : DGroup :=
  { g with signalNames := g.signalNames.map (restoreSigName T m) }

def restoreMessage (T : FloatText F) (db : DDatabase F) (m : DMessage F) : DMessage F :=
  { m with
    name := longName T systemMessage m.attributes m.name
    senders := m.senders.map (restoreNode T db)
    signals := m.signals.map (restoreSignal T db)
    signalGroups := m.signalGroups.map fun gs => gs.map (restoreGroup T m) }

def restoreEnvvar (T : FloatText F) (e : Chars × DEnvvar F) : Chars × DEnvvar F :=
  (longName T systemEnvvar e.2.attributes e.2.name,
    { e.2 with name := longName T systemEnvvar e.2.attributes e.2.name })

/-- The database with its long names. -/
def restore (T : FloatText F) (db : DDatabase F) : DDatabase F :=
  { db with
    messages := db.messages.map (restoreMessage T db)
    nodes := db.nodes.map fun n => { n with name := restoreNode T db n.name }
    envvars := db.envvars.map (restoreEnvvar T) }

/-! ### Attributes of objects -/

theorem accum_none {κ α β : Type} [DecidableEq κ] {g : Option β → α → β} {ps : List (κ × α)} {k : κ}
    (h : ∀ p ∈ ps, p.1 ≠ k) : dictGet? (accum g [] ps) k = none := by
  rw [accum_get, List.filter_eq_nil_iff.2]
  · rfl
  · intro p hp
    simpa using h p hp

theorem mem_allPairs {κ α ι : Type} {key : ι → κ} {vs : ι → List α} {l : List ι} {p : κ × α} (h : p ∈ allPairs key vs l) :
    ∃ a ∈ l, p.1 = key a := by
  unfold allPairs at h
  simp only [List.mem_flatMap, List.mem_map] at h
  obtain ⟨a, ha, v, _, rfl⟩ := h
  exact ⟨a, ha, rfl⟩

variable (L : FloatLaws T) (W : WritableDatabase T db)

include L W in
theorem node_attrs (n : Chars) :
    (dictGet? (gotAttrs T sortAttrs (syncDefinitions T db) db).nodes n).getD [] =
      (dictGet? (db.nodes.map fun x => (x.name, x.attributes)) n).getD [] := by
  by_cases h : ∃ x ∈ db.nodes, x.name = n
  · obtain ⟨x, hx, rfl⟩ := h
    obtain ⟨h1, h2⟩ := own_loaded L W (W.nodes x hx).attributes
    have := nest_get (key := fun x : DNode F => x.name) W.nodeNames
      (fun n => loadedAttrs T (syncDefinitions T db) n.attributes) hx (by
        rw [h1]; exact (W.nodes x hx).attributes.nodup)
    refine this.trans ?_
    rw [h1, dictGet?_of_mem (v := x.attributes)]
    · rfl
    · rw [List.map_map]; exact W.nodeNames
    · exact List.mem_map.2 ⟨x, hx, rfl⟩
  · rw [show (gotAttrs T sortAttrs (syncDefinitions T db) db).nodes = accum nest []
      (allPairs (·.name) (fun n => loadedAttrs T (syncDefinitions T db) n.attributes) db.nodes) from rfl,
      accum_none, (dictGet?_eq_none_iff _ _).2]
    · simp only [List.map_map, List.mem_map, Function.comp_apply, not_exists, not_and]
      intro x hx he
      exact h ⟨x, hx, he⟩
    · intro p hp he
      obtain ⟨x, hx, hk⟩ := mem_allPairs hp
      exact h ⟨x, hx, hk.symm.trans he⟩

include L W in
theorem nodeLongName_eq (n : Chars) :
    nodeLongName T (gotAttrs T sortAttrs (syncDefinitions T db) db) n = restoreNode T db n := by
  unfold nodeLongName restoreNode
  rw [node_attrs L W]

include L W in
theorem env_attrs {e : Chars × DEnvvar F} (h : e ∈ db.envvars) :
    (dictGet? (gotAttrs T sortAttrs (syncDefinitions T db) db).envvars e.2.name).getD [] = e.2.attributes := by
  obtain ⟨h1, h2⟩ := own_loaded L W (W.envvars e h).attributes
  have hnd : (db.envvars.map fun e => e.2.name).Nodup := by
    rw [← List.map_congr_left fun e he => (W.envvars e he).key]; exact W.envvarNames
  have := nest_get (key := fun e : Chars × DEnvvar F => e.2.name) hnd
    (fun n => loadedAttrs T (syncDefinitions T db) n.2.attributes) h (by
      rw [h1]; exact (W.envvars e h).attributes.nodup)
  exact this.trans h1

include L W in
theorem msg_attrs {m : DMessage F} (h : m ∈ db.messages) :
    (dictGet? (gotAttrs T sortAttrs (syncDefinitions T db) db).messages (mid m)).getD [] =
      loadedAttrs T (syncDefinitions T db) (msgAttrs T (syncDefinitions T db) m) :=
  nest_get (key := mid) (ids_nodup W)
    (fun m => loadedAttrs T (syncDefinitions T db) (msgAttrs T (syncDefinitions T db) m)) h (by
      have := (msgAttrs_ok L W h).1
      unfold loadedAttrs
      rw [List.map_map]
      exact this)

include L W in
theorem sig_attrs (hsa : Sorts sortAttrs) {m : DMessage F} (h : m ∈ db.messages) {s : DSignal F} (hs : s ∈ m.signals) :
    (dictGet? (gotAttrs T sortAttrs (syncDefinitions T db) db).signals (mid m, s.name)).getD [] =
      loadedAttrs T (syncDefinitions T db) (syncStartValue T s) :=
  nest_get (key := sid) (sids_nodup W hsa)
    (fun x => loadedAttrs T (syncDefinitions T db) (syncStartValue T x.2)) (mem_sigPairs hsa h hs) (by
      have := (sigAttrs_ok L W h hs).1
      unfold loadedAttrs
      rw [List.map_map]
      exact this)

/-! ### Bus, nodes and environment variables -/

theorem gotComments_bus (W : WritableDatabase T db) :
    (gotComments sortAttrs db).bus = db.buses.head?.bind (·.comment) := by
  unfold gotComments
  rcases W.buses with ⟨h, -⟩ | ⟨b, h, -⟩
  · rw [h]; rfl
  · rw [h]
    simp only [List.flatMap_cons, List.flatMap_nil, List.append_nil, List.head?_cons, Option.bind_some]
    cases b.comment <;> rfl

include L W in
theorem got_database : (gotAttrs T sortAttrs (syncDefinitions T db) db).database =
    loadedAttrs T (syncDefinitions T db) (dbAttrs (syncDefinitions T db) db) := by
  show accum last [] _ = _
  rw [accum_last_nodup]
  unfold loadedAttrs
  rw [List.map_map]
  exact (dbAttrs_ok L W).1

include L W in
theorem load_bus : loadBus (gotAttrs T sortAttrs (syncDefinitions T db) db) (gotComments sortAttrs db) =
    .ok db.buses.head? := by
  obtain ⟨h1, h2⟩ := db_loaded L W
  unfold loadBus
  rw [got_database L W, gotComments_bus W]
  have hn := h1 dbName (by decide +kernel)
  rw [hn]
  rcases W.buses with ⟨hb, hd⟩ | ⟨b, hb, hw⟩
  · have hbn : busBaudrate db = none := by unfold busBaudrate; rw [hb]
    rcases h2 with ⟨-, h2⟩ | ⟨r, d, h2, -⟩
    · rw [hd, h2, hb]; rfl
    · rw [hbn] at h2; cases h2
  · have hbn : busBaudrate db = b.baudrate := by unfold busBaudrate; rw [hb]
    have hname : (match dictGet? db.attributes dbName with
        | none => .ok []
        | some a => match a.value with
          | .str s => .ok s
          | .num _ => .error .error : Except Err Chars) = .ok b.name := by
      rcases hw.name with ⟨h, h'⟩ | ⟨a, h, h'⟩
      · rw [h', h]
      · rw [h]; simp only [h']
    have hrate : (match dictGet? (loadedAttrs T (syncDefinitions T db) (dbAttrs (syncDefinitions T db) db)) baudrate with
        | none => .ok none
        | some a => match a.value with
          | .num (.int i) => .ok (some i)
          | _ => .error .error : Except Err (Option Int)) = .ok b.baudrate := by
      rcases h2 with ⟨h, h2⟩ | ⟨r, d, h, h2⟩
      · rw [h2, ← hbn, h]
      · rw [h2, ← hbn, h]; rfl
    have hcom : db.buses.head?.bind (·.comment) = b.comment := by rw [hb]; rfl
    have hhead : db.buses.head? = some b := by rw [hb]; rfl
    rw [hcom, hhead]
    refine (bind_of_ok hname).trans ((bind_of_ok hrate).trans ?_)
    refine (if_neg ?_).trans rfl
    · rintro ⟨a1, a2, a3⟩
      rcases hw.something with h | h | h
      · exact h a1
      · exact h a2
      · exact h a3

include L W in
theorem load_nodes : loadNodes T (treesOf T sort sortAttrs db) (gotComments sortAttrs db)
    (gotAttrs T sortAttrs (syncDefinitions T db) db) =
      .ok (db.nodes.map fun n => { n with name := restoreNode T db n.name }) := by
  unfold loadNodes
  rw [entriesOf_part (label := "BU_") (by part)]
  simp only [List.map_cons, List.map_nil, List.foldlM_cons, List.foldlM_nil]
  rd
  show Except.ok _ = _
  congr 1
  rw [List.map_map]
  apply List.map_congr_left
  intro n hn
  simp only [Function.comp_apply, nodeLongName_eq L W, node_attrs L W]
  have hc : dictGet? (gotComments sortAttrs db).nodes n.name = n.comment :=
    last_get (key := fun n : DNode F => n.name) W.nodeNames (fun n => n.comment) hn
  have ha : (dictGet? (db.nodes.map fun x => (x.name, x.attributes)) n.name) = some n.attributes := by
    apply dictGet?_of_mem
    · rw [List.map_map]; exact W.nodeNames
    · exact List.mem_map.2 ⟨n, hn, rfl⟩
  rw [hc, ha]
  rfl

include L W in
theorem load_envvars (hnd : ((db.envvars.map (restoreEnvvar T)).map (·.1)).Nodup) :
    loadEnvvars T (treesOf T sort sortAttrs db) (gotComments sortAttrs db)
      (gotAttrs T sortAttrs (syncDefinitions T db) db) = .ok (db.envvars.map (restoreEnvvar T)) := by
  unfold loadEnvvars
  rw [entriesOf_part (label := "EV_") (by part)]
  have hn : (db.envvars.map fun e => e.2.name).Nodup := by
    rw [← List.map_congr_left fun e he => (W.envvars e he).key]; exact W.envvarNames
  suffices ∀ (l : List (Chars × DEnvvar F)) (acc : List (Chars × DEnvvar F)), (∀ e ∈ l, e ∈ db.envvars) →
      ((l.map (eEnv T)).map Entry.tree).foldlM _ acc = Except.ok (accum last acc (l.map (restoreEnvvar T))) by
    refine (this db.envvars [] fun e he => he).trans ?_
    rw [accum_last_nodup hnd]
  intro l
  induction l with
  | nil => intro acc _; rfl
  | cons e r ih =>
    intro acc hl
    have he := hl e (by simp)
    rw [List.map_cons, List.map_cons, List.foldlM_cons]
    refine Eq.trans (bind_of_ok ?_) (ih (dictSet acc (restoreEnvvar T e).1 (restoreEnvvar T e).2) fun x hx =>
      hl x (List.mem_cons_of_mem _ hx))
    have hc : dictGet? (gotComments sortAttrs db).envvars e.2.name = e.2.comment :=
      last_get (key := fun e : Chars × DEnvvar F => e.2.name) hn (fun e => e.2.comment) he
    unfold eEnv
    rd
    simp only [num_text L, ok_bind2, env_attrs L W he, hc]
    rfl

end Cantools.Dbc
