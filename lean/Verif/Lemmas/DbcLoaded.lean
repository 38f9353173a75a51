import Verif.Lemmas.DbcLoad

/-
What is read from the sections of a written DBC file.
-/

namespace Cantools.Dbc
open Cantools Spec

variable {F : Type} {T : FloatText F} {sort sortAttrs : List (DSignal F) → List (DSignal F)} {db : DDatabase F}

/-! ### Keys -/

/-- The number of a message in the file. -/
def mid (m : DMessage F) : Int := dbcFrameId m.frameId m.isExtendedFrame

theorem frameIdText_eq (m : DMessage F) : frameIdText m = intText (mid m) := rfl

theorem ids_nodup (W : WritableDatabase T db) : (db.messages.map mid).Nodup := by
  have h := W.ids
  unfold List.Nodup at h ⊢
  rw [List.pairwise_map] at h ⊢
  refine List.Pairwise.imp_of_mem ?_ h
  intro a b ha hb hab he
  obtain ⟨h1, h2⟩ := C26_distinct _ _ _ _ (W.messages a ha).id (W.messages b hb).id he
  exact hab (by rw [h1, h2])

/-- The signals of the database with their messages. -/
def sigPairs (sort : List (DSignal F) → List (DSignal F)) (db : DDatabase F) : List (DMessage F × DSignal F) :=
  db.messages.flatMap fun m => (sort m.signals).map fun s => (m, s)

def sid (x : DMessage F × DSignal F) : Int × Chars := (mid x.1, x.2.name)

theorem mem_sigPairs (hs : Sorts sort) {m : DMessage F} {s : DSignal F} (hm : m ∈ db.messages) (h : s ∈ m.signals) :
    (m, s) ∈ sigPairs sort db := by
  unfold sigPairs
  exact List.mem_flatMap.2 ⟨m, hm, List.mem_map.2 ⟨s, (hs _).mem_iff.2 h, rfl⟩⟩

theorem names_nodup {m : DMessage F} (h : WellMuxed (m.signals.map (·.core T))) : (m.signals.map (·.name)).Nodup := by
  have := h.nodup
  rw [List.map_map] at this
  have e : (List.map ((fun x : Signal => x.name) ∘ fun x : DSignal F => x.core T) m.signals) =
      (m.signals.map (·.name)).map String.ofList := by rw [List.map_map]; rfl
  rw [e] at this
  exact List.Nodup.of_map _ this

theorem sids_nodup (W : WritableDatabase T db) (hs : Sorts sort) : ((sigPairs sort db).map sid).Nodup := by
  have hid := ids_nodup W
  unfold sigPairs
  rw [List.map_flatMap]
  rw [List.nodup_flatMap]
  refine ⟨fun m hm => ?_, ?_⟩
  · rw [List.map_map]
    have h1 : ((sort m.signals).map (·.name)).Nodup :=
      ((hs m.signals).map _).nodup_iff.2 (names_nodup (W.messages m hm).muxed)
    unfold List.Nodup at h1 ⊢
    rw [List.pairwise_map] at h1 ⊢
    exact h1.imp fun h he => h (Prod.ext_iff.1 he).2
  · unfold List.Nodup at hid
    rw [List.pairwise_map] at hid
    refine hid.imp fun {a b} hab => ?_
    intro x hx hy
    simp only [List.map_map, List.mem_map, Function.comp_apply] at hx hy
    obtain ⟨s, _, rfl⟩ := hx
    obtain ⟨t, _, h⟩ := hy
    exact hab (Prod.ext_iff.1 h).1.symm

/-! ### Reading an entry -/

@[simp] theorem asList_list (l : List Tree) : asList (.list l) = .ok l := rfl
@[simp] theorem asStr_str (s : Chars) : asStr (.str s) = .ok s := rfl
@[simp] theorem treeAt_zero (t : Tree) (l : List Tree) : treeAt (t :: l) 0 = .ok t := rfl
@[simp] theorem treeAt_succ (t : Tree) (l : List Tree) (n : Nat) : treeAt (t :: l) (n + 1) = treeAt l n := rfl
theorem ok_bind {α β : Type} (a : α) (f : α → Except Err β) : Except.bind (Except.ok a) f = f a := rfl
theorem ok_bind2 {α β : Type} (a : α) (f : α → Except Err β) : ((Except.ok a : Except Err α) >>= f) = f a := rfl

theorem mapM_strs (l : List Chars) : (l.map st).mapM asStr = .ok l := by
  induction l with
  | nil => rfl
  | cons a r ih => rw [List.map_cons, List.mapM_cons, ih]; rfl

macro "rd" : tactic => `(tactic| simp only [Entry.tree, Obj.trees, asList_list, ok_bind2, strAt, listAt, intAt, treeAt_succ,
  treeAt_zero, asList_list, asStr_str, ok_bind, readInt_intText, mapM_strs, List.nil_append, List.cons_append,
  pq, cq, List.map_cons, List.map_nil])

/-- Numbers and names are read back. -/
theorem loadPairs_map {l : List (Int × Chars)} (h : (l.map (·.1)).Nodup) :
    loadPairs ((l.map pairE).map pairTree) = .ok l := by
  unfold loadPairs
  rw [List.map_map, foldlM_accum (g := last) (pairTree ∘ pairE), accum_last_nodup h]
  intro p _ d
  simp only [Function.comp_apply, pairE, pairTree]
  rd
  rfl

/-! ### Sections with single values -/

macro "part" : tactic => `(tactic| (unfold partsOf; repeat (first | exact List.mem_cons_self | apply List.mem_cons_of_mem)))

theorem load_version (db : DDatabase F) : loadVersion (treesOf T sort sortAttrs db) = .ok (some (db.version.getD [])) := by
  unfold loadVersion
  rw [entriesOf_part (label := "VERSION") (by part)]
  rfl

theorem load_tables (W : WritableDatabase T db) : loadValueTables (treesOf T sort sortAttrs db) =
    .ok (db.valueTables.map fun t => (t.1, sortedDescending t.2)) := by
  unfold loadValueTables
  rw [entriesOf_part (label := "VAL_TABLE_") (by part)]
  have : (db.valueTables.map eTable).map Entry.tree = (db.valueTables.map fun t => (t.1, sortedDescending t.2)).map
      fun p => (Entry.valueTable p.1 (p.2.map pairE)).tree := by
    rw [List.map_map, List.map_map]; rfl
  simp only [this]
  rw [foldlM_accum (g := last), accum_last_nodup]
  · rw [List.map_map]; exact W.tableNames
  · intro p hp d
    obtain ⟨t, ht, rfl⟩ := List.mem_map.1 hp
    rd
    have hn : ((sortedDescending t.2).map (·.1)).Nodup := ((pySorted_perm _ _).map _).nodup_iff.2 (W.tables t ht).2.1
    rw [loadPairs_map hn]
    rfl

/-- The choices of signals. -/
def choicePairs (sort : List (DSignal F) → List (DSignal F)) (db : DDatabase F) :
    List ((Int × Chars) × List (Int × Chars)) := optPairs sid (fun x => x.2.choices) (sigPairs sort db)

theorem mem_optPairs {κ α ι : Type} {key : ι → κ} {o : ι → Option α} {l : List ι} {p : κ × α} :
    p ∈ optPairs key o l ↔ ∃ a ∈ l, p.1 = key a ∧ o a = some p.2 := by
  unfold optPairs
  simp only [List.mem_flatMap, Option.mem_toList, Option.map_eq_some_iff]
  constructor
  · rintro ⟨a, ha, v, hv, rfl⟩; exact ⟨a, ha, rfl, hv⟩
  · rintro ⟨a, ha, h1, h2⟩; exact ⟨a, ha, p.2, h2, by rw [← h1]⟩

theorem mem_sigPairs_iff (hs : Sorts sort) {x : DMessage F × DSignal F} :
    x ∈ sigPairs sort db ↔ x.1 ∈ db.messages ∧ x.2 ∈ x.1.signals := by
  constructor
  · intro h
    unfold sigPairs at h
    obtain ⟨m, hm, h⟩ := List.mem_flatMap.1 h
    obtain ⟨s, hm2, rfl⟩ := List.mem_map.1 h
    exact ⟨hm, (hs _).mem_iff.1 hm2⟩
  · intro h; exact mem_sigPairs hs h.1 h.2

theorem load_choices (W : WritableDatabase T db) (hsa : Sorts sortAttrs) :
    loadChoices (treesOf T sort sortAttrs db) = .ok (accum last [] (choicePairs sortAttrs db)) := by
  unfold loadChoices
  rw [entriesOf_part (label := "VAL_") (by part)]
  have : (eChoices sortAttrs db).map Entry.tree = (choicePairs sortAttrs db).map
      fun p => (Entry.choices (intText p.1.1) p.1.2 (p.2.map pairE)).tree := by
    unfold eChoices choicePairs optPairs sigPairs
    simp only [List.map_flatMap, List.flatMap_assoc, List.flatMap_map, map_toList]
    rfl
  simp only [this]
  apply foldlM_accum
  intro p hp d
  obtain ⟨x, hx, h1, h2⟩ := mem_optPairs.1 hp
  rw [mem_sigPairs_iff hsa] at hx
  have hc := ((W.messages _ hx.1).signals _ hx.2).choices _ h2
  rd
  rw [loadPairs_map hc.2.1]
  simp only [ok_bind2]
  rw [if_neg hc.1]
  rfl

/-- The types of the floating point signals. -/
def typePairs (db : DDatabase F) : List ((Int × Chars) × Int) :=
  optPairs sid (fun x => if x.2.isFloat = true then some (if x.2.length = 32 then (1 : Int) else 2) else none)
    (sigPairs id db)

theorem load_types (db : DDatabase F) :
    loadSignalTypes (treesOf T sort sortAttrs db) = .ok (accum last [] (typePairs db)) := by
  unfold loadSignalTypes
  rw [entriesOf_part (label := "SIG_VALTYPE_") (by part)]
  have : (eTypes db).map Entry.tree = (typePairs db).map
      fun p => (Entry.sigType (intText p.1.1) p.1.2 (intText p.2)).tree := by
    unfold eTypes typePairs optPairs sigPairs
    simp only [List.map_flatMap, List.flatMap_assoc, List.flatMap_map, List.map_map, id]
    apply List.flatMap_congr
    intro m _
    induction m.signals with
    | nil => rfl
    | cons s r ih =>
      rw [List.flatMap_cons, ← ih]
      by_cases h : s.isFloat = true
      · rw [List.filter_cons_of_pos h, if_pos h]
        simp only [List.map_cons, Option.map_some, Option.toList_some, List.map_nil, List.cons_append, List.nil_append]
        congr 1
        have : (if s.length = 32 then ['1'] else ['2']) = intText (if s.length = 32 then (1 : Int) else 2) := by
          split <;> decide +kernel
        simp only [Function.comp_apply, this]
        rfl
      · rw [List.filter_cons_of_neg h, if_neg h]
        rfl
  simp only [this]
  apply foldlM_accum
  intro p _ d
  rd
  rfl

/-! ### Sections with several values -/

/-- The senders that are written in a separate section. -/
def senderPairs (db : DDatabase F) : List (Int × List Chars) :=
  allPairs mid (fun m => if 1 < m.senders.length then [m.senders] else []) db.messages

theorem senders_eq (db : DDatabase F) : (eSenders db).map Entry.tree = (senderPairs db).map
    fun p => (Entry.senders (intText p.1) (p.2.head?.getD []) p.2.tail).tree := by
  unfold eSenders senderPairs allPairs
  induction db.messages with
  | nil => rfl
  | cons m r ih =>
    rw [List.flatMap_cons, List.map_append, ← ih]
    dsimp only
    by_cases h : 1 < m.senders.length
    · rw [List.filter_cons_of_pos (by simpa using h), if_pos h]
      rfl
    · rw [List.filter_cons_of_neg (by simpa using h), if_neg h]
      rfl

theorem load_senders (as : Attributes F) :
    loadSenders T (treesOf T sort sortAttrs db) as =
      .ok (accum (fun o l => o.getD [] ++ l.map (nodeLongName T as)) [] (senderPairs db)) := by
  unfold loadSenders
  rw [entriesOf_part (label := "BO_TX_BU_") (by part), senders_eq]
  apply foldlM_accum
  intro p hp d
  have : p.2.head?.getD [] :: p.2.tail = p.2 := by
    unfold senderPairs allPairs at hp
    simp only [List.mem_flatMap, List.mem_map] at hp
    obtain ⟨m, _, v, hv, rfl⟩ := hp
    split at hv
    · rename_i h
      rw [List.mem_singleton] at hv
      subst hv
      cases hs : m.senders with
      | nil => rw [hs] at h; simp at h
      | cons a r => rfl
    · cases hv
  simp only [Entry.tree, this]
  rd
  rfl

/-- The multiplexer entries of a message. -/
def muxPairs (T : FloatText F) (db : DDatabase F) : List (Int × MuxEntry) :=
  allPairs mid (fun m => if extendedMuxNeeded db = true then
    ((m.signals.map (·.core T)).filter fun s => !(s.multiplexerIds.getD []).isEmpty).map muxEntry else []) db.messages

def muxTree (p : Int × MuxEntry) : Tree :=
  .list [sk "SG_MUL_VAL_", st (intText p.1), st p.2.signal.toList, st p.2.multiplexer.toList,
    .list (p.2.ranges.map fun r => rangeTree (rangeE r)), sk ";"]

theorem muxSig_tree (T : FloatText F) (m : DMessage F) {s : DSignal F} (h : (s.multiplexerIds.getD []) ≠ []) :
    (eMuxSig m s).tree = muxTree (mid m, muxEntry (s.core T)) := by
  have hr : muxRanges s = (muxEntry (s.core T)).ranges := rfl
  have hne : (muxRanges s).map rangeE ≠ [] := by
    obtain ⟨rs, h1, h2⟩ := createMuxRanges_spec h
    have : muxRanges s = rs := by unfold muxRanges; rw [h1]
    rw [this]
    intro hn
    rw [List.map_eq_nil_iff] at hn
    subst hn
    obtain ⟨i, hi⟩ := List.exists_mem_of_ne_nil _ h
    have := (h2 i).2 hi
    simp [expandRanges] at this
  have h1 : ((muxRanges s).map rangeE).head?.getD ([], []) :: ((muxRanges s).map rangeE).tail =
      (muxRanges s).map rangeE := by
    cases h : (muxRanges s).map rangeE with
    | nil => exact absurd h hne
    | cons a r => rfl
  unfold eMuxSig muxTree
  simp only [Entry.tree, h1]
  have h2 : (muxEntry (s.core T)).signal.toList = s.name := by
    simp [muxEntry, DSignal.core]
  have h3 : (muxEntry (s.core T)).multiplexer.toList = s.multiplexerSignal.getD "None".toList := by
    simp only [muxEntry, muxName, DSignal.core]
    cases s.multiplexerSignal <;> simp
  rw [h2, h3, ← hr, List.map_map]
  rfl

theorem loadRange_tree {r : Int × Int} : loadRange (rangeTree (rangeE r)) = .ok r := by
  unfold loadRange rangeTree rangeE
  rd
  rw [List.tail_cons, readInt_intText]
  rfl

theorem load_mux (T : FloatText F) (db : DDatabase F) :
    loadMuxEntries (treesOf T sort sortAttrs db) = .ok (accum (fun o e => o.getD [] ++ [e]) [] (muxPairs T db)) := by
  unfold loadMuxEntries
  rw [entriesOf_part (label := "SG_MUL_VAL_") (by part)]
  have : (eMux db).map Entry.tree = (muxPairs T db).map muxTree := by
    unfold eMux muxPairs allPairs
    by_cases h : extendedMuxNeeded db = true
    · simp only [if_pos h, List.map_flatMap, List.map_map]
      apply List.flatMap_congr
      intro m _
      rw [List.filter_map, List.map_map]
      apply List.map_congr_left
      intro s hs
      simp only [List.mem_filter, Bool.not_eq_true', List.isEmpty_eq_false_iff] at hs
      exact muxSig_tree T m hs.2
    · simp only [if_neg h, List.map_nil]
      simp
  simp only [this]
  apply foldlM_accum
  intro p _ d
  unfold muxTree
  rd
  have : (p.2.ranges.map fun r => rangeTree (rangeE r)).mapM loadRange = .ok p.2.ranges := by
    rw [List.mapM_map]
    have := mapM_ok_map (f := loadRange ∘ fun r => rangeTree (rangeE r)) (g := id) (l := p.2.ranges)
      fun r _ => loadRange_tree
    rw [List.map_id] at this
    exact this
  rw [this]
  simp only [ok_bind2, String.ofList_toList]
  rfl

/-- A signal group as it is written. -/
def writtenGroup (m : DMessage F) (g : DGroup) : DGroup :=
  { g with signalNames := g.signalNames.filter fun n => n ∈ m.signals.map (·.name) }

/-- A signal group as it is read. -/
def readGroup (T : FloatText F) (as : Attributes F) (m : DMessage F) (g : DGroup) : DGroup :=
  { name := g.name, repetitions := g.repetitions
    signalNames := (writtenGroup m g).signalNames.map fun n =>
      longName T systemSignal ((dictGet? as.signals (mid m, n)).getD []) n }

/-- The signal groups of messages: as they are written and as they are read. -/
def groupPairs (T : FloatText F) (as : Attributes F) (db : DDatabase F) : List (Int × (DGroup × DGroup)) :=
  allPairs mid (fun m => (m.signalGroups.getD []).map fun g =>
    (writtenGroup m g, readGroup T as m g)) db.messages

theorem load_groups (T : FloatText F) (as : Attributes F) (db : DDatabase F) :
    loadSignalGroups T (treesOf T sort sortAttrs db) as =
      .ok (accum (fun o e => o.getD [] ++ [e.2]) [] (groupPairs T as db)) := by
  unfold loadSignalGroups
  rw [entriesOf_part (label := "SIG_GROUP_") (by part)]
  have : (eGroups db).map Entry.tree = (groupPairs T as db).map fun p =>
      (Entry.group (intText p.1) p.2.1.name (intText p.2.1.repetitions) p.2.1.signalNames).tree := by
    unfold eGroups groupPairs allPairs
    simp only [List.map_flatMap, List.map_map]
    rfl
  simp only [this]
  apply foldlM_accum
  intro p hp d
  unfold groupPairs allPairs at hp
  simp only [List.mem_flatMap, List.mem_map] at hp
  obtain ⟨m, _, x, ⟨g, _, rfl⟩, rfl⟩ := hp
  rd
  rfl

/-! ### Comments -/

inductive CItem where
  | bus (t : Chars)
  | node (p : Chars × Chars)
  | msg (p : Int × Chars)
  | sig (p : (Int × Chars) × Chars)
  | ev (p : Chars × Chars)

def CItem.entry : CItem → Entry
  | .bus t => .busComment (pq t)
  | .node p => .comment (.node p.1) (cq p.2)
  | .msg p => .comment (.msg (intText p.1)) (cq p.2)
  | .sig p => .comment (.sig (intText p.1.1) p.1.2) (cq p.2)
  | .ev p => .comment (.ev p.1) (cq p.2)

def CItem.bus? : CItem → Option Chars | .bus t => some t | _ => none
def CItem.node? : CItem → Option (Chars × Chars) | .node p => some p | _ => none
def CItem.msg? : CItem → Option (Int × Chars) | .msg p => some p | _ => none
def CItem.sig? : CItem → Option ((Int × Chars) × Chars) | .sig p => some p | _ => none
def CItem.ev? : CItem → Option (Chars × Chars) | .ev p => some p | _ => none

def CItem.add (c : Comments) : CItem → Comments
  | .bus t => { c with bus := some (c.bus.getD [] ++ t) }
  | .node p => { c with nodes := dictSet c.nodes p.1 p.2 }
  | .msg p => { c with messages := dictSet c.messages p.1 p.2 }
  | .sig p => { c with signals := dictSet c.signals p.1 p.2 }
  | .ev p => { c with envvars := dictSet c.envvars p.1 p.2 }

theorem kind_ne : "BO_".toList ≠ "SG_".toList ∧ "BU_".toList ≠ "SG_".toList ∧ "BU_".toList ≠ "BO_".toList ∧
    "EV_".toList ≠ "SG_".toList ∧ "EV_".toList ≠ "BO_".toList ∧ "EV_".toList ≠ "BU_".toList := by decide +kernel

theorem loadComment_item (c : Comments) (x : CItem) : loadComment c x.entry.tree = .ok (x.add c) := by
  obtain ⟨h1, h2, h3, h4, h5, h6⟩ := kind_ne
  unfold loadComment
  cases x with
  | bus t => rfl
  | node p =>
    simp only [CItem.entry]
    rd
    rw [if_neg h2, if_neg h3, if_pos trivial]
    rfl
  | msg p =>
    simp only [CItem.entry]
    rd
    rw [if_neg h1, if_pos trivial]
    rfl
  | sig p =>
    simp only [CItem.entry]
    rd
    rw [if_pos trivial]
    rfl
  | ev p =>
    simp only [CItem.entry]
    rd
    rw [if_neg h4, if_neg h5, if_neg h6, if_pos trivial]
    rfl

theorem loadComments_items (l : List CItem) (c : Comments) :
    (l.map fun x => x.entry.tree).foldlM loadComment c = .ok
      { bus := (l.filterMap CItem.bus?).foldl (fun o t => some (o.getD [] ++ t)) c.bus
        nodes := accum last c.nodes (l.filterMap CItem.node?)
        envvars := accum last c.envvars (l.filterMap CItem.ev?)
        messages := accum last c.messages (l.filterMap CItem.msg?)
        signals := accum last c.signals (l.filterMap CItem.sig?) } := by
  induction l generalizing c with
  | nil => rfl
  | cons x r ih =>
    rw [List.map_cons, List.foldlM_cons, loadComment_item, ok_bind2, ih]
    cases x <;> rfl

def commentItems (sort : List (DSignal F) → List (DSignal F)) (db : DDatabase F) : List CItem :=
  (db.buses.flatMap fun b => (b.comment.map CItem.bus).toList) ++
  (db.nodes.flatMap fun n => (n.comment.map fun c => CItem.node (n.name, c)).toList) ++
  (db.messages.flatMap fun m =>
    (m.comment.map fun c => CItem.msg (mid m, c)).toList ++
    (sort m.signals).flatMap fun s => (s.comment.map fun c => CItem.sig ((mid m, s.name), c)).toList) ++
  (db.envvars.flatMap fun e => (e.2.comment.map fun c => CItem.ev (e.2.name, c)).toList)

theorem comments_eq (sort : List (DSignal F) → List (DSignal F)) (db : DDatabase F) :
    (eComments sort db).map Entry.tree = (commentItems sort db).map fun x => x.entry.tree := by
  unfold eComments commentItems
  simp only [List.map_append, List.map_flatMap, map_toList]
  rfl

theorem filterMap_toList {α β γ : Type} (g : β → Option γ) (f : α → β) (o : Option α) :
    ((o.map f).toList).filterMap g = (o.bind fun a => g (f a)).toList := by
  cases o with
  | none => rfl
  | some a => simp only [Option.map_some, Option.toList_some, Option.bind_some, List.filterMap_cons, List.filterMap_nil]; cases g (f a) <;> rfl

theorem filterMap_flatMap' {α β γ : Type} (g : β → Option γ) (f : α → List β) (l : List α) :
    (l.flatMap f).filterMap g = l.flatMap fun a => (f a).filterMap g := by
  induction l with
  | nil => rfl
  | cons a r ih => rw [List.flatMap_cons, List.filterMap_append, ih, List.flatMap_cons]

theorem flatMap_nil' {α β : Type} (l : List α) : (l.flatMap fun _ => ([] : List β)) = [] := by
  induction l with
  | nil => rfl
  | cons a r ih => exact ih

/-- The comments that are read. -/
def gotComments (sort : List (DSignal F) → List (DSignal F)) (db : DDatabase F) : Comments :=
  { bus := (db.buses.flatMap fun b => b.comment.toList).foldl (fun o t => some (o.getD [] ++ t)) none
    nodes := accum last [] (optPairs (·.name) (·.comment) db.nodes)
    envvars := accum last [] (optPairs (·.2.name) (·.2.comment) db.envvars)
    messages := accum last [] (optPairs mid (·.comment) db.messages)
    signals := accum last [] (optPairs sid (·.2.comment) (sigPairs sort db)) }

theorem bind_none' {α β : Type} (o : Option α) : (o.bind fun _ => (none : Option β)) = none := by cases o <;> rfl
theorem bind_some' {α β : Type} (o : Option α) (f : α → β) : (o.bind fun a => some (f a)) = o.map f := by cases o <;> rfl

theorem load_comments (T : FloatText F) (sort sortAttrs : List (DSignal F) → List (DSignal F)) (db : DDatabase F) :
    loadComments (treesOf T sort sortAttrs db) = .ok (gotComments sortAttrs db) := by
  unfold loadComments
  rw [entriesOf_part (label := "CM_") (by part), comments_eq, loadComments_items]
  unfold commentItems gotComments optPairs sigPairs
  simp only [List.filterMap_append, filterMap_flatMap', filterMap_toList, CItem.bus?, CItem.node?, CItem.msg?,
    CItem.sig?, CItem.ev?, bind_none', bind_some', Option.toList_none, flatMap_nil', List.append_nil, List.nil_append,
    List.flatMap_assoc, List.flatMap_map, Option.bind_fun_some]
  rfl

/-! ### Definitions of attributes -/

/-- The texts of the defaults. -/
def defaultPairs (T : FloatText F) (defs : Defs F) : List (Chars × Chars) :=
  optPairs (fun e : Chars × AttrDef F => e.2.name) (fun e => e.2.default.map (·.text T)) defs

theorem valE_text (q : Bool) (t : Chars) : (valE q t).text = t := by cases q <;> rfl

theorem load_defaults (T : FloatText F) (sort sortAttrs : List (DSignal F) → List (DSignal F)) (db : DDatabase F) :
    loadDefaults (treesOf T sort sortAttrs db) = .ok (accum last [] (defaultPairs T (syncDefinitions T db))) := by
  unfold loadDefaults
  rw [entriesOf_part (label := "BA_DEF_DEF_") (by part)]
  have : (eDefaults T (syncDefinitions T db)).map Entry.tree = (defaultPairs T (syncDefinitions T db)).map
      fun p => (Entry.attrDefault (pq p.1) (.num p.2)).tree := by
    unfold eDefaults defaultPairs optPairs
    induction syncDefinitions T db with
    | nil => rfl
    | cons e r ih =>
      rw [List.flatMap_cons, List.map_append, ← ih, List.filterMap_cons]
      dsimp only
      cases e.2.default with
      | none => rfl
      | some v =>
        have := valE_text (decide (e.2.typeName = some "STRING") || decide (e.2.typeName = some "ENUM")) (v.text T)
        simp only [Option.map_some, List.map_cons, Option.toList_some, List.map_nil, List.cons_append, List.nil_append,
          eDefault, Entry.tree, this]
        rfl
  simp only [this]
  apply foldlM_accum
  intro p _ d
  rd
  rfl

variable (L : FloatLaws T)

include L in
theorem convert_default {d : AttrDef F} {t : String} (ht : d.typeName = some t) (h : DefOk d) {v : AttrVal F}
    (hv : d.default = some v) : convertValue T t (v.text T) = .ok v := by
  have := h.default v hv
  unfold convertValue
  rw [ht] at this
  cases v with
  | num n =>
    cases n with
    | int i =>
      simp only [Option.some.injEq] at this
      rw [if_pos this]
      show (toInt (intText i)).map _ = _
      rw [toInt_intText]
      rfl
    | float f =>
      simp only [Option.some.injEq] at this
      subst this
      rw [if_neg (by decide), if_pos rfl]
      show (T.read (T.show_ f)).map _ = _
      rw [L.read_show]
      rfl
  | str s =>
    simp only [Option.some.injEq] at this
    rcases this.1 with rfl | rfl <;> (rw [if_neg (by decide), if_neg (by decide)]; rfl)

theorem bind_of_ok {α β : Type} {x : Except Err α} {a : α} {f : α → Except Err β} (h : x = .ok a) :
    (x >>= f) = f a := by rw [h]; rfl

include L in
theorem loadDef_eq {d : AttrDef F} (h : DefOk d) {defaults : List (Chars × Chars)}
    (hd : dictGet? defaults d.name = d.default.map (·.text T)) :
    loadDef T defaults (eDef T d).tree = .ok (gotDef T d) := by
  obtain ⟨t, ht⟩ : ∃ t, d.typeName = some t := by
    rcases h.type with h | h | h | h | h <;> exact ⟨_, h⟩
  have hk : (match (match d.kind with | none => [] | some k => [sk k] : List Tree) with
      | [] => .ok none
      | k :: _ => (asStr k).map fun s => some (String.ofList s) : Except Err (Option String)) = .ok d.kind := by
    cases d.kind with
    | none => rfl
    | some k => simp [Except.map]
  have hfin : ∀ x : AttrDef F, x = { gotDef T d with default := none } →
      (match dictGet? defaults d.name with
        | none => pure x
        | some v => do
          let v ← convertValue T t v
          pure { x with default := some v } : Except Err (AttrDef F)) = .ok (gotDef T d) := by
    rintro x rfl
    rw [hd]
    have hdef : (gotDef T d).default = d.default := gotDef_default T d
    cases hv : d.default with
    | none =>
      rw [hv] at hdef
      simp only [Option.map_none]
      show Except.ok _ = _
      congr 1
      rw [← hdef]
    | some v =>
      rw [hv] at hdef
      simp only [Option.map_some]
      rw [convert_default L ht h hv]
      show Except.ok _ = _
      congr 1
      rw [← hdef]
  unfold loadDef eDef
  rd
  refine (bind_of_ok hk).trans ?_
  simp only [ht, Option.getD_some, String.ofList_toList]
  by_cases hc : d.choices = []
  · have hval : (defVals T d).texts = match d.minimum, d.maximum with
        | some a, some b => [a.text T, b.text T]
        | _, _ => [] := by
      unfold defVals
      rw [hc]
      cases d.minimum <;> cases d.maximum <;> rfl
    rcases h.limits with ⟨h1, h2⟩ | ⟨a, b, h1, h2, htype⟩ | ⟨a, b, h1, h2, htype⟩
    · rw [hval, h1, h2]
      simp only [List.map_nil]
      rw [if_pos trivial]
      simp only [ok_bind2]
      apply hfin
      unfold gotDef
      rw [h1, h2]
      split <;> (cases d; simp_all)
    · rw [hval, h1, h2]
      rw [ht] at htype
      simp only [Option.some.injEq] at htype
      rw [if_neg (by simp), if_neg (by rcases htype with rfl | rfl <;> decide),
        if_pos (by rcases htype with rfl | rfl <;> decide)]
      have hl : ∀ i : Int, convertLimit T t ((Num.int i : Num F).text T) = .ok (.int i) := by
        intro i
        unfold convertLimit
        rw [if_neg (by rcases htype with rfl | rfl <;> decide)]
        show (toInt (intText i)).map _ = _
        rw [toInt_intText]
        rfl
      rd
      rw [hl, hl]
      simp only [ok_bind2]
      apply hfin
      unfold gotDef
      rw [ht, if_neg (by rcases htype with rfl | rfl <;> decide)]
      cases d; simp_all
    · rw [hval, h1, h2]
      rw [ht] at htype
      simp only [Option.some.injEq] at htype
      subst htype
      rw [if_neg (by simp), if_neg (by decide), if_pos (by decide)]
      have hl : ∀ n : Num F, convertLimit T "FLOAT" (n.text T) = .ok (.float (n.toFloat T)) := by
        intro n
        unfold convertLimit
        rw [if_pos rfl]
        show (T.read _).map _ = _
        rw [read_text L]
        rfl
      rd
      rw [hl, hl]
      simp only [ok_bind2]
      apply hfin
      unfold gotDef
      rw [ht, if_pos rfl, h1, h2]
      cases d; simp_all
  · have htype := h.enum hc
    rw [ht] at htype
    simp only [Option.some.injEq] at htype
    subst htype
    have hval : (defVals T d).texts = d.choices ∧ d.choices ≠ [] := by
      unfold defVals
      cases hcs : d.choices with
      | nil => exact absurd hcs hc
      | cons c r =>
        refine ⟨?_, by simp⟩
        simp only [DefVals.texts, List.map_cons, List.map_map]
        congr 1
        simp [pq, Function.comp_def]
    rw [hval.1, if_neg (by simpa using hval.2), if_pos rfl]
    apply hfin
    have hl : d.minimum = none ∧ d.maximum = none := by
      rcases h.limits with h1 | ⟨a, b, h1, h2, htype⟩ | ⟨a, b, h1, h2, htype⟩
      · exact h1
      · rw [ht] at htype; simp at htype
      · rw [ht] at htype; simp at htype
    unfold gotDef
    rw [ht, if_neg (by decide)]
    cases d; simp_all

include L in
theorem load_defs (W : WritableDatabase T db) : loadDefs T (treesOf T sort sortAttrs db)
    (accum last [] (defaultPairs T (syncDefinitions T db))) = .ok (gotDefs T (syncDefinitions T db)) := by
  unfold loadDefs
  rw [entriesOf_part (label := "BA_DEF_") (by part)]
  obtain ⟨hnd, hok⟩ := sync_ok T W
  have hnd' : ((syncDefinitions T db).map fun e => e.2.name).Nodup := by
    rw [← List.map_congr_left fun e he => (hok e he).1]; exact hnd
  have hget : ∀ e ∈ syncDefinitions T db, dictGet? (accum last [] (defaultPairs T (syncDefinitions T db))) e.2.name =
      e.2.default.map (·.text T) := fun e he =>
    last_get (key := fun e : Chars × AttrDef F => e.2.name) hnd' (fun e => e.2.default.map (·.text T)) he
  have hfold : ∀ (l acc : Defs F), (∀ e ∈ l, e ∈ syncDefinitions T db) →
      ((eDefs T l).map Entry.tree).foldlM (fun acc entry => do
        let d ← loadDef T (accum last [] (defaultPairs T (syncDefinitions T db))) entry
        return dictSet acc d.name d) acc = .ok (accum last acc (gotDefs T l)) := by
    intro l
    induction l with
    | nil => intro acc _; rfl
    | cons e r ih =>
      intro acc hl
      unfold eDefs
      rw [List.map_cons, List.map_cons, List.foldlM_cons,
        loadDef_eq L (hok e (hl e (by simp))).2 (hget e (hl e (by simp)))]
      simp only [ok_bind2]
      have := ih (dictSet acc e.1 (gotDef T e.2)) fun x hx => hl x (List.mem_cons_of_mem _ hx)
      rw [gotDef_name, ← (hok e (hl e (by simp))).1]
      exact this
  rw [hfold _ _ fun e he => he, accum_last_nodup]
  unfold gotDefs
  rw [List.map_map]
  exact hnd

/-! ### Attributes -/

/-- An attribute of an object. -/
inductive AItem (F : Type) where
  | db (e : Chars × Attr F)
  | node (k : Chars) (e : Chars × Attr F)
  | msg (k : Int) (e : Chars × Attr F)
  | sig (k : Int × Chars) (e : Chars × Attr F)
  | ev (k : Chars) (e : Chars × Attr F)

def AItem.attr : AItem F → Chars × Attr F
  | .db e => e
  | .node _ e => e
  | .msg _ e => e
  | .sig _ e => e
  | .ev _ e => e

def AItem.obj : AItem F → Option Obj
  | .db _ => none
  | .node k _ => some (.node k)
  | .msg k _ => some (.msg (intText k))
  | .sig k _ => some (.sig (intText k.1) k.2)
  | .ev k _ => some (.ev k)

def AItem.db? : AItem F → Option (Chars × Attr F) | .db e => some e | _ => none
def AItem.node? : AItem F → Option (Chars × (Chars × Attr F)) | .node k e => some (k, e) | _ => none
def AItem.msg? : AItem F → Option (Int × (Chars × Attr F)) | .msg k e => some (k, e) | _ => none
def AItem.sig? : AItem F → Option ((Int × Chars) × (Chars × Attr F)) | .sig k e => some (k, e) | _ => none
def AItem.ev? : AItem F → Option (Chars × (Chars × Attr F)) | .ev k e => some (k, e) | _ => none

/-- The attribute as it is read. -/
def gotItem (T : FloatText F) (g : Defs F) (e : Chars × Attr F) : Chars × Attr F := (e.1, gotAttr T g e.2)

def AItem.add (T : FloatText F) (g : Defs F) (c : Attributes F) : AItem F → Attributes F
  | .db e => { c with database := dictSet c.database e.1 (gotAttr T g e.2) }
  | .node k e => { c with nodes := setNested c.nodes k e.1 (gotAttr T g e.2) }
  | .msg k e => { c with messages := setNested c.messages k e.1 (gotAttr T g e.2) }
  | .sig k e => { c with signals := setNested c.signals k e.1 (gotAttr T g e.2) }
  | .ev k e => { c with envvars := setNested c.envvars k e.1 (gotAttr T g e.2) }

/-- The attribute can be read. -/
def ReadOk (T : FloatText F) (g : Defs F) (e : Chars × Attr F) : Prop :=
  e.1 = e.2.definition.name ∧ readAttr T g e.2.definition.name (e.2.value.text T) = .ok (gotAttr T g e.2)

theorem toAttribute_eq (T : FloatText F) (g : Defs F) (a b : Tree) (n r : Chars) (l : List Tree) :
    toAttribute T g (a :: st n :: b :: st r :: l) = readAttr T g n r := by
  unfold toAttribute readAttr
  rd

theorem loadAttribute_item {T : FloatText F} {g : Defs F} (c : Attributes F) {x : AItem F} (h : ReadOk T g x.attr) :
    loadAttribute T g c (eAttr T x.obj x.attr.2).tree = .ok (x.add T g c) := by
  obtain ⟨h1, h2, h3, h4, h5, h6⟩ := kind_ne
  obtain ⟨hk, hr⟩ := h
  have hv := valE_text (decide (x.attr.2.definition.typeName = some "STRING")) (x.attr.2.value.text T)
  unfold loadAttribute eAttr
  cases x with
  | db e =>
    simp only [AItem.obj, AItem.attr] at *
    rw [← hk] at hr
    simp only [Entry.tree, hv, ← hk]
    rd
    rw [toAttribute_eq]
    simp only [hr, ok_bind2]
    rfl
  | node k e =>
    simp only [AItem.obj, AItem.attr] at *
    rw [← hk] at hr
    simp only [Entry.tree, hv, ← hk]
    rd
    rw [if_neg h2, if_neg h3, if_pos trivial, toAttribute_eq]
    simp only [hr, ok_bind2]
    rfl
  | msg k e =>
    simp only [AItem.obj, AItem.attr] at *
    rw [← hk] at hr
    simp only [Entry.tree, hv, ← hk]
    rd
    rw [if_neg h1, if_pos trivial, toAttribute_eq]
    simp only [hr, ok_bind2]
    rfl
  | sig k e =>
    simp only [AItem.obj, AItem.attr] at *
    rw [← hk] at hr
    simp only [Entry.tree, hv, ← hk]
    rd
    rw [if_pos trivial, toAttribute_eq]
    simp only [hr, ok_bind2]
    rfl
  | ev k e =>
    simp only [AItem.obj, AItem.attr] at *
    rw [← hk] at hr
    simp only [Entry.tree, hv, ← hk]
    rd
    rw [if_neg h4, if_neg h5, if_neg h6, if_pos trivial, toAttribute_eq]
    simp only [hr, ok_bind2]
    rfl

/-- Attributes as they are read, for keys of objects. -/
def gotPairs {κ : Type} (T : FloatText F) (g : Defs F) (l : List (κ × (Chars × Attr F))) : List (κ × (Chars × Attr F)) :=
  l.map fun p => (p.1, gotItem T g p.2)

theorem loadAttributes_items {T : FloatText F} {g : Defs F} {l : List (AItem F)} (h : ∀ x ∈ l, ReadOk T g x.attr)
    (c : Attributes F) :
    (l.map fun x => (eAttr T x.obj x.attr.2).tree).foldlM (loadAttribute T g) c = .ok
      { database := accum last c.database ((l.filterMap AItem.db?).map (gotItem T g))
        nodes := accum nest c.nodes (gotPairs T g (l.filterMap AItem.node?))
        envvars := accum nest c.envvars (gotPairs T g (l.filterMap AItem.ev?))
        messages := accum nest c.messages (gotPairs T g (l.filterMap AItem.msg?))
        signals := accum nest c.signals (gotPairs T g (l.filterMap AItem.sig?)) } := by
  induction l generalizing c with
  | nil => rfl
  | cons x r ih =>
    rw [List.map_cons, List.foldlM_cons, loadAttribute_item c (h x (by simp)), ok_bind2,
      ih fun y hy => h y (List.mem_cons_of_mem _ hy)]
    cases x <;> rfl

def attrItems (T : FloatText F) (sort : List (DSignal F) → List (DSignal F)) (defs : Defs F) (db : DDatabase F) :
    List (AItem F) :=
  ((dbAttrs defs db).map AItem.db) ++
  (db.envvars.flatMap fun e => e.2.attributes.map (AItem.ev e.2.name)) ++
  (db.nodes.flatMap fun n => n.attributes.map (AItem.node n.name)) ++
  db.messages.flatMap fun m =>
    ((msgAttrs T defs m).map (AItem.msg (mid m))) ++
      (sort m.signals).flatMap fun s => (syncStartValue T s).map (AItem.sig (mid m, s.name))

theorem attrs_eq (T : FloatText F) (sort : List (DSignal F) → List (DSignal F)) (defs : Defs F) (db : DDatabase F) :
    (eAttrs T sort defs db).map Entry.tree =
      (attrItems T sort defs db).map fun x => (eAttr T x.obj x.attr.2).tree := by
  unfold eAttrs attrItems eMsgAttrs
  simp only [List.map_append, List.map_flatMap, List.map_map]
  rfl

/-- The attributes that are read. -/
def gotAttrs (T : FloatText F) (sort : List (DSignal F) → List (DSignal F)) (defs : Defs F) (db : DDatabase F) :
    Attributes F :=
  { database := accum last [] (loadedAttrs T defs (dbAttrs defs db))
    nodes := accum nest [] (allPairs (·.name) (fun n => loadedAttrs T defs n.attributes) db.nodes)
    envvars := accum nest [] (allPairs (·.2.name) (fun e => loadedAttrs T defs e.2.attributes) db.envvars)
    messages := accum nest [] (allPairs mid (fun m => loadedAttrs T defs (msgAttrs T defs m)) db.messages)
    signals := accum nest [] (allPairs sid (fun x => loadedAttrs T defs (syncStartValue T x.2)) (sigPairs sort db)) }

theorem filterMap_map_none {α β γ : Type} {f : α → β} {g : β → Option γ} (h : ∀ a, g (f a) = none) (l : List α) :
    (l.map f).filterMap g = [] := by
  rw [List.filterMap_map, List.filterMap_eq_nil_iff]
  intro a _
  exact h a

theorem filterMap_map_some {α β γ : Type} {f : α → β} {g : β → Option γ} {k : α → γ} (h : ∀ a, g (f a) = some (k a))
    (l : List α) : (l.map f).filterMap g = l.map k := by
  rw [List.filterMap_map, ← List.filterMap_eq_map]
  congr 1
  funext a
  exact h a

include L in
theorem load_attributes (W : WritableDatabase T db) (hsa : Sorts sortAttrs) :
    loadAttributes T (treesOf T sort sortAttrs db) (gotDefs T (syncDefinitions T db)) =
      .ok (gotAttrs T sortAttrs (syncDefinitions T db) db) := by
  unfold loadAttributes
  rw [entriesOf_part (label := "BA_") (by part), attrs_eq, loadAttributes_items]
  · unfold attrItems gotAttrs allPairs sigPairs gotPairs
    simp only [List.filterMap_append, filterMap_flatMap', 
      fun l => filterMap_map_some (f := AItem.db) (g := AItem.db? (F := F)) (k := id) (fun _ => rfl) l,
      fun k l => filterMap_map_none (f := AItem.ev k) (g := AItem.db? (F := F)) (fun _ => rfl) l,
      fun k l => filterMap_map_none (f := AItem.node k) (g := AItem.db? (F := F)) (fun _ => rfl) l,
      fun k l => filterMap_map_none (f := AItem.msg k) (g := AItem.db? (F := F)) (fun _ => rfl) l,
      fun k l => filterMap_map_none (f := AItem.sig k) (g := AItem.db? (F := F)) (fun _ => rfl) l,
      fun l => filterMap_map_none (f := AItem.db) (g := AItem.node? (F := F)) (fun _ => rfl) l,
      fun k l => filterMap_map_none (f := AItem.ev k) (g := AItem.node? (F := F)) (fun _ => rfl) l,
      fun k l => filterMap_map_some (f := AItem.node k) (g := AItem.node? (F := F)) (k := fun e => (k, e)) (fun _ => rfl) l,
      fun k l => filterMap_map_none (f := AItem.msg k) (g := AItem.node? (F := F)) (fun _ => rfl) l,
      fun k l => filterMap_map_none (f := AItem.sig k) (g := AItem.node? (F := F)) (fun _ => rfl) l,
      fun l => filterMap_map_none (f := AItem.db) (g := AItem.ev? (F := F)) (fun _ => rfl) l,
      fun k l => filterMap_map_some (f := AItem.ev k) (g := AItem.ev? (F := F)) (k := fun e => (k, e)) (fun _ => rfl) l,
      fun k l => filterMap_map_none (f := AItem.node k) (g := AItem.ev? (F := F)) (fun _ => rfl) l,
      fun k l => filterMap_map_none (f := AItem.msg k) (g := AItem.ev? (F := F)) (fun _ => rfl) l,
      fun k l => filterMap_map_none (f := AItem.sig k) (g := AItem.ev? (F := F)) (fun _ => rfl) l,
      fun l => filterMap_map_none (f := AItem.db) (g := AItem.msg? (F := F)) (fun _ => rfl) l,
      fun k l => filterMap_map_none (f := AItem.ev k) (g := AItem.msg? (F := F)) (fun _ => rfl) l,
      fun k l => filterMap_map_none (f := AItem.node k) (g := AItem.msg? (F := F)) (fun _ => rfl) l,
      fun k l => filterMap_map_some (f := AItem.msg k) (g := AItem.msg? (F := F)) (k := fun e => (k, e)) (fun _ => rfl) l,
      fun k l => filterMap_map_none (f := AItem.sig k) (g := AItem.msg? (F := F)) (fun _ => rfl) l,
      fun l => filterMap_map_none (f := AItem.db) (g := AItem.sig? (F := F)) (fun _ => rfl) l,
      fun k l => filterMap_map_none (f := AItem.ev k) (g := AItem.sig? (F := F)) (fun _ => rfl) l,
      fun k l => filterMap_map_none (f := AItem.node k) (g := AItem.sig? (F := F)) (fun _ => rfl) l,
      fun k l => filterMap_map_none (f := AItem.msg k) (g := AItem.sig? (F := F)) (fun _ => rfl) l,
      fun k l => filterMap_map_some (f := AItem.sig k) (g := AItem.sig? (F := F)) (k := fun e => (k, e)) (fun _ => rfl) l,
      flatMap_nil', List.append_nil, List.nil_append, List.map_id,
      List.flatMap_assoc, List.flatMap_map, List.map_flatMap, List.map_map, loadedAttrs, gotItem, Function.comp_def, sid]
    rfl
  · intro x hx
    unfold attrItems at hx
    simp only [List.mem_append, List.mem_flatMap, List.mem_map] at hx
    have key : ∀ {kind : Option String} {e : Chars × Attr F}, AttrOk T (syncDefinitions T db) kind e →
        ReadOk T (gotDefs T (syncDefinitions T db)) e := fun h => ⟨h.key, h.read⟩
    rcases hx with ((⟨a, ha, rfl⟩ | ⟨v, hv, a, ha, rfl⟩) | ⟨n, hn, a, ha, rfl⟩) |
      ⟨m, hm, ⟨a, ha, rfl⟩ | ⟨s, hs, a, ha, rfl⟩⟩
    · exact key ((dbAttrs_ok L W).2 a ha)
    · exact key ((own_loaded L W (W.envvars v hv).attributes).2 a ha)
    · exact key ((own_loaded L W (W.nodes n hn).attributes).2 a ha)
    · exact key ((msgAttrs_ok L W hm).2 a ha)
    · exact key ((sigAttrs_ok L W hm ((hsa m.signals).mem_iff.1 hs)).2 a ha)

end Cantools.Dbc
