import Verif.Lemmas.DbcRelText

/-
What is read from a written DBC file with attributes of relations.
-/

namespace Cantools.Dbc
open Cantools Spec

variable {F : Type} {T : FloatText F} {sort sortAttrs : List (DSignal F) → List (DSignal F)}

/-! ### The file -/

/-- A part that is only there if it has entries. -/
def relPart (es : List Entry) : List Part := if es = [] then [] else [⟨crlf, es, crlf⟩]

theorem relPart_entries (es : List Entry) : (relPart es).flatMap (·.entries) = es := by
  unfold relPart
  split
  · rename_i h; rw [h]; rfl
  · simp

theorem linesText_eq (l : List Chars) (h : l ≠ []) : linesText l = joinC crlf l ++ crlf := by
  induction l with
  | nil => exact absurd rfl h
  | cons a r ih =>
    cases r with
    | nil => simp [linesText, joinC]
    | cons b r =>
      rw [linesText, ih (by simp)]
      simp [joinC]

theorem relPart_text (es : List Entry) :
    (relPart es).flatMap (fun p : Part => textOf p.pieces) = linesText (es.map fun e => textOf e.pieces) := by
  unfold relPart
  split
  · rename_i h; rw [h]; rfl
  · rename_i h
    rw [linesText_eq _ (by simpa using h)]
    simp [textOf_part]

theorem relPart_ok {es : List Entry} (h : ∀ e ∈ es, e.Ok) : ∀ p ∈ relPart es, Part.Ok p := by
  unfold relPart
  split
  · intro p hp; cases hp
  · intro p hp
    rw [List.mem_singleton] at hp
    subst hp
    have hc : crlf ≠ [] := by decide
    have hb : ∀ c ∈ crlf, isBlank c = true := by decide
    exact ⟨hc, hb, hc, hb, h⟩

/-- The parts of a file with relations. -/
def partsR (T : FloatText F) (sort sortAttrs : List (DSignal F) → List (DSignal F)) (db : RDatabase F) : List Part :=
  let ps := (partsOf T sort sortAttrs db.base).map (·.2)
  ps.take 10 ++ (relPart (eRelDefs T db.definitions) ++ ((ps.drop 10).take 1 ++
    (relPart (eRelDefaults T db.definitions) ++ ((ps.drop 11).take 1 ++
      (relPart (eRelations T db.relations) ++ ps.drop 12)))))

theorem mem_partsR {db : RDatabase F} {p : Part} (h : p ∈ partsR T sort sortAttrs db) :
    p ∈ (partsOf T sort sortAttrs db.base).map (·.2) ∨ p ∈ relPart (eRelDefs T db.definitions) ∨
      p ∈ relPart (eRelDefaults T db.definitions) ∨ p ∈ relPart (eRelations T db.relations) := by
  unfold partsR at h
  simp only [List.mem_append] at h
  rcases h with h | h | h | h | h | h | h
  · exact .inl (List.mem_of_mem_take h)
  · exact .inr (.inl h)
  · exact .inl (List.mem_of_mem_drop (List.mem_of_mem_take h))
  · exact .inr (.inr (.inl h))
  · exact .inl (List.mem_of_mem_drop (List.mem_of_mem_take h))
  · exact .inr (.inr (.inr h))
  · exact .inl (List.mem_of_mem_drop h)

def entriesR (T : FloatText F) (sort sortAttrs : List (DSignal F) → List (DSignal F)) (db : RDatabase F) : List Entry :=
  (partsR T sort sortAttrs db).flatMap (·.entries)

def treesR (T : FloatText F) (sort sortAttrs : List (DSignal F) → List (DSignal F)) (db : RDatabase F) : List Tree :=
  (entriesR T sort sortAttrs db).map Entry.tree

theorem entriesOf_trees (key : String) (es : List Entry) :
    entriesOf key (es.map Entry.tree) = (es.filter fun e => decide (e.label = key)).map Entry.tree := by
  unfold entriesOf
  rw [List.filter_map]
  congr 1
  apply List.filter_congr
  intro e _
  simp [tree_key, String.toList_inj]

theorem label_relDefs {e : Entry} {defs : Defs F} (h : e ∈ eRelDefs T defs) : e.label = "BA_DEF_REL_" := by
  obtain ⟨d, _, rfl⟩ := List.mem_map.1 h
  rfl

theorem label_relDefaults {e : Entry} {defs : Defs F} (h : e ∈ eRelDefaults T defs) : e.label = "BA_DEF_DEF_REL_" := by
  obtain ⟨d, _, h⟩ := List.mem_filterMap.1 h
  obtain ⟨v, _, rfl⟩ := Option.map_eq_some_iff.1 h
  rfl

theorem label_relations {e : Entry} {r : Relations F} (h : e ∈ eRelations T r) : e.label = "BA_REL_" := by
  unfold eRelations at h
  rcases List.mem_append.1 h with h | h
  · obtain ⟨d, _, rfl⟩ := List.mem_map.1 h; rfl
  · obtain ⟨d, _, rfl⟩ := List.mem_map.1 h; rfl

theorem filter_all_of {α : Type} {p : α → Bool} {l : List α} (h : ∀ a ∈ l, p a = true) : l.filter p = l :=
  List.filter_eq_self.2 h

theorem filter_none_of {α : Type} {p : α → Bool} {l : List α} (h : ∀ a ∈ l, p a = false) : l.filter p = [] :=
  List.filter_eq_nil_iff.2 fun a ha => by simp [h a ha]

theorem entriesR_eq (T : FloatText F) (sort sortAttrs : List (DSignal F) → List (DSignal F)) (db : RDatabase F) :
    ∃ A B C D, entriesE T sort sortAttrs db.base = A ++ (B ++ (C ++ D)) ∧
      entriesR T sort sortAttrs db = A ++ (eRelDefs T db.definitions ++ (B ++ (eRelDefaults T db.definitions ++
        (C ++ (eRelations T db.relations ++ D))))) := by
  have hsplit : ∀ ps : List Part, ps = ps.take 10 ++ ((ps.drop 10).take 1 ++ ((ps.drop 11).take 1 ++ ps.drop 12)) := by
    intro ps
    have h1 := List.take_append_drop 1 (ps.drop 11)
    have h2 := List.take_append_drop 1 (ps.drop 10)
    rw [List.drop_drop] at h1 h2
    rw [h1, h2, List.take_append_drop]
  refine ⟨(((partsOf T sort sortAttrs db.base).map (·.2)).take 10).flatMap (·.entries),
    ((((partsOf T sort sortAttrs db.base).map (·.2)).drop 10).take 1).flatMap (·.entries),
    ((((partsOf T sort sortAttrs db.base).map (·.2)).drop 11).take 1).flatMap (·.entries),
    (((partsOf T sort sortAttrs db.base).map (·.2)).drop 12).flatMap (·.entries), ?_, ?_⟩
  · rw [← List.flatMap_append, ← List.flatMap_append, ← List.flatMap_append, ← hsplit]
    unfold entriesE
    rw [List.flatMap_map]
  · unfold entriesR partsR
    simp only [List.flatMap_append, relPart_entries]

/-- Entries of other kinds are those of the rest of the database. -/
theorem entriesOf_base {key : String} (h1 : key ≠ "BA_DEF_REL_") (h2 : key ≠ "BA_DEF_DEF_REL_") (h3 : key ≠ "BA_REL_")
    (db : RDatabase F) : entriesOf key (treesR T sort sortAttrs db) = entriesOf key (treesOf T sort sortAttrs db.base) := by
  obtain ⟨A, B, C, D, hb, hr⟩ := entriesR_eq T sort sortAttrs db
  unfold treesR treesOf
  rw [entriesOf_trees, entriesOf_trees, hb, hr]
  simp only [List.filter_append]
  rw [filter_none_of (l := eRelDefs T _), filter_none_of (l := eRelDefaults T _), filter_none_of (l := eRelations T _)]
  · rfl
  · intro e he; simp [label_relations he, Ne.symm h3]
  · intro e he; simp [label_relDefaults he, Ne.symm h2]
  · intro e he; simp [label_relDefs he, Ne.symm h1]

theorem base_label {key : String} (h : key = "BA_DEF_REL_" ∨ key = "BA_DEF_DEF_REL_" ∨ key = "BA_REL_")
    (db : DDatabase F) : ∀ e ∈ entriesE T sort sortAttrs db, decide (e.label = key) = false := by
  intro e he
  obtain ⟨p, hp, he⟩ := List.mem_flatMap.1 he
  rw [parts_label T sort sortAttrs db p hp e he]
  have hm : p.1 ∈ (partsOf T sort sortAttrs db).map (·.1) := List.mem_map_of_mem hp
  have hl : (partsOf T sort sortAttrs db).map (·.1) = ["VERSION", "NS_", "BS_", "BU_", "VAL_TABLE_", "BO_", "BO_TX_BU_",
    "EV_", "CM_", "BA_DEF_", "BA_DEF_DEF_", "BA_", "VAL_", "SIG_VALTYPE_", "SIG_GROUP_", "SG_MUL_VAL_"] := rfl
  rw [hl] at hm
  have : ∀ x ∈ ["VERSION", "NS_", "BS_", "BU_", "VAL_TABLE_", "BO_", "BO_TX_BU_",
    "EV_", "CM_", "BA_DEF_", "BA_DEF_DEF_", "BA_", "VAL_", "SIG_VALTYPE_", "SIG_GROUP_", "SG_MUL_VAL_"],
    x ≠ "BA_DEF_REL_" ∧ x ≠ "BA_DEF_DEF_REL_" ∧ x ≠ "BA_REL_" := by decide +kernel
  obtain ⟨h1, h2, h3⟩ := this _ hm
  rcases h with rfl | rfl | rfl
  · exact decide_eq_false h1
  · exact decide_eq_false h2
  · exact decide_eq_false h3

theorem entriesOf_rel (db : RDatabase F) :
    entriesOf "BA_DEF_REL_" (treesR T sort sortAttrs db) = (eRelDefs T db.definitions).map Entry.tree ∧
    entriesOf "BA_DEF_DEF_REL_" (treesR T sort sortAttrs db) = (eRelDefaults T db.definitions).map Entry.tree ∧
    entriesOf "BA_REL_" (treesR T sort sortAttrs db) = (eRelations T db.relations).map Entry.tree := by
  obtain ⟨A, B, C, D, hb, hr⟩ := entriesR_eq T sort sortAttrs db
  have hl : ∀ {key : String}, key = "BA_DEF_REL_" ∨ key = "BA_DEF_DEF_REL_" ∨ key = "BA_REL_" →
      A.filter (fun e => decide (e.label = key)) = [] ∧ B.filter (fun e => decide (e.label = key)) = [] ∧
      C.filter (fun e => decide (e.label = key)) = [] ∧ D.filter (fun e => decide (e.label = key)) = [] := by
    intro key hk
    have := base_label (T := T) (sort := sort) (sortAttrs := sortAttrs) hk db.base
    rw [hb] at this
    simp only [List.mem_append] at this
    exact ⟨filter_none_of fun e he => this e (.inl he), filter_none_of fun e he => this e (.inr (.inl he)),
      filter_none_of fun e he => this e (.inr (.inr (.inl he))),
      filter_none_of fun e he => this e (.inr (.inr (.inr he)))⟩
  unfold treesR
  simp only [entriesOf_trees, hr, List.filter_append]
  refine ⟨?_, ?_, ?_⟩
  · obtain ⟨h1, h2, h3, h4⟩ := hl (.inl rfl)
    rw [h1, h2, h3, h4, filter_all_of (l := eRelDefs T _), filter_none_of (l := eRelDefaults T _),
      filter_none_of (l := eRelations T _)]
    · simp
    · intro e he; simp [label_relations he]
    · intro e he; simp [label_relDefaults he]
    · intro e he; simp [label_relDefs he]
  · obtain ⟨h1, h2, h3, h4⟩ := hl (.inr (.inl rfl))
    rw [h1, h2, h3, h4, filter_none_of (l := eRelDefs T _), filter_all_of (l := eRelDefaults T _),
      filter_none_of (l := eRelations T _)]
    · simp
    · intro e he; simp [label_relations he]
    · intro e he; simp [label_relDefaults he]
    · intro e he; simp [label_relDefs he]
  · obtain ⟨h1, h2, h3, h4⟩ := hl (.inr (.inr rfl))
    rw [h1, h2, h3, h4, filter_none_of (l := eRelDefs T _), filter_none_of (l := eRelDefaults T _),
      filter_all_of (l := eRelations T _)]
    · simp
    · intro e he; simp [label_relations he]
    · intro e he; simp [label_relDefaults he]
    · intro e he; simp [label_relDefs he]

theorem entriesR_follow (db : RDatabase F) : Follows (entriesR T sort sortAttrs db) := by
  obtain ⟨g0, g1, g2, rest, hp⟩ : ∃ g0 g1 g2 rest, partsOf T sort sortAttrs db.base =
      ("VERSION", ⟨crlf, [.version (pq (db.base.version.getD []))], g0⟩) :: ("NS_", ⟨crlf, [.ns], g1⟩) ::
      ("BS_", ⟨crlf, [.bs], g2⟩) :: rest := ⟨_, _, _, _, rfl⟩
  have hl := parts_label T sort sortAttrs db.base
  have hn := labels_nodup T sort sortAttrs db.base
  unfold entriesR partsR
  rw [hp] at hl hn ⊢
  simp only [List.map_cons, List.take_succ_cons, List.drop_succ_cons, List.cons_append, List.flatMap_cons,
    List.nil_append]
  refine ⟨⟨_, rfl⟩, ?_⟩
  show Follows _
  apply follows_of_no_ns
  intro e he hns
  rcases List.mem_cons.1 he with rfl | he
  · cases hns
  have hbase : ∀ p ∈ rest.map (·.2), e ∈ p.entries → False := by
    intro p hpm hep
    obtain ⟨q, hq, rfl⟩ := List.mem_map.1 hpm
    have h1 := hl q (by simp [hq]) e hep
    rw [hns] at h1
    rw [List.map_cons, List.nodup_cons, List.map_cons, List.nodup_cons] at hn
    exact hn.2.1 (List.mem_cons_of_mem _ (List.mem_map.2 ⟨q, hq, h1.symm⟩))
  simp only [List.flatMap_append, relPart_entries, List.mem_append] at he
  rcases he with he | he | he | he | he | he | he
  · obtain ⟨p, hpm, he⟩ := List.mem_flatMap.1 he
    exact hbase p (List.mem_of_mem_take hpm) he
  · have := label_relDefs he; rw [hns] at this; exact absurd this (by decide)
  · obtain ⟨p, hpm, he⟩ := List.mem_flatMap.1 he
    exact hbase p (List.mem_of_mem_drop (List.mem_of_mem_take hpm)) he
  · have := label_relDefaults he; rw [hns] at this; exact absurd this (by decide)
  · obtain ⟨p, hpm, he⟩ := List.mem_flatMap.1 he
    exact hbase p (List.mem_of_mem_drop (List.mem_of_mem_take hpm)) he
  · have := label_relations he; rw [hns] at this; exact absurd this (by decide)
  · obtain ⟨p, hpm, he⟩ := List.mem_flatMap.1 he
    exact hbase p (List.mem_of_mem_drop hpm) he

/-! ### Its text -/

section text
variable (L : FloatLaws T) {db : RDatabase F} (W : WritableDatabase T db.base) (R : WritableRelations db)

include L W R in
theorem partsR_ok (hs : Sorts sort) (hsa : Sorts sortAttrs) : ∀ p ∈ partsR T sort sortAttrs db, Part.Ok p := by
  intro p hp
  rcases mem_partsR hp with h | h | h | h
  · exact parts_ok L W hs hsa p h
  · exact relPart_ok (fun e he => ok_relDefs L R he) p h
  · exact relPart_ok (fun e he => ok_relDefaults L R he) p h
  · exact relPart_ok (fun e he => ok_relations L R he) p h

include L W R in
theorem renderR_eq (hs : Sorts sort) (hsa : Sorts sortAttrs) :
    renderR T sort sortAttrs db = .ok ((partsR T sort sortAttrs db).flatMap fun p : Part => textOf p.pieces) := by
  unfold renderR
  have h1 : dumpMessages T sort db.base =
      .ok (joinC (crlf ++ crlf) (db.base.messages.map fun m => textOf (eMsg T sort m).pieces)) := by
    unfold dumpMessages
    rw [mapM_ok_map fun m hm => text_msg T sort m fun s hsm =>
      ids_ne_nil (W.messages m hm).muxed ((hs _).mem_iff.1 hsm)]
    rfl
  have hrd : dumpRelDefs T db.definitions = (eRelDefs T db.definitions).map fun e => textOf e.pieces :=
    text_relDefs T _ fun e he => ⟨(relDefs_ok R he).1.imp fun _ h => h.1, (relDefs_ok R he).2⟩
  rw [h1, text_types db.base fun m hm s hsm => ((W.messages m hm).signals s hsm).float, text_mux db.base]
  dsimp only
  rw [text_attrs L W hsa, hrd, text_relDefaults, text_relations, ← relPart_text, ← relPart_text, ← relPart_text]
  show Except.ok _ = _
  congr 1
  unfold partsR partsOf
  simp only [List.map_cons, List.map_nil, List.take_succ_cons, List.drop_succ_cons, List.take_zero, List.drop_zero,
    List.cons_append, List.nil_append, List.flatMap_append, List.flatMap_cons, List.flatMap_nil, textOf_part,
    List.append_assoc,
    List.append_nil, text_tables, text_senders, text_comments, text_choices, text_groups,
    text_defs T _ fun e he => ((sync_ok T W).2 e he).2, text_defaults, joinC, text_ns, List.map_map, linesText]
  have hv : textOf (Entry.version (pq (db.base.version.getD []))).pieces =
      "VERSION ".toList ++ dumpPlain (db.base.version.getD []) := by
    unfold Entry.pieces; txt; rfl
  have hb : textOf Entry.bs.pieces = "BS_:".toList := by decide +kernel
  have hn : textOf (Entry.nodes (db.base.nodes.map (·.name))).pieces =
      "BU_: ".toList ++ joinC [' '] (db.base.nodes.map (·.name)) := by
    unfold Entry.pieces; txt; rfl
  rw [hv, hb, hn]
  simp only [List.append_assoc]
  rfl

include L W R in
theorem load_renderR (hs : Sorts sort) (hsa : Sorts sortAttrs) (strict : Bool) {text : Chars}
    (h : renderR T sort sortAttrs db = .ok text) :
    loadStringR T strict text = loadEntriesR T strict (treesR T sort sortAttrs db) := by
  rw [renderR_eq L W R hs hsa] at h
  cases h
  have := read_parts (partsR_ok L W R hs hsa) (entriesR_follow db) (by
    unfold partsR partsOf; simp)
  unfold loadStringR
  rw [← bind_assoc]
  exact congrArg (· >>= loadEntriesR T strict) this

end text

/-- Only these entries matter for the rest of the database. -/
theorem loadEntries_congr (T : FloatText F) (strict : Bool) {a b : List Tree}
    (h : ∀ key : String, key ≠ "BA_DEF_REL_" → key ≠ "BA_DEF_DEF_REL_" → key ≠ "BA_REL_" →
      entriesOf key a = entriesOf key b) :
    loadEntries T strict a = loadEntries T strict b := by
  unfold loadEntries loadComments loadDefaults loadDefs loadAttributes loadValueTables loadChoices loadSenders
    loadSignalTypes loadMuxEntries loadSignalGroups loadMessages loadNodes loadVersion loadEnvvars
  rw [h "CM_" (by decide) (by decide) (by decide), h "BA_DEF_DEF_" (by decide) (by decide) (by decide),
    h "BA_DEF_" (by decide) (by decide) (by decide), h "BA_" (by decide) (by decide) (by decide),
    h "VAL_TABLE_" (by decide) (by decide) (by decide), h "VAL_" (by decide) (by decide) (by decide),
    h "BO_TX_BU_" (by decide) (by decide) (by decide), h "SIG_VALTYPE_" (by decide) (by decide) (by decide),
    h "SG_MUL_VAL_" (by decide) (by decide) (by decide), h "SIG_GROUP_" (by decide) (by decide) (by decide),
    h "BO_" (by decide) (by decide) (by decide), h "BU_" (by decide) (by decide) (by decide),
    h "VERSION" (by decide) (by decide) (by decide), h "EV_" (by decide) (by decide) (by decide)]

/-! ### What is read -/

section read
variable (L : FloatLaws T) {db : RDatabase F} (R : WritableRelations db)

theorem load_relDefaults (T : FloatText F) (defs : Defs F) {entries : List Tree}
    (h : entriesOf "BA_DEF_DEF_REL_" entries = (eRelDefaults T defs).map Entry.tree) :
    loadRelDefaults entries = .ok (accum last [] (defaultPairs T defs)) := by
  unfold loadRelDefaults
  rw [h]
  have : (eRelDefaults T defs).map Entry.tree = (defaultPairs T defs).map
      fun p => (Entry.relDefault (pq p.1) (.num p.2)).tree := by
    unfold eRelDefaults defaultPairs optPairs
    clear h
    induction defs with
    | nil => rfl
    | cons e r ih =>
      rw [List.flatMap_cons, List.map_append, ← ih, List.filterMap_cons]
      dsimp only
      cases e.2.default with
      | none => rfl
      | some v =>
        have := valE_text (decide (e.2.typeName = some "STRING") || decide (e.2.typeName = some "ENUM")) (v.text T)
        simp only [Option.map_some, List.map_cons, Option.toList_some, List.map_nil, List.cons_append, List.nil_append,
          eRelDefault, Entry.tree, this]
        rfl
  simp only [this]
  apply foldlM_accum
  intro p _ d
  rd
  rfl

include L R in
theorem load_relDefs {entries : List Tree}
    (h : entriesOf "BA_DEF_REL_" entries = (eRelDefs T db.definitions).map Entry.tree) :
    loadRelDefs T entries (accum last [] (defaultPairs T db.definitions)) = .ok db.definitions := by
  unfold loadRelDefs
  rw [h]
  have hkey : ∀ e ∈ db.definitions, e.1 = e.2.name := fun e he => (R.definitions e he).1
  have hnd' : (db.definitions.map fun e => e.2.name).Nodup := by
    rw [← List.map_congr_left hkey]; exact R.definitionNames
  have hget : ∀ e ∈ db.definitions, dictGet? (accum last [] (defaultPairs T db.definitions)) e.2.name =
      e.2.default.map (·.text T) := fun e he =>
    last_get (key := fun e : Chars × AttrDef F => e.2.name) hnd' (fun e => e.2.default.map (·.text T)) he
  unfold eRelDefs
  rw [List.map_map]
  refine (foldlM_accum (g := last) (ps := db.definitions) _ ?_ []).trans ?_
  · intro e he d
    obtain ⟨⟨k, hk, -⟩, hd⟩ := relDefs_ok R he
    have hl := loadDef_eq L hd (defaults := accum last [] (defaultPairs T db.definitions)) (hget e he)
    rw [gotDef_writable T (R.definitions e he).2.plain] at hl
    show (do
      let d_1 ← loadRelDef T _ (eRelDef T e.2).tree
      pure (dictSet d d_1.name d_1)) = _
    rw [loadRelDef_of hk hl, ok_bind2]
    show Except.ok (dictSet d e.2.name { e.2 with kind := some k }) = _
    rw [← hk, ← hkey e he]
  · rw [accum_last_nodup R.definitionNames]

theorem load_sigRel {defs : Defs F} (acc : Relations F) {p : Int × Chars × Chars × Chars × Attr F}
    (h : RelOk T defs p.2.2.2) :
    loadRelation T defs acc (eSigRel T p).tree =
      .ok { acc with signals := setSignalRel acc.signals p.1 p.2.1 p.2.2.1 p.2.2.2.1 p.2.2.2.2 } := by
  obtain ⟨hk, -, -, hr⟩ := h
  unfold loadRelation eSigRel
  rd
  rw [if_pos trivial, valE_text, ← hk, hr]
  rfl

theorem load_msgRel {defs : Defs F} (acc : Relations F) {p : Int × Chars × Chars × Attr F} (h : RelOk T defs p.2.2) :
    loadRelation T defs acc (eMsgRel T p).tree =
      .ok { acc with messages := setMessageRel acc.messages p.1 p.2.1 p.2.2.1 p.2.2.2 } := by
  obtain ⟨hk, -, -, hr⟩ := h
  unfold loadRelation eMsgRel
  rd
  rw [if_neg (by decide), if_pos trivial, valE_text, ← hk, hr]
  rfl

/-- How an attribute is put into its dictionaries. -/
def fillNodes : Option (List (Chars × Attrs F)) → Chars × Chars × Attr F → List (Chars × Attrs F) :=
  nestWith (nestWith last)

theorem fold_sigRels {defs : Defs F} (ps : List (Int × Chars × Chars × Chars × Attr F))
    (h : ∀ p ∈ ps, RelOk T defs p.2.2.2) (acc : Relations F) :
    (ps.map fun p => (eSigRel T p).tree).foldlM (loadRelation T defs) acc =
      .ok { acc with signals := accum (nestWith fillNodes) acc.signals ps } := by
  induction ps generalizing acc with
  | nil => rfl
  | cons p r ih =>
    rw [List.map_cons, List.foldlM_cons, load_sigRel acc (h p (by simp)), ok_bind2,
      ih fun q hq => h q (List.mem_cons_of_mem _ hq)]
    rfl

theorem fold_msgRels {defs : Defs F} (ps : List (Int × Chars × Chars × Attr F)) (h : ∀ p ∈ ps, RelOk T defs p.2.2)
    (acc : Relations F) :
    (ps.map fun p => (eMsgRel T p).tree).foldlM (loadRelation T defs) acc =
      .ok { acc with messages := accum fillNodes acc.messages ps } := by
  induction ps generalizing acc with
  | nil => rfl
  | cons p r ih =>
    rw [List.map_cons, List.foldlM_cons, load_msgRel acc (h p (by simp)), ok_bind2,
      ih fun q hq => h q (List.mem_cons_of_mem _ hq)]
    rfl

theorem fill_attrs {P : Chars → Attr F → Prop} {as : Attrs F} (h : Filled P as) :
    as.foldl (fun o p => some (nestWith last o p)) none = some as := by
  rw [fold_nest _ _ _ h.some]
  exact congrArg some (accum_last_nodup h.nodup)

theorem fill_nodes {defs : Defs F} {nodes : List (Chars × Attrs F)} (h : Filled (WritableRelation defs) nodes) :
    (nodePairs nodes).foldl (fun o p => some (fillNodes o p)) none = some nodes :=
  fill_items (items := fun as => as) h.some h.nodup fun e he => fill_attrs (h.all e he).2

include L R in
theorem load_relations {entries : List Tree}
    (h : entriesOf "BA_REL_" entries = (eRelations T db.relations).map Entry.tree) :
    loadRelations T entries db.definitions = .ok db.relations := by
  unfold loadRelations
  rw [h]
  unfold eRelations
  rw [List.map_append, List.map_map, List.map_map, List.foldlM_append]
  refine (bind_of_ok (fold_sigRels _ (fun p hp => (sigRel_ok L R hp).2.2) {})).trans ?_
  refine (fold_msgRels _ (fun p hp => (msgRel_ok L R hp).2) _).trans ?_
  have h1 : accum (nestWith fillNodes) [] (sigRelPairs db.relations) = db.relations.signals :=
    accum_items (items := signalPairs) R.signalFrames fun e he =>
      fill_items (items := nodePairs) (R.signals e he).some (R.signals e he).nodup fun s hs =>
        fill_nodes ((R.signals e he).all s hs).2
  have h2 : accum fillNodes [] (msgRelPairs db.relations) = db.relations.messages :=
    accum_items (items := nodePairs) R.messageFrames fun e he => fill_nodes (R.messages e he)
  rw [h1, h2]

end read

/-! ### Names of signals -/

/-- The relations with the names of signals that are written. -/
def writtenRel (shorten : Bool) (db : DDatabase F) (r : Relations F) : Relations F :=
  { r with signals := r.signals.map fun e =>
      (e.1, match db.messages.find? (fun m => decide (mid m = e.1)) with
        | none => e.2
        | some m => e.2.map fun s => (ren shorten (signalNames m) s.1, s.2)) }

section names
variable {db : RDatabase F} (W : WritableDatabase T db.base) (R : WritableRelations db) {shorten : Bool}
  (KR : shorten = true → KeptRelations db)

theorem ren_false (names : List Chars) (n : Chars) : ren false names n = n := rfl

include W KR in
theorem rel_names {f : Int × List (Chars × List (Chars × Attrs F))} (hf : f ∈ db.relations.signals)
    {m : DMessage F} (hm : m ∈ db.base.messages) (hid : mid m = f.1) {s : Chars × List (Chars × Attrs F)} (hs : s ∈ f.2)
    (hn : s.1 ∉ signalNames m) : ren shorten (signalNames m) s.1 = s.1 ∧
      ∀ x, ren shorten (signalNames m) x = s.1 → x = s.1 := by
  have hnd := signalNames_nodup W hm
  refine ⟨ren_other hnd hn, fun x hx => ?_⟩
  cases hsh : shorten with
  | false => rw [hsh, ren_false] at hx; exact hx
  | true =>
    rcases KR hsh f hf s hs m hm hid with h | h
    · exact absurd h hn
    · exact ren_eq_short hnd h hx

include W R KR in
theorem rel_nodup {f : Int × List (Chars × List (Chars × Attrs F))} (hf : f ∈ db.relations.signals)
    {m : DMessage F} (hm : m ∈ db.base.messages) (hid : mid m = f.1) :
    (f.2.map fun s => ren shorten (signalNames m) s.1).Nodup := by
  have hnd := signalNames_nodup W hm
  have : (f.2.map fun s => ren shorten (signalNames m) s.1) = (f.2.map (·.1)).map (ren shorten (signalNames m)) := by
    rw [List.map_map]; rfl
  rw [this]
  refine (R.signals f hf).nodup.map_on ?_
  intro a ha b hb hab
  obtain ⟨s, hs, rfl⟩ := List.mem_map.1 ha
  obtain ⟨t, ht, rfl⟩ := List.mem_map.1 hb
  by_cases h1 : s.1 ∈ signalNames m
  · by_cases h2 : t.1 ∈ signalNames m
    · exact ren_inj hnd h1 h2 hab
    · obtain ⟨h3, h4⟩ := rel_names W KR hf hm hid ht h2
      rw [h3] at hab
      exact h4 _ hab
  · obtain ⟨h3, h4⟩ := rel_names W KR hf hm hid hs h1
    rw [h3] at hab
    exact (h4 _ hab.symm).symm

theorem find_mid {ms : List (DMessage F)} {k : Int} {m : DMessage F}
    (h : ms.find? (fun m => decide (mid m = k)) = some m) : m ∈ ms ∧ mid m = k :=
  ⟨List.mem_of_find?_eq_some h, by simpa using List.find?_some h⟩

include W R KR in
theorem shortenRelations_eq :
    shortenRelations shorten db.base.messages db.relations = .ok (writtenRel shorten db.base db.relations) := by
  cases hsh : shorten with
  | false =>
    have h1 : ∀ (ms : List (DMessage F)) r, shortenRelations false ms r = .ok r := by
      intro ms
      induction ms with
      | nil => intro r; rfl
      | cons m l ih =>
        intro r
        obtain ⟨l2s, h, -⟩ := longToShort_ok (m.signals.map (·.name))
        have := ih r
        unfold shortenRelations at this ⊢
        rw [List.foldlM_cons, h]
        exact this
    rw [h1]
    unfold writtenRel
    have : db.relations.signals.map (fun e =>
        (e.1, match db.base.messages.find? (fun m => decide (mid m = e.1)) with
          | none => e.2
          | some m => e.2.map fun s => (ren false (signalNames m) s.1, s.2))) = db.relations.signals := by
      conv_rhs => rw [← List.map_id db.relations.signals]
      apply List.map_congr_left
      intro e _
      split
      · rfl
      · simp [ren_false]
    rw [this]
  | true =>
    have h1 : ∀ (ms : List (DMessage F)) (r : Relations F), shortenRelations true ms r = .ok { r with
        signals := replaceAll mid (fun m => renameSignals (ren true (signalNames m))) ms r.signals } := by
      intro ms
      induction ms with
      | nil => intro r; rfl
      | cons m l ih =>
        intro r
        obtain ⟨l2s, h, h'⟩ := longToShort_ok (m.signals.map (·.name))
        have hr : (fun n => (dictGet? l2s n).getD n) = ren true (signalNames m) := by
          funext n
          exact (ren_get (shorten := true) h' n).symm
        have := ih (shortenRelation true l2s m r)
        unfold shortenRelations at this ⊢
        rw [List.foldlM_cons, h]
        refine Eq.trans this ?_
        unfold shortenRelation replaceAll
        rw [List.foldl_cons, hr]
        simp only [Bool.not_true, Bool.false_eq_true, if_false]
        show _ = Except.ok { r with signals := _ }
        unfold mid
        cases dictGet? r.signals (dbcFrameId m.frameId m.isExtendedFrame) <;> rfl
    rw [h1, replaceAll_eq (ids_nodup W) R.signalFrames]
    unfold writtenRel
    congr 2
    apply List.map_congr_left
    intro e he
    cases hfi : db.base.messages.find? (fun m => decide (mid m = e.1)) with
    | none => rfl
    | some m =>
      obtain ⟨hm, hid⟩ := find_mid hfi
      show (e.1, renameSignals _ e.2) = _
      rw [renameSignals_eq (rel_nodup W R (hsh ▸ KR) he hm hid)]

/-- The relations that are written can be read. -/
theorem written_relations (base : DDatabase F) (W : WritableDatabase T db.base) (R : WritableRelations db)
    (KR : shorten = true → KeptRelations db) :
    WritableRelations { db with base := base, relations := writtenRel shorten db.base db.relations } where
  definitions := R.definitions
  definitionNames := R.definitionNames
  messageFrames := R.messageFrames
  messages := R.messages
  signalFrames := by
    show ((db.relations.signals.map _).map _).Nodup
    rw [List.map_map]
    exact R.signalFrames
  signals := by
    intro f hf
    obtain ⟨e, he, rfl⟩ := List.mem_map.1 hf
    have H := R.signals e he
    cases hfi : db.base.messages.find? (fun m => decide (mid m = e.1)) with
    | none => exact H
    | some m =>
      obtain ⟨hm, hid⟩ := find_mid hfi
      refine ⟨?_, ?_, ?_⟩
      · simpa using H.some
      · show ((e.2.map _).map _).Nodup
        rw [List.map_map]
        exact rel_nodup W R KR he hm hid
      · intro s hs
        obtain ⟨t, ht, rfl⟩ := List.mem_map.1 hs
        exact ⟨ren_name (signalNames_nodup W hm) (H.all t ht).1, (H.all t ht).2⟩

/-- The name a signal gets when a file is read. -/
def gotName (T : FloatText F) (as : Attributes F) (k : Int) (n : Chars) : Chars :=
  longName T systemSignal ((dictGet? as.signals (k, n)).getD []) n

variable (L : FloatLaws T) (K : shorten = true → KeptNames db.base)

include L W KR K in
theorem gotName_ren (hsa : Sorts sortAttrs) {f : Int × List (Chars × List (Chars × Attrs F))}
    (hf : f ∈ db.relations.signals) {m : DMessage F} (hm : m ∈ db.base.messages) (hid : mid m = f.1)
    {s : Chars × List (Chars × Attrs F)} (hs : s ∈ f.2) :
    gotName T (gotAttrs T sortAttrs (syncDefinitions T (writtenDb shorten db.base)) (writtenDb shorten db.base)) f.1
      (ren shorten (signalNames m) s.1) = s.1 := by
  have W' := written_writable K W
  have hm' : writtenMsg shorten db.base m ∈ (writtenDb shorten db.base).messages := List.mem_map_of_mem hm
  have hmid : mid (writtenMsg shorten db.base m) = f.1 := hid
  have hnames : (writtenMsg shorten db.base m).signals.map (·.name) =
      (signalNames m).map (ren shorten (signalNames m)) := by
    show (m.signals.map (writtenSig shorten db.base m)).map (·.name) = _
    unfold signalNames
    rw [List.map_map, List.map_map]; rfl
  unfold gotName
  by_cases hn : s.1 ∈ signalNames m
  · rw [← hmid, group_names L W' hsa hm' (by rw [hnames]; exact List.mem_map_of_mem hn)]
    exact restoreSigName_ren W hm hn
  · obtain ⟨h1, h2⟩ := rel_names W KR hf hm hid hs hn
    rw [h1]
    have hnone : dictGet? (gotAttrs T sortAttrs (syncDefinitions T (writtenDb shorten db.base))
        (writtenDb shorten db.base)).signals (f.1, s.1) = none := by
      apply accum_none
      intro p hp hpk
      obtain ⟨x, hx, hxk⟩ := mem_allPairs hp
      rw [hpk] at hxk
      unfold sigPairs at hx
      obtain ⟨m2, hm2, hx⟩ := List.mem_flatMap.1 hx
      obtain ⟨s2, hs2, rfl⟩ := List.mem_map.1 hx
      unfold sid at hxk
      simp only [Prod.mk.injEq] at hxk
      have hmm : m2 = writtenMsg shorten db.base m :=
        List.inj_on_of_nodup_map (ids_nodup W') hm2 hm' (by rw [← hxk.1, hmid])
      subst hmm
      have hmem : s.1 ∈ (writtenMsg shorten db.base m).signals.map (·.name) := by
        rw [hxk.2]; exact List.mem_map_of_mem ((hsa _).mem_iff.1 hs2)
      rw [hnames] at hmem
      obtain ⟨y, hy, hye⟩ := List.mem_map.1 hmem
      exact hn (h2 y hye ▸ hy)
    rw [hnone]
    rfl

include L W R KR K in
/-- The names of the signals are found again. -/
theorem restoreRelations_eq (hsa : Sorts sortAttrs) {ms : List (DMessage F)} (h : ms.map mid = db.base.messages.map mid) :
    restoreRelations T ms
      (gotAttrs T sortAttrs (syncDefinitions T (writtenDb shorten db.base)) (writtenDb shorten db.base))
      (writtenRel shorten db.base db.relations) = db.relations := by
  generalize has : gotAttrs T sortAttrs (syncDefinitions T (writtenDb shorten db.base)) (writtenDb shorten db.base) = as
  have h1 : ∀ (ms : List (DMessage F)) (r : Relations F), restoreRelations T ms as r = { r with
      signals := replaceAll mid (fun m => renameSignals (gotName T as (mid m))) ms r.signals } := by
    intro ms
    induction ms with
    | nil => intro r; rfl
    | cons m l ih =>
      intro r
      unfold restoreRelations replaceAll at ih ⊢
      rw [List.foldl_cons, List.foldl_cons, ih]
      unfold mid gotName
      dsimp only
      cases dictGet? r.signals (dbcFrameId m.frameId m.isExtendedFrame) <;> rfl
  rw [h1, replaceAll_eq (by rw [h]; exact ids_nodup W) (written_relations db.base W R KR).signalFrames]
  have hsig : ∀ e ∈ db.relations.signals, (match ms.find? (fun m => decide (mid m = e.1)) with
      | none => (match db.base.messages.find? (fun m => decide (mid m = e.1)) with
        | none => e.2
        | some m => e.2.map fun s => (ren shorten (signalNames m) s.1, s.2))
      | some b => renameSignals (gotName T as (mid b)) (match db.base.messages.find? (fun m => decide (mid m = e.1)) with
        | none => e.2
        | some m => e.2.map fun s => (ren shorten (signalNames m) s.1, s.2))) = e.2 := by
    intro e he
    cases hfi : db.base.messages.find? (fun m => decide (mid m = e.1)) with
    | none =>
      have : ms.find? (fun m => decide (mid m = e.1)) = none := by
        rw [List.find?_eq_none] at hfi ⊢
        intro b hb
        have hb' : mid b ∈ db.base.messages.map mid := h ▸ List.mem_map_of_mem hb
        obtain ⟨m, hm, hmb⟩ := List.mem_map.1 hb'
        rw [← hmb]
        exact hfi m hm
      rw [this]
    | some m =>
      obtain ⟨hm, hid⟩ := find_mid hfi
      cases hfb : ms.find? (fun m => decide (mid m = e.1)) with
      | none =>
        rw [List.find?_eq_none] at hfb
        have hm' : mid m ∈ ms.map mid := h ▸ List.mem_map_of_mem hm
        obtain ⟨b, hb, hbm⟩ := List.mem_map.1 hm'
        exact absurd (decide_eq_true (hbm.trans hid)) (hfb b hb)
      | some b =>
        obtain ⟨-, hbid⟩ := find_mid hfb
        have hback : ∀ s ∈ e.2, gotName T as (mid b) (ren shorten (signalNames m) s.1) = s.1 := by
          intro s hs
          rw [hbid, ← has]
          exact gotName_ren W KR L K hsa he hm hid hs
        show renameSignals _ (e.2.map _) = e.2
        have hmap : (e.2.map fun s => (ren shorten (signalNames m) s.1, s.2)).map
            (fun x => gotName T as (mid b) x.1) = e.2.map (·.1) := by
          rw [List.map_map]
          exact List.map_congr_left hback
        rw [renameSignals_eq (by rw [hmap]; exact (R.signals e he).nodup), List.map_map]
        conv_rhs => rw [← List.map_id e.2]
        apply List.map_congr_left
        intro s hs
        exact Prod.ext (hback s hs) rfl
  unfold writtenRel
  dsimp only
  rw [List.map_map]
  refine congrArg (fun x => ({ db.relations with signals := x } : Relations F)) (a₂ := db.relations.signals) ?_
  conv_rhs => rw [← List.map_id db.relations.signals]
  apply List.map_congr_left
  intro e he
  refine Prod.ext rfl ?_
  have h2 := hsig e he
  dsimp only [Function.comp, id]
  cases hfb : ms.find? (fun m => decide (mid m = e.1)) with
  | none => rw [hfb] at h2; exact h2
  | some b => rw [hfb] at h2; exact h2

end names

/-! ### Writing and reading -/

theorem renderR_rekey (db : RDatabase F) :
    renderR T sort sortAttrs { db with base := rekey db.base } = renderR T sort sortAttrs db := by
  have h1 : dumpEnvvars T (rekey db.base) = dumpEnvvars T db.base := by
    unfold dumpEnvvars rekey
    rw [List.map_map]; rfl
  have h2 : dumpComments sortAttrs (rekey db.base) = dumpComments sortAttrs db.base := by
    unfold dumpComments rekey
    simp only [List.flatMap_map]
  have h3 : dumpAttributes T sortAttrs (syncDefinitions T (rekey db.base)) (rekey db.base) =
      dumpAttributes T sortAttrs (syncDefinitions T db.base) db.base := by
    have : syncDefinitions T (rekey db.base) = syncDefinitions T db.base := rfl
    rw [this]
    unfold dumpAttributes
    have e : ((rekey db.base).envvars.flatMap fun e => e.2.attributes.map fun a => attrLine T (some e.2.name) a.2) =
        db.base.envvars.flatMap fun e => e.2.attributes.map fun a => attrLine T (some e.2.name) a.2 := by
      unfold rekey
      simp only [List.flatMap_map]
    rw [e]
    rfl
  unfold renderR
  dsimp only
  rw [h1, h2, h3]
  rfl

/-- Reading what was written gives the same database with the same relations. -/
theorem round_tripR (L : FloatLaws T) {U : Unicode} (hU : UnicodeLaws U) {db : RDatabase F}
    (W : WritableDatabase T db.base) (R : WritableRelations db) {shorten : Bool}
    (K : shorten = true → KeptNames db.base) (KR : shorten = true → KeptRelations db) {strict : Bool}
    (C : Constructible T strict db.base) (hs : Sorts sort) (hsa : Sorts sortAttrs) :
    ∃ text, dumpStringR U T sort sortAttrs shorten db = .ok text ∧
      ∃ db', loadStringR T strict text = .ok db' ∧ SameDatabase T db.base db'.base ∧
        db'.definitions = db.definitions ∧ db'.relations = db.relations := by
  have W' := written_writable K W
  have hW : WritableRelations (⟨writtenDb shorten db.base, db.definitions, writtenRel shorten db.base db.relations⟩ :
      RDatabase F) := written_relations _ W R KR
  have hdump : dumpStringR U T sort sortAttrs shorten db = renderR T sort sortAttrs
      ⟨writtenDb shorten db.base, db.definitions, writtenRel shorten db.base db.relations⟩ := by
    unfold dumpStringR
    rw [removeSpecialChars_eq hU W, ok_bind2, shortenRelations_eq W R KR, ok_bind2,
      makeNamesUnique_eq W fun h => (K h).nodes, ok_bind2, ← renderR_rekey]
    dsimp only
    rw [written_eq]
  have hrender := renderR_eq L W' hW hs hsa
  refine ⟨_, hdump.trans hrender, ?_⟩
  rw [load_renderR L W' hW hs hsa strict hrender]
  obtain ⟨db', h1, h2⟩ := load_written L W' hs hsa (written_restorable K W C) (render_eq L W' hs hsa)
  rw [load_render L W' hs hsa strict (render_eq L W' hs hsa)] at h1
  have hsame := same_database W K h2
  obtain ⟨e1, e2, e3⟩ := entriesOf_rel (T := T) (sort := sort) (sortAttrs := sortAttrs)
    (⟨writtenDb shorten db.base, db.definitions, writtenRel shorten db.base db.relations⟩ : RDatabase F)
  have hother := fun key h1 h2 h3 => entriesOf_base (T := T) (sort := sort) (sortAttrs := sortAttrs) (key := key) h1 h2 h3
    (⟨writtenDb shorten db.base, db.definitions, writtenRel shorten db.base db.relations⟩ : RDatabase F)
  have d1 := load_defaults T sort sortAttrs (writtenDb shorten db.base)
  have d2 := load_defs L W' (sort := sort) (sortAttrs := sortAttrs)
  have d3 := load_attributes L W' hsa (sort := sort)
  unfold loadDefaults at d1
  unfold loadDefs at d2
  unfold loadAttributes at d3
  rw [← hother "BA_DEF_DEF_" (by decide) (by decide) (by decide)] at d1
  rw [← hother "BA_DEF_" (by decide) (by decide) (by decide)] at d2
  rw [← hother "BA_" (by decide) (by decide) (by decide)] at d3
  refine ⟨⟨db', db.definitions, db.relations⟩, ?_, hsame, rfl, rfl⟩
  unfold loadEntriesR
  refine (bind_of_ok d1).trans ?_
  refine (bind_of_ok d2).trans ?_
  refine (bind_of_ok d3).trans ?_
  refine (bind_of_ok (load_relDefaults T _ e2)).trans ?_
  refine (bind_of_ok (load_relDefs L hW e1)).trans ?_
  refine (bind_of_ok (load_relations L hW e3)).trans ?_
  refine (bind_of_ok ((loadEntries_congr T strict hother).trans h1)).trans ?_
  have hmids : db'.messages.map mid = db.base.messages.map mid := by
    have := hsame.messages
    clear * - this
    generalize db'.messages = x at this ⊢
    generalize db.base.messages = y at this ⊢
    induction this with
    | nil => rfl
    | cons h _ ih =>
      rw [List.map_cons, List.map_cons, ih]
      unfold mid
      rw [h.frameId, h.isExtendedFrame]
  show Except.ok _ = _
  rw [restoreRelations_eq W R KR L K hsa hmids]

end Cantools.Dbc
