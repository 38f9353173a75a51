import Verif.Lemmas.DbcNested

/-
The text of the attributes of relations, and how it is read.
-/

namespace Cantools.Dbc
open Cantools Spec

variable {F : Type} {T : FloatText F} {sort sortAttrs : List (DSignal F) → List (DSignal F)}

/-! ### Entries -/

def eRelDef (T : FloatText F) (d : AttrDef F) : Entry :=
  .relDef (d.kind.getD "") (pq d.name) (d.typeName.getD "").toList (defGap d) (defVals T d)

def eRelDefs (T : FloatText F) (defs : Defs F) : List Entry := defs.map fun e => eRelDef T e.2

def eRelDefault (T : FloatText F) (d : AttrDef F) (v : AttrVal F) : Entry :=
  .relDefault (pq d.name)
    (valE (decide (d.typeName = some "STRING") || decide (d.typeName = some "ENUM")) (v.text T))

def eRelDefaults (T : FloatText F) (defs : Defs F) : List Entry :=
  defs.filterMap fun e => e.2.default.map (eRelDefault T e.2)

def eSigRel (T : FloatText F) (p : Int × Chars × Chars × Chars × Attr F) : Entry :=
  .sigRel (pq p.2.2.2.2.definition.name) p.2.2.1 (intText p.1) p.2.1
    (valE (decide (p.2.2.2.2.definition.typeName = some "STRING")) (p.2.2.2.2.value.text T))

def eMsgRel (T : FloatText F) (p : Int × Chars × Chars × Attr F) : Entry :=
  .msgRel (pq p.2.2.2.definition.name) p.2.1 (intText p.1)
    (valE (decide (p.2.2.2.definition.typeName = some "STRING")) (p.2.2.2.value.text T))

/-- The attributes of relations with nodes. -/
abbrev nodePairs (nodes : List (Chars × Attrs F)) : List (Chars × Chars × Attr F) :=
  allPairs (·.1) (fun e => e.2) nodes

abbrev signalPairs (signals : List (Chars × List (Chars × Attrs F))) : List (Chars × Chars × Chars × Attr F) :=
  allPairs (·.1) (fun e => nodePairs e.2) signals

abbrev sigRelPairs (r : Relations F) : List (Int × Chars × Chars × Chars × Attr F) :=
  allPairs (·.1) (fun e => signalPairs e.2) r.signals

abbrev msgRelPairs (r : Relations F) : List (Int × Chars × Chars × Attr F) :=
  allPairs (·.1) (fun e => nodePairs e.2) r.messages

def eRelations (T : FloatText F) (r : Relations F) : List Entry :=
  (sigRelPairs r).map (eSigRel T) ++ (msgRelPairs r).map (eMsgRel T)

theorem mem_allPairs_iff {κ α ι : Type} {key : ι → κ} {vs : ι → List α} {l : List ι} {p : κ × α} :
    p ∈ allPairs key vs l ↔ ∃ a ∈ l, p.1 = key a ∧ p.2 ∈ vs a := by
  unfold allPairs
  simp only [List.mem_flatMap, List.mem_map]
  constructor
  · rintro ⟨a, ha, v, hv, rfl⟩
    exact ⟨a, ha, rfl, hv⟩
  · rintro ⟨a, ha, h1, h2⟩
    exact ⟨a, ha, p.2, h2, by rw [← h1]⟩

/-! ### Text -/

theorem text_relDef (T : FloatText F) (d : AttrDef F) (k : String) (hk : d.kind = some k)
    (h : DefOk { d with kind := none }) : relDefLine T d = some (textOf (eRelDef T d).pieces) := by
  have h1 : relDefLine T d = (defLine T { d with kind := none }).map fun t =>
      "BA_DEF_REL_ ".toList ++ (kindText d ++ (' ' :: t.drop 8)) := by
    have hdrop : ∀ X : Chars, (("BA_DEF_ ".toList ++ ([] ++ ' ' :: (dumpPlain d.name ++ [' ']))) ++ X).drop 8 =
        ' ' :: (dumpPlain d.name ++ (' ' :: X)) := by
      intro X
      rw [show "BA_DEF_ ".toList = ['B', 'A', '_', 'D', 'E', 'F', '_', ' '] by decide]
      simp
    have h2 : "  ".toList = [' ', ' '] := by decide
    unfold relDefLine defLine
    rw [h2]
    simp only
    by_cases c1 : d.typeName = some "ENUM"
    · rw [if_pos c1, if_pos c1, Option.map_some, hdrop]
      simp
    · rw [if_neg c1, if_neg c1]
      by_cases c2 : d.typeName = some "STRING"
      · rw [if_pos c2, if_pos c2, Option.map_some, hdrop]
        simp
      · rw [if_neg c2, if_neg c2]
        cases d.typeName with
        | none => rfl
        | some t =>
          simp only
          split
          · rw [Option.map_some, hdrop]
            simp
          · rfl
  rw [h1, text_def T _ h]
  simp only [Option.map_some, Option.some.injEq]
  have hd : textOf (eDef T { d with kind := none }).pieces = "BA_DEF_ ".toList ++
        (' ' :: (dumpPlain d.name ++ (' ' :: ((d.typeName.getD "").toList ++
          (defGap d ++ (textOf (defVals T d).pieces ++ [';'])))))) := by
    unfold eDef Entry.pieces
    rw [textOf_append]
    simp only; txt; rw [textOf_blanks]; rfl
  rw [hd]
  unfold eRelDef Entry.pieces kindText
  rw [textOf_append, hk]
  simp only; txt; rw [textOf_blanks]; rfl

theorem text_relDefs (T : FloatText F) (defs : Defs F)
    (h : ∀ e ∈ defs, (∃ k, e.2.kind = some k) ∧ DefOk { e.2 with kind := none }) :
    dumpRelDefs T defs = (eRelDefs T defs).map fun e => textOf e.pieces := by
  unfold dumpRelDefs eRelDefs
  induction defs with
  | nil => rfl
  | cons e r ih =>
    obtain ⟨⟨k, hk⟩, hd⟩ := h e (by simp)
    rw [List.filterMap_cons, text_relDef T e.2 k hk hd, ih fun x hx => h x (List.mem_cons_of_mem _ hx)]
    rfl

theorem text_relDefaults (T : FloatText F) (defs : Defs F) :
    dumpRelDefaults T defs = (eRelDefaults T defs).map fun e => textOf e.pieces := by
  unfold dumpRelDefaults eRelDefaults
  rw [List.map_filterMap]
  congr 1
  funext e
  rw [Option.map_map]
  congr 1
  funext v
  simp only [Function.comp_apply, eRelDefault, Entry.pieces, text_key, text_sp, text_str, val_text, text_pun,
    textOf_nil, Bool.or_eq_true, decide_eq_true_eq]
  rfl

theorem text_sigRel (T : FloatText F) (f : Int) (s n : Chars) (a : Chars × Attr F) :
    signalRelLine T f s n a.2 = textOf (eSigRel T (f, s, n, a)).pieces := by
  unfold signalRelLine eSigRel Entry.pieces Attr.formatted
  simp only [text_key, text_sp, text_str, text_word, text_num, val_text, text_pun, textOf_nil, decide_eq_true_eq,
    List.append_assoc]
  rfl

theorem text_msgRel (T : FloatText F) (f : Int) (n : Chars) (a : Chars × Attr F) :
    messageRelLine T f n a.2 = textOf (eMsgRel T (f, n, a)).pieces := by
  unfold messageRelLine eMsgRel Entry.pieces Attr.formatted
  simp only [text_key, text_sp, text_str, text_word, text_num, val_text, text_pun, textOf_nil, decide_eq_true_eq,
    List.append_assoc]
  rfl

theorem text_relations (T : FloatText F) (r : Relations F) :
    dumpRelations T r = (eRelations T r).map fun e => textOf e.pieces := by
  unfold dumpRelations eRelations sigRelPairs msgRelPairs signalPairs nodePairs allPairs
  simp only [List.map_append, List.map_flatMap, List.map_map]
  refine congrArg₂ _ ?_ ?_
  · refine List.flatMap_congr fun f _ => List.flatMap_congr fun s _ => List.flatMap_congr fun n _ => ?_
    exact List.map_congr_left fun a _ => text_sigRel T f.1 s.1 n.1 a
  · refine List.flatMap_congr fun f _ => List.flatMap_congr fun n _ => ?_
    exact List.map_congr_left fun a _ => text_msgRel T f.1 n.1 a

/-! ### The entries can be read -/

section ok
variable (L : FloatLaws T) {db : RDatabase F} (R : WritableRelations db)

include R in
theorem relDefs_ok {e : Chars × AttrDef F} (h : e ∈ db.definitions) :
    (∃ k, e.2.kind = some k ∧ (k = "BU_SG_REL_" ∨ k = "BU_BO_REL_")) ∧ DefOk { e.2 with kind := none } := by
  obtain ⟨-, hw⟩ := R.definitions e h
  refine ⟨?_, defOk_of_writable hw.plain⟩
  rcases hw.kind with h | h
  · exact ⟨_, h, .inl rfl⟩
  · exact ⟨_, h, .inr rfl⟩

include L R in
theorem ok_relDefs {x : Entry} (h : x ∈ eRelDefs T db.definitions) : x.Ok := by
  obtain ⟨e, he, rfl⟩ := List.mem_map.1 h
  obtain ⟨⟨k, hk, hk'⟩, hd⟩ := relDefs_ok R he
  have := ok_def L hd
  unfold eDef Entry.Ok at this
  unfold eRelDef Entry.Ok
  rw [hk]
  exact ⟨hk', this.2⟩

include L R in
theorem ok_relDefaults {x : Entry} (h : x ∈ eRelDefaults T db.definitions) : x.Ok := by
  obtain ⟨e, he, h⟩ := List.mem_filterMap.1 h
  obtain ⟨v, hv, rfl⟩ := Option.map_eq_some_iff.1 h
  exact ok_default L (relDefs_ok R he).2 (v := v) hv

/-- What is needed of an attribute of a relation. -/
def RelOk (T : FloatText F) (defs : Defs F) (a : Chars × Attr F) : Prop :=
  a.1 = a.2.definition.name ∧ PlainText a.1 ∧
    (if a.2.definition.typeName = some "STRING" then PlainText (a.2.value.text T) else IsNumber (a.2.value.text T)) ∧
    toRelAttribute T defs a.1 (a.2.value.text T) = .ok a.2

include L R in
theorem relOk_of {n : Chars} {a : Attr F} (h : dictGet? db.definitions n = some a.definition)
    (ht : OfType a.definition a.value) : RelOk T db.definitions (n, a) := by
  have hm := dictGet?_mem h
  obtain ⟨h1, hw⟩ := R.definitions _ hm
  refine ⟨h1, ?_, ?_⟩
  · show PlainText n
    have := hw.plain.name
    rw [show n = a.definition.name from h1]
    exact this
  · have htr : ∀ raw, toRelAttribute T db.definitions n raw = readAttr T db.definitions n raw := fun _ => rfl
    obtain ⟨v, d⟩ := a
    cases v with
    | num x =>
      cases x with
      | int i =>
        refine ⟨?_, (htr _).trans (readAttr_int h ht (toInt_intText i))⟩
        rw [if_neg]
        · exact isNumber_intText i
        · rcases ht with h | h | h <;> (simp only at h ⊢; rw [h]; simp)
      | float f =>
        refine ⟨?_, (htr _).trans (readAttr_float h ht (L.read_show f))⟩
        rw [if_neg]
        · exact isNumber_float L f
        · simp only [OfType] at ht ⊢; rw [ht]; simp
    | str s =>
      refine ⟨?_, (htr _).trans (readAttr_str h ht.1)⟩
      rw [if_pos ht.1]
      exact ht.2

theorem relVal_ok {defs : Defs F} {a : Chars × Attr F} (h : RelOk T defs a) :
    (valE (decide (a.2.definition.typeName = some "STRING")) (a.2.value.text T)).Ok := by
  have := h.2.2.1
  unfold valE
  by_cases hs : a.2.definition.typeName = some "STRING"
  · rw [if_pos hs] at this
    rw [decide_eq_true hs]
    exact pq_ok this
  · rw [if_neg hs] at this
    rw [decide_eq_false hs]
    exact this

include L R in
theorem sigRel_ok {p : Int × Chars × Chars × Chars × Attr F} (h : p ∈ sigRelPairs db.relations) :
    Name p.2.1 ∧ Name p.2.2.1 ∧ RelOk T db.definitions p.2.2.2 := by
  obtain ⟨f, hf, -, h⟩ := mem_allPairs_iff.1 h
  obtain ⟨s, hs, h2, h⟩ := mem_allPairs_iff.1 h
  obtain ⟨n, hn, h3, h⟩ := mem_allPairs_iff.1 h
  have H1 := (R.signals f hf).all s hs
  have H2 := H1.2.all n hn
  have H3 := H2.2.all _ h
  rw [h2, h3]
  exact ⟨H1.1, H2.1, relOk_of L R H3.1 H3.2⟩

include L R in
theorem msgRel_ok {p : Int × Chars × Chars × Attr F} (h : p ∈ msgRelPairs db.relations) :
    Name p.2.1 ∧ RelOk T db.definitions p.2.2 := by
  obtain ⟨f, hf, -, h⟩ := mem_allPairs_iff.1 h
  obtain ⟨n, hn, h3, h⟩ := mem_allPairs_iff.1 h
  have H2 := (R.messages f hf).all n hn
  have H3 := H2.2.all _ h
  rw [h3]
  exact ⟨H2.1, relOk_of L R H3.1 H3.2⟩

include L R in
theorem ok_relations {x : Entry} (h : x ∈ eRelations T db.relations) : x.Ok := by
  unfold eRelations at h
  rcases List.mem_append.1 h with h | h
  · obtain ⟨p, hp, rfl⟩ := List.mem_map.1 h
    obtain ⟨h1, h2, h3⟩ := sigRel_ok L R hp
    exact ⟨pq_ok (h3.1 ▸ h3.2.1), h2, isNumber_intText _, h1, relVal_ok h3⟩
  · obtain ⟨p, hp, rfl⟩ := List.mem_map.1 h
    obtain ⟨h1, h3⟩ := msgRel_ok L R hp
    exact ⟨pq_ok (h3.1 ▸ h3.2.1), h1, isNumber_intText _, relVal_ok h3⟩

/-! ### Reading definitions -/

theorem loadRelDef_of {d x : AttrDef F} {k : String} (hk : d.kind = some k) {defaults : List (Chars × Chars)}
    (h : loadDef T defaults (eDef T { d with kind := none }).tree = .ok x) :
    loadRelDef T defaults (eRelDef T d).tree = .ok { x with kind := some k } := by
  have hmap : loadRelDef T defaults (eRelDef T d).tree =
      (loadDef T defaults (eDef T { d with kind := none }).tree).map fun x => { x with kind := some k } := by
    have hvals : defVals T { d with kind := none } = defVals T d := rfl
    unfold loadRelDef loadDef eRelDef eDef
    rd
    rw [hk, hvals]
    simp only [Option.getD_some, Except.map, String.ofList_toList]
    by_cases hv : (defVals T d).texts = []
    · rw [hv]
      simp only [List.map_nil, if_pos]
      simp only [ok_bind2]
      cases dictGet? defaults d.name with
      | none => rfl
      | some v =>
        dsimp only
        cases convertValue T (d.typeName.getD "") v <;> rfl
    · rw [if_neg hv, if_neg (by simpa using hv)]
      simp only [asList_list, ok_bind2]
      by_cases h1 : d.typeName.getD "" = "ENUM"
      · simp only [h1, if_pos, mapM_strs, pure_bind]
        cases dictGet? defaults d.name with
        | none => rfl
        | some v =>
          dsimp only
          cases convertValue T "ENUM" v <;> rfl
      · simp only [if_neg h1]
        by_cases h2 : d.typeName.getD "" = "INT" ∨ d.typeName.getD "" = "FLOAT" ∨ d.typeName.getD "" = "HEX"
        · simp only [if_pos h2]
          cases ((treeAt (List.map st (defVals T d).texts) 0).bind asStr).bind
            (convertLimit T (d.typeName.getD "")) with
          | error _ => rfl
          | ok lo =>
          simp only [ok_bind2]
          cases ((treeAt (List.map st (defVals T d).texts) 1).bind asStr).bind
            (convertLimit T (d.typeName.getD "")) with
          | error _ => rfl
          | ok hi =>
          simp only [ok_bind2, pure_bind]
          cases dictGet? defaults d.name with
          | none => rfl
          | some v =>
            dsimp only
            cases convertValue T (d.typeName.getD "") v <;> rfl
        · simp only [if_neg h2, ok_bind2]
          cases dictGet? defaults d.name with
          | none => rfl
          | some v =>
            dsimp only
            cases convertValue T (d.typeName.getD "") v <;> rfl
  rw [hmap, h]
  rfl

end ok

end Cantools.Dbc
