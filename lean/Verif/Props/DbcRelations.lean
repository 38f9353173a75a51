import Verif.Lemmas.DbcRelations
import Verif.Lemmas.SpreadFrame
import Verif.Props.DbcFile

/-
C65: a DBC file keeps the attributes of relations.
-/

namespace Cantools
open Spec Dbc

section

variable {F : Type} {T : FloatText F} {db : RDatabase F} {shorten strict : Bool}

/-- C65: the text that is written for a database can be read and gives a database with the same contents
(as in C45), the same definitions of attributes of relations in the same order, and the same attributes
for every node with a signal or a message, with the long names of the signals even if they are
shortened in the file. -/
theorem C65_round_trip (L : FloatLaws T) {U : Unicode} (hU : UnicodeLaws U) (W : WritableDatabase T db.base)
    (R : WritableRelations db) (K : shorten = true → KeptNames db.base) (KR : shorten = true → KeptRelations db)
    (C : ∀ m ∈ db.base.messages, ∃ pattern msg, messageOf T pattern strict m = .ok msg)
    {sort sortAttrs : List (DSignal F) → List (DSignal F)} (hs : ∀ l, (sort l).Perm l)
    (hsa : ∀ l, (sortAttrs l).Perm l) :
    ∃ text, dumpStringR U T sort sortAttrs shorten db = .ok text ∧
      ∃ db', loadStringR T strict text = .ok db' ∧ SameDatabase T db.base db'.base ∧
        db'.definitions = db.definitions ∧ db'.relations = db.relations :=
  round_tripR L hU W R K KR (constructible_of_create W C) hs hsa

/-- C65: a database without definitions and attributes of relations is written as in C45, whatever it
contains. -/
theorem C65_without_relations (U : Unicode) (T : FloatText F)
    (sort sortAttrs : List (DSignal F) → List (DSignal F)) (shorten : Bool) (db : DDatabase F) :
    dumpStringR U T sort sortAttrs shorten { base := db } = dumpString U T sort sortAttrs shorten db := by
  have hr : ∀ ms : List (DMessage F), shortenRelations shorten ms ({} : Relations F) = .ok {} := by
    intro ms
    induction ms with
    | nil => rfl
    | cons m l ih =>
      obtain ⟨l2s, h, -⟩ := longToShort_ok (m.signals.map (·.name))
      unfold shortenRelations at ih ⊢
      rw [List.foldlM_cons]
      rw [h, ok_bind2]
      have : shortenRelation shorten l2s m ({} : Relations F) = {} := by
        unfold shortenRelation
        cases shorten <;> rfl
      rw [this]
      exact ih
  unfold dumpStringR dumpString
  cases removeSpecialChars U db with
  | error e => rfl
  | ok base =>
    rw [ok_bind2, ok_bind2, hr, ok_bind2]
    cases makeNamesUnique shorten base with
    | error e => rfl
    | ok base => rfl

/-- C65: attributes of relations do not change what else is read from a file. -/
theorem C65_rest_unchanged {text : Chars} {db : RDatabase F} (h : loadStringR T strict text = .ok db) :
    loadString T strict text = .ok db.base := by
  unfold loadStringR at h
  unfold loadString
  obtain ⟨tokens, h1, h⟩ := bind_ok_iff.1 h
  obtain ⟨entries, h2, h⟩ := bind_ok_iff.1 h
  rw [h1, ok_bind2, h2, ok_bind2]
  unfold loadEntriesR at h
  obtain ⟨_, -, h⟩ := bind_ok_iff.1 h
  obtain ⟨_, -, h⟩ := bind_ok_iff.1 h
  obtain ⟨_, -, h⟩ := bind_ok_iff.1 h
  obtain ⟨_, -, h⟩ := bind_ok_iff.1 h
  obtain ⟨_, -, h⟩ := bind_ok_iff.1 h
  obtain ⟨_, -, h⟩ := bind_ok_iff.1 h
  obtain ⟨base, h3, h⟩ := bind_ok_iff.1 h
  cases h
  exact h3

end

/-! ### The hypotheses can be met -/

namespace RelExample
open DbcExample

instance (d : AttrDef Int) (v : AttrVal Int) : Decidable (OfType d v) := by
  unfold OfType; split <;> infer_instance

def timeoutDef : AttrDef Int :=
  { name := "GenSigTimeout".toList, default := some (.num (.int 0)), kind := some "BU_SG_REL_"
    typeName := some "INT", minimum := some (.int 0), maximum := some (.int 65535) }
def actionDef : AttrDef Int :=
  { name := "Action".toList, default := some (.str "none".toList), kind := some "BU_SG_REL_"
    typeName := some "ENUM", choices := ["none".toList, "limp home".toList] }
def noteDef : AttrDef Int :=
  { name := "Note".toList, kind := some "BU_BO_REL_", typeName := some "STRING" }

def db : RDatabase Int :=
  { base := DbcExample.db
    definitions := [(timeoutDef.name, timeoutDef), (actionDef.name, actionDef), (noteDef.name, noteDef)]
    relations :=
      { signals := [(dbcFrameId 0x18ff true,
          [(longSignal, [(longNode, [(actionDef.name, { value := .num (.int 1), definition := actionDef }),
              (timeoutDef.name, { value := .num (.int 250), definition := timeoutDef })])]),
           ("Level".toList, [("Gateway".toList, [(timeoutDef.name, { value := .num (.int 5), definition := timeoutDef })]),
             (longNode, [(timeoutDef.name, { value := .num (.int (-7)), definition := timeoutDef })])])]),
          (7, [("Unknown".toList, [("Gateway".toList, [(actionDef.name, { value := .num (.int 0), definition := actionDef })])])])]
        messages := [(dbcFrameId 0x18ff true,
          [("Gateway".toList, [(noteDef.name, { value := .str "checked; twice".toList, definition := noteDef })])])] } }

theorem filled {κ α : Type} [DecidableEq κ] {P : κ → α → Prop} {d : List (κ × α)} (h : d ≠ [])
    (hn : (d.map (·.1)).Nodup) (ha : ∀ e ∈ d, P e.1 e.2) : Filled P d := ⟨h, hn, ha⟩

theorem relation {node : Chars} {as : Attrs Int} (hn : Name node) (h : as ≠ []) (hd : (as.map (·.1)).Nodup)
    (ha : ∀ e ∈ as, dictGet? db.definitions e.1 = some e.2.definition ∧ OfType e.2.definition e.2.value) :
    WritableRelation db.definitions node as := ⟨hn, h, hd, ha⟩

theorem writable : WritableRelations db where
  definitions := by
    intro e he
    simp only [db, List.mem_cons, List.not_mem_nil, or_false] at he
    rcases he with rfl | rfl | rfl
    · exact ⟨rfl, .inl rfl, by decide +kernel, by decide +kernel, by decide +kernel, by rintro v ⟨⟩; decide +kernel,
        .inr (.inl ⟨_, _, rfl, rfl, .inl rfl⟩), by decide +kernel, by decide +kernel⟩
    · exact ⟨rfl, .inl rfl, by decide +kernel, by decide +kernel, by decide +kernel, by rintro v ⟨⟩; decide +kernel,
        .inl ⟨rfl, rfl⟩, by decide +kernel, by decide +kernel⟩
    · exact ⟨rfl, .inr rfl, by decide +kernel, by decide +kernel, by decide +kernel, by rintro v ⟨⟩,
        .inl ⟨rfl, rfl⟩, by decide +kernel, by decide +kernel⟩
  definitionNames := by decide +kernel
  signalFrames := by decide +kernel
  signals := by
    intro f hf
    simp only [db, List.mem_cons, List.not_mem_nil, or_false] at hf
    rcases hf with rfl | rfl
    · refine filled (by simp) (by decide +kernel) fun e he => ?_
      simp only [List.mem_cons, List.not_mem_nil, or_false] at he
      rcases he with rfl | rfl
      · refine ⟨by decide +kernel, filled (by simp) (by decide +kernel) fun e he => ?_⟩
        simp only [List.mem_cons, List.not_mem_nil, or_false] at he
        subst he
        exact relation (by decide +kernel) (by simp) (by decide +kernel) (by decide +kernel)
      · refine ⟨by decide +kernel, filled (by simp) (by decide +kernel) fun e he => ?_⟩
        simp only [List.mem_cons, List.not_mem_nil, or_false] at he
        rcases he with rfl | rfl <;>
          exact relation (by decide +kernel) (by simp) (by decide +kernel) (by decide +kernel)
    · refine filled (by simp) (by decide +kernel) fun e he => ?_
      simp only [List.mem_cons, List.not_mem_nil, or_false] at he
      subst he
      refine ⟨by decide +kernel, filled (by simp) (by decide +kernel) fun e he => ?_⟩
      simp only [List.mem_cons, List.not_mem_nil, or_false] at he
      subst he
      exact relation (by decide +kernel) (by simp) (by decide +kernel) (by decide +kernel)
  messageFrames := by decide +kernel
  messages := by
    intro f hf
    simp only [db, List.mem_cons, List.not_mem_nil, or_false] at hf
    subst hf
    refine filled (by simp) (by decide +kernel) fun e he => ?_
    simp only [List.mem_cons, List.not_mem_nil, or_false] at he
    subst he
    exact relation (by decide +kernel) (by simp) (by decide +kernel) (by decide +kernel)

theorem kept : KeptRelations db := by unfold KeptRelations; decide +kernel

end RelExample

example := C65_round_trip halves_laws DbcExample.ascii_laws (db := RelExample.db) DbcExample.writable
  RelExample.writable (shorten := true) (fun _ => DbcExample.keptNames) (fun _ => RelExample.kept)
  DbcExample.constructible (sort := id) (sortAttrs := List.reverse) (fun _ => .refl _) List.reverse_perm

/-! ### What a DBC file does not keep -/

section Witness65
open DbcExample RelExample

/-- The database that is read after writing one. -/
def rereadR (shorten : Bool) (db : RDatabase Int) : Except Err (RDatabase Int) := do
  let text ← dumpStringR ascii halves id id shorten db
  loadStringR halves true text

/-- The attribute of one signal and one node. -/
def oneSignal (frameId : Int) (signal : Chars) : RDatabase Int :=
  { base := oneMessage msg1, definitions := [(timeoutDef.name, timeoutDef)]
    relations := { signals := [(frameId, [(signal, [("N".toList,
      [(timeoutDef.name, { value := .num (.int 1), definition := timeoutDef })])])])] } }

example : rereadR false (oneSignal 5 "S".toList) = .ok { oneSignal 5 "S".toList with
  base := { (reread false (oneMessage msg1)).toOption.getD {} with } } := by decide +kernel

/-- A definition may be read without what it is for.  It is then written with the kind `None`, and that
file cannot be read. -/
theorem C65_no_kind_unreadable :
    let text := "BA_DEF_REL_ \"A\" INT 0 5;".toList
    (loadStringR halves true text).map (fun db => db.definitions.map fun d => (d.1, d.2.kind)) =
      .ok [("A".toList, none)] ∧
    (do rereadR false (← loadStringR halves true text)) = .error .error := by
  constructor <;> decide +kernel

/-- Special characters are removed from the names of messages, but not here: the file cannot be read. -/
theorem C65_special_characters_unreadable :
    rereadR false (oneSignal 5 "S+".toList) = .error .error ∧
    (rereadR false { base := small { sig1 with name := "S+".toList } }).isOk = true := by
  constructor <;> decide +kernel

/-- A name that is not a signal of the message, but the shortened name of one, becomes the long name. -/
theorem C65_name_mistaken :
    (rereadR true { oneSignal 5 (longSignal.take 32) with base := small { sig1 with name := longSignal } }).map
      (·.relations.signals.flatMap fun f => f.2.map (·.1)) = .ok [longSignal] := by decide +kernel

/-- Empty dictionaries are lost. -/
theorem C65_empty_not_kept :
    (rereadR false { base := oneMessage msg1, relations := { signals := [(5, [("S".toList, [])])] } }).map
      (·.relations.signals) = .ok [] := by decide +kernel

/-- The long names of nodes are restored for nodes, senders and receivers, but not here: an attribute
for the short name of a node is for no node of the database. -/
theorem C65_node_name_not_restored :
    (loadStringR halves true ("BU_: Abbreviated\r\n".toList ++
      ("BA_DEF_ BU_  \"SystemNodeLongSymbol\" STRING ;\r\n".toList ++
      ("BA_DEF_REL_ BU_BO_REL_  \"A\" INT 0 5;\r\n".toList ++
      ("BA_ \"SystemNodeLongSymbol\" BU_ Abbreviated \"AbbreviatedNode\";\r\n".toList ++
       "BA_REL_ \"A\" BU_BO_REL_ Abbreviated 5 1;".toList))))).map
      (fun db => (db.base.nodes.map (·.name), db.relations.messages.flatMap fun f => f.2.map (·.1))) =
      .ok (["AbbreviatedNode".toList], ["Abbreviated".toList]) := by decide +kernel

end Witness65

end Cantools
