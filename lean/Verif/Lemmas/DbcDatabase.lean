import Verif.Lemmas.DbcMessage

/-
The whole database that is read from a written DBC file.
-/

namespace Cantools.Dbc
open Cantools Spec

variable {F : Type} {T : FloatText F} {sort sortAttrs : List (DSignal F) → List (DSignal F)} {db : DDatabase F}
variable (L : FloatLaws T) (W : WritableDatabase T db)

include L W in
theorem load_messages (hs : Sorts sort) (hsa : Sorts sortAttrs) {strict : Bool} (R : Restorable T db strict) :
    ∃ ms, loadMessages T strict (gotContext T sortAttrs db) (treesOf T sort sortAttrs db) = .ok ms ∧
      List.Forall₂ (SameMessage T) (db.messages.map (restoreMessage T db)) ms := by
  unfold loadMessages
  rw [entriesOf_part (label := "BO_") (by part)]
  suffices ∀ l : List (DMessage F), (∀ m ∈ l, m ∈ db.messages) →
      ∃ ms, ((l.map (eMsg T sort)).map Entry.tree).mapM (loadMessage T strict (gotContext T sortAttrs db)) = .ok ms ∧
        List.Forall₂ (SameMessage T) (l.map (restoreMessage T db)) (ms.filterMap id) by
    obtain ⟨ms, h1, h2⟩ := this db.messages fun _ h => h
    refine ⟨ms.filterMap id, ?_, h2⟩
    refine (bind_of_ok h1).trans ?_
    rfl
  intro l
  induction l with
  | nil => exact fun _ => ⟨[], rfl, .nil⟩
  | cons m r ih =>
    intro h
    obtain ⟨ms, h1, h2⟩ := ih fun x hx => h x (List.mem_cons_of_mem _ hx)
    obtain ⟨m', h3, h4⟩ := load_message L W hs hsa R (h m (by simp))
    refine ⟨some m' :: ms, ?_, ?_⟩
    · rw [List.map_cons, List.map_cons, List.mapM_cons, h3, h1]
      rfl
    · rw [List.map_cons]
      exact .cons h4 h2

theorem SameNode.refl (n : DNode F) : SameNode n n := ⟨rfl, rfl, fun _ _ => rfl⟩

theorem SameEnvvar.refl (e : Chars × DEnvvar F) : SameEnvvar e e :=
  ⟨rfl, rfl, rfl, rfl, rfl, rfl, rfl, rfl, rfl, rfl, rfl, fun _ _ => rfl⟩

theorem forall₂_refl {α : Type} {R : α → α → Prop} (h : ∀ a, R a a) (l : List α) : List.Forall₂ R l l := by
  induction l with
  | nil => exact .nil
  | cons a r ih => exact .cons (h a) ih

include L W in
/-- What is read from a written file is the database with its long names. -/
theorem load_written (hs : Sorts sort) (hsa : Sorts sortAttrs) {strict : Bool} (R : Restorable T db strict) {text : Chars}
    (h : render T sort sortAttrs db = .ok text) :
    ∃ db', loadString T strict text = .ok db' ∧ SameDatabase T (restore T db) db' := by
  rw [load_render L W hs hsa strict h]
  obtain ⟨ms, hms, hsame⟩ := load_messages L W hs hsa R
  unfold loadEntries
  rw [load_comments]
  simp only [ok_bind2]
  rw [load_defaults]
  simp only [ok_bind2]
  rw [load_defs L W]
  simp only [ok_bind2]
  rw [load_attributes L W hsa]
  simp only [ok_bind2]
  rw [load_bus L W]
  simp only [ok_bind2]
  rw [load_tables W]
  simp only [ok_bind2]
  rw [load_choices W hsa]
  simp only [ok_bind2]
  rw [load_senders]
  simp only [ok_bind2]
  rw [load_types]
  simp only [ok_bind2]
  rw [load_mux T db]
  simp only [ok_bind2]
  rw [load_groups]
  simp only [ok_bind2]
  unfold gotContext at hms
  rw [hms]
  simp only [ok_bind2]
  rw [load_nodes L W]
  simp only [ok_bind2]
  rw [load_version]
  simp only [ok_bind2]
  rw [load_envvars L W R.envvars]
  simp only [ok_bind2]
  refine ⟨_, rfl, ?_⟩
  constructor
  case messages => exact hsame
  case nodes => exact forall₂_refl SameNode.refl _
  case buses =>
    rcases W.buses with ⟨hb, -⟩ | ⟨b, hb, -⟩
    · show db.buses.head?.toList = db.buses
      rw [hb]; rfl
    · show db.buses.head?.toList = db.buses
      rw [hb]; rfl
  case version => rfl
  case attributes =>
    show SameBut [baudrate] db.attributes (gotAttrs T sortAttrs (syncDefinitions T db) db).database
    rw [got_database L W]
    exact (db_loaded L W).1
  case definitions =>
    intro n d hn (hd : dictGet? db.definitions n = some d)
    show dictGet? (gotDefs T (syncDefinitions T db)) n = some d
    rw [gotDefs_get, sync_kept T hn hd, Option.map_some, gotDef_writable T (W.definitions _ (dictGet?_mem hd)).2]
  case envvars => exact forall₂_refl SameEnvvar.refl _
  case valueTables =>
    show List.Forall₂ _ db.valueTables (db.valueTables.map fun t => (t.1, sortedDescending t.2))
    rw [List.forall₂_map_right_iff]
    exact forall₂_refl (fun t => ⟨rfl, pySorted_perm _ _⟩) _

end Cantools.Dbc
