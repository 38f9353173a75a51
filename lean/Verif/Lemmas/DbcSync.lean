import Verif.Lemmas.DbcText

/-
The definitions and attributes that are written for a database, and how they are read.
-/

namespace Cantools.Dbc
open Cantools Spec

variable {F : Type}

/-! ### Dictionaries -/

theorem dictGet?_pop {α : Type} (l : List (Chars × α)) (k j : Chars) :
    dictGet? (dictPop l k) j = if j = k then none else dictGet? l j := by
  induction l with
  | nil => simp [dictPop]
  | cons e r ih =>
    obtain ⟨i, v⟩ := e
    unfold dictPop at ih ⊢
    rw [List.filter_cons]
    by_cases h : i = k
    · subst h
      simp only [ne_eq, not_true_eq_false, decide_false, Bool.false_eq_true, if_false, ih]
      by_cases hj : j = i
      · simp [hj]
      · simp [hj, dictGet?_cons, Ne.symm hj]
    · simp only [ne_eq, h, not_false_eq_true, decide_true, if_true, dictGet?_cons, ih]
      by_cases hj : i = j
      · subst hj; simp [h]
      · simp [hj]

theorem dictPop_nodup {α : Type} {l : List (Chars × α)} (k : Chars) (h : (l.map (·.1)).Nodup) :
    ((dictPop l k).map (·.1)).Nodup :=
  List.Sublist.nodup (List.Sublist.map _ List.filter_sublist) h

theorem mem_dictPop {α : Type} {l : List (Chars × α)} {k : Chars} {e : Chars × α} (h : e ∈ dictPop l k) :
    e ∈ l ∧ e.1 ≠ k := by
  simpa [dictPop] using h

theorem mem_dictSet {κ α : Type} [DecidableEq κ] {l : List (κ × α)} {k : κ} {v : α} {e : κ × α}
    (h : e ∈ dictSet l k v) : e = (k, v) ∨ e ∈ l := by
  induction l with
  | nil => simp [dictSet] at h; exact Or.inl h
  | cons x r ih =>
    rw [dictSet] at h
    split at h
    · rcases List.mem_cons.1 h with h | h
      · exact Or.inl h
      · exact Or.inr (List.mem_cons_of_mem _ h)
    · rcases List.mem_cons.1 h with h | h
      · exact Or.inr (by rw [h]; simp)
      · rcases ih h with h | h
        · exact Or.inl h
        · exact Or.inr (List.mem_cons_of_mem _ h)

theorem dictGet?_map {κ α β : Type} [DecidableEq κ] (g : α → β) (l : List (κ × α)) (k : κ) :
    dictGet? (l.map fun e => (e.1, g e.2)) k = (dictGet? l k).map g := by
  induction l with
  | nil => rfl
  | cons e r ih =>
    rw [List.map_cons, dictGet?_cons, ih]
    obtain ⟨i, v⟩ := e
    rw [dictGet?_cons]
    by_cases h : i = k <;> simp [h]

/-! ### Definitions -/

/-- The definition that is read. -/
def gotDef (T : FloatText F) (d : AttrDef F) : AttrDef F :=
  if d.typeName = some "FLOAT" then
    { d with minimum := d.minimum.map fun n => .float (n.toFloat T), maximum := d.maximum.map fun n => .float (n.toFloat T) }
  else d

theorem gotDef_name (T : FloatText F) (d : AttrDef F) : (gotDef T d).name = d.name := by
  unfold gotDef; split <;> rfl
theorem gotDef_kind (T : FloatText F) (d : AttrDef F) : (gotDef T d).kind = d.kind := by
  unfold gotDef; split <;> rfl
theorem gotDef_type (T : FloatText F) (d : AttrDef F) : (gotDef T d).typeName = d.typeName := by
  unfold gotDef; split <;> rfl
theorem gotDef_default (T : FloatText F) (d : AttrDef F) : (gotDef T d).default = d.default := by
  unfold gotDef; split <;> rfl
theorem gotDef_choices (T : FloatText F) (d : AttrDef F) : (gotDef T d).choices = d.choices := by
  unfold gotDef; split <;> rfl

theorem gotDef_writable (T : FloatText F) {d : AttrDef F} (h : WritableDef d) : gotDef T d = d := by
  unfold gotDef
  split
  · rename_i hf
    rcases h.limits with ⟨h1, h2⟩ | ⟨a, b, -, -, hl | hl⟩ | ⟨a, b, h1, h2, -⟩
    · rw [h1, h2]; cases d; simp_all
    · rw [hf] at hl; simp at hl
    · rw [hf] at hl; simp at hl
    · rw [h1, h2]; cases d; simp_all [Num.toFloat]
  · rfl

def gotDefs (T : FloatText F) (defs : Defs F) : Defs F := defs.map fun e => (e.1, gotDef T e.2)

theorem gotDefs_get (T : FloatText F) (defs : Defs F) (k : Chars) :
    dictGet? (gotDefs T defs) k = (dictGet? defs k).map (gotDef T) := dictGet?_map _ _ _

theorem addDef_get (need : Bool) (d : AttrDef F) (defs : Defs F) (k : Chars) :
    dictGet? (addDef need d defs) k =
      if need = true ∧ k = d.name ∧ dictGet? defs d.name = none then some d else dictGet? defs k := by
  unfold addDef
  by_cases h : (need && (dictGet? defs d.name).isNone) = true
  · rw [if_pos h, dictGet?_set]
    simp only [Bool.and_eq_true, Option.isNone_iff_eq_none] at h
    by_cases hk : d.name = k
    · rw [if_pos hk, if_pos ⟨h.1, hk.symm, h.2⟩]
    · rw [if_neg hk, if_neg fun hh => hk hh.2.1.symm]
  · rw [if_neg h, if_neg]
    intro hh
    exact h (by simp [hh.1, hh.2.2])

theorem addDef_all {P : Chars × AttrDef F → Prop} (need : Bool) {d : AttrDef F} (hd : P (d.name, d)) {defs : Defs F}
    (h : (defs.map (·.1)).Nodup ∧ ∀ e ∈ defs, P e) :
    ((addDef need d defs).map (·.1)).Nodup ∧ ∀ e ∈ addDef need d defs, P e := by
  unfold addDef
  split
  · refine ⟨dictSet_nodup _ _ h.1, fun e he => ?_⟩
    rcases mem_dictSet he with rfl | he
    · exact hd
    · exact h.2 e he
  · exact h

/-- A definition of the database under its own name. -/
def EntryOk (e : Chars × AttrDef F) : Prop := e.1 = e.2.name ∧ DefOk e.2

macro "plain" : tactic => `(tactic| (constructor <;> decide +kernel))

theorem plain_cycleTimeDef : PlainText genMsgCycleTime := by plain
theorem plain_startValueDef : PlainText genSigStartValue := by plain
theorem plain_baudrateDef : PlainText baudrate := by plain
theorem plain_vFrameFormatDef : PlainText vFrameFormat := by plain
theorem plain_canFdBrsDef : PlainText "CANFD_BRS".toList := by plain
theorem plain_standard : PlainText "StandardCAN".toList := by plain
theorem plain_one : PlainText ['1'] := by plain
theorem plain_zero : PlainText ['0'] := by plain

theorem cycleTimeDef_ok : EntryOk ((cycleTimeDef : AttrDef F).name, (cycleTimeDef : AttrDef F)) :=
  ⟨rfl, { name := plain_cycleTimeDef, kind := by simp [cycleTimeDef], type := by simp [cycleTimeDef]
          default := by rintro v hv; cases hv; simp [cycleTimeDef]
          limits := Or.inr (Or.inl ⟨_, _, rfl, rfl, Or.inl rfl⟩)
          choices := by simp [cycleTimeDef], enum := by simp [cycleTimeDef] }⟩

theorem startValueDef_ok (T : FloatText F) : EntryOk ((startValueDef T).name, startValueDef T) :=
  ⟨rfl, { name := plain_startValueDef, kind := by simp [startValueDef], type := by simp [startValueDef]
          default := by rintro v hv; cases hv; simp [startValueDef]
          limits := Or.inr (Or.inr ⟨_, _, rfl, rfl, rfl⟩)
          choices := by simp [startValueDef], enum := by simp [startValueDef] }⟩

theorem baudrateDef_ok : EntryOk ((baudrateDef : AttrDef F).name, (baudrateDef : AttrDef F)) :=
  ⟨rfl, { name := plain_baudrateDef, kind := by simp [baudrateDef], type := by simp [baudrateDef]
          default := by rintro v hv; cases hv; simp [baudrateDef]
          limits := Or.inr (Or.inl ⟨_, _, rfl, rfl, Or.inl rfl⟩)
          choices := by simp [baudrateDef], enum := by simp [baudrateDef] }⟩

theorem frameFormats_plain : ∀ c ∈ frameFormats, PlainText c := by
  have : frameFormats.all (fun c => !c.contains '"' && decide (c.getLast? ≠ some '\\')) = true := by decide +kernel
  intro c hc
  have h := List.all_eq_true.1 this c hc
  simp only [Bool.and_eq_true, Bool.not_eq_true', decide_eq_true_eq] at h
  exact ⟨by intro hq; have := h.1; simp_all, h.2⟩

theorem vFrameFormatDef_ok : EntryOk ((vFrameFormatDef : AttrDef F).name, (vFrameFormatDef : AttrDef F)) :=
  ⟨rfl, { name := plain_vFrameFormatDef, kind := by simp [vFrameFormatDef], type := by simp [vFrameFormatDef]
          default := by rintro v hv; cases hv; exact ⟨Or.inr rfl, plain_standard⟩
          limits := Or.inl ⟨rfl, rfl⟩
          choices := frameFormats_plain, enum := by simp [vFrameFormatDef] }⟩

theorem canFdBrsDef_ok : EntryOk ((canFdBrsDef : AttrDef F).name, (canFdBrsDef : AttrDef F)) :=
  ⟨rfl, { name := plain_canFdBrsDef, kind := Or.inr (Or.inr (Or.inl rfl)), type := Or.inr (Or.inr (Or.inr (Or.inr rfl)))
          default := by rintro v hv; cases hv; exact ⟨Or.inr rfl, plain_one⟩
          limits := Or.inl ⟨rfl, rfl⟩
          choices := by
            intro c hc
            rcases List.mem_cons.1 hc with rfl | hc
            · exact plain_zero
            · rcases List.mem_cons.1 hc with rfl | hc
              · exact plain_one
              · cases hc
          enum := fun _ => rfl }⟩

/-- All definitions that are written can be read. -/
theorem sync_ok (T : FloatText F) {db : DDatabase F} (W : WritableDatabase T db) :
    ((syncDefinitions T db).map (·.1)).Nodup ∧ ∀ e ∈ syncDefinitions T db, EntryOk e := by
  unfold syncDefinitions
  refine addDef_all _ canFdBrsDef_ok (addDef_all _ vFrameFormatDef_ok ?_)
  have h0 : (db.definitions.map (·.1)).Nodup ∧ ∀ e ∈ db.definitions, EntryOk e :=
    ⟨W.definitionNames, fun e he => ⟨(W.definitions e he).1, defOk_of_writable (W.definitions e he).2⟩⟩
  have h1 := addDef_all (db.messages.any fun m => m.signals.any fun s => s.rawInitial.isSome) (startValueDef_ok T)
    (addDef_all (db.messages.any fun m => m.cycleTime.isSome) cycleTimeDef_ok h0)
  split
  · exact addDef_all _ baudrateDef_ok h1
  · exact ⟨dictPop_nodup _ h1.1, fun e he => h1.2 e (mem_dictPop he).1⟩

/-- A definition of the database is kept, but for the baud rate. -/
theorem sync_kept (T : FloatText F) {db : DDatabase F} {k : Chars} {d : AttrDef F} (hk : k ≠ baudrate)
    (h : dictGet? db.definitions k = some d) : dictGet? (syncDefinitions T db) k = some d := by
  have step : ∀ (need : Bool) (x : AttrDef F) (defs : Defs F), dictGet? defs k = some d →
      dictGet? (addDef need x defs) k = some d := by
    intro need x defs hd
    rw [addDef_get, if_neg]
    · exact hd
    · rintro ⟨-, rfl, hn⟩
      rw [hn] at hd
      cases hd
  unfold syncDefinitions
  apply step; apply step
  split
  · exact step _ _ _ (step _ _ _ (step _ _ _ h))
  · rw [dictGet?_pop, if_neg hk]; exact step _ _ _ (step _ _ _ h)

/-- Definitions with other names are not added. -/
theorem sync_none (T : FloatText F) {db : DDatabase F} {k : Chars} (hc : k ≠ genMsgCycleTime) (hs : k ≠ genSigStartValue)
    (hb : k ≠ baudrate) (hv : k ≠ vFrameFormat) (hf : k ≠ "CANFD_BRS".toList)
    (h : dictGet? db.definitions k = none) : dictGet? (syncDefinitions T db) k = none := by
  unfold syncDefinitions
  rw [addDef_get, if_neg fun x => hf x.2.1, addDef_get, if_neg fun x => hv x.2.1]
  split
  · rw [addDef_get, if_neg fun x => hb x.2.1, addDef_get, if_neg fun x => hs x.2.1, addDef_get,
      if_neg fun x => hc x.2.1, h]
  · rw [dictGet?_pop, if_neg hb, addDef_get, if_neg fun x => hs x.2.1, addDef_get,
      if_neg fun x => hc x.2.1, h]

theorem sync_cycleTime (T : FloatText F) (db : DDatabase F) :
    dictGet? (syncDefinitions T db) genMsgCycleTime =
      match dictGet? db.definitions genMsgCycleTime with
      | some d => some d
      | none => if (db.messages.any fun m => m.cycleTime.isSome) = true then some cycleTimeDef else none := by
  cases h : dictGet? db.definitions genMsgCycleTime with
  | some d => exact sync_kept T (by decide +kernel) h
  | none =>
    have hb : genMsgCycleTime ≠ baudrate := by decide +kernel
    have h1 : dictGet? (addDef (db.messages.any fun m => m.cycleTime.isSome) cycleTimeDef db.definitions) genMsgCycleTime =
        if (db.messages.any fun m => m.cycleTime.isSome) = true then some cycleTimeDef else none := by
      rw [addDef_get]
      by_cases ha : (db.messages.any fun m => m.cycleTime.isSome) = true
      · rw [if_pos ⟨ha, rfl, h⟩, if_pos ha]
      · rw [if_neg fun x => ha x.1, if_neg ha, h]
    have hs : genMsgCycleTime ≠ (startValueDef T).name := by show _ ≠ genSigStartValue; decide +kernel
    unfold syncDefinitions
    rw [addDef_get, if_neg fun x => absurd x.2.1 (by show _ ≠ "CANFD_BRS".toList; decide +kernel), addDef_get,
      if_neg fun x => absurd x.2.1 (by show _ ≠ vFrameFormat; decide +kernel)]
    split
    · rw [addDef_get, if_neg fun x => hb x.2.1, addDef_get, if_neg fun x => hs x.2.1, h1]
    · rw [dictGet?_pop, if_neg hb, addDef_get, if_neg fun x => hs x.2.1, h1]

theorem sync_startValue (T : FloatText F) (db : DDatabase F) :
    dictGet? (syncDefinitions T db) genSigStartValue =
      match dictGet? db.definitions genSigStartValue with
      | some d => some d
      | none => if (db.messages.any fun m => m.signals.any fun s => s.rawInitial.isSome) = true
          then some (startValueDef T) else none := by
  cases h : dictGet? db.definitions genSigStartValue with
  | some d => exact sync_kept T (by decide +kernel) h
  | none =>
    have hb : genSigStartValue ≠ baudrate := by decide +kernel
    have h0 : dictGet? (addDef (db.messages.any fun m => m.cycleTime.isSome) cycleTimeDef db.definitions)
        genSigStartValue = none := by
      rw [addDef_get, if_neg fun x => absurd x.2.1 (by show _ ≠ genMsgCycleTime; decide +kernel), h]
    have h1 : dictGet? (addDef (db.messages.any fun m => m.signals.any fun s => s.rawInitial.isSome) (startValueDef T)
          (addDef (db.messages.any fun m => m.cycleTime.isSome) cycleTimeDef db.definitions)) genSigStartValue =
        if (db.messages.any fun m => m.signals.any fun s => s.rawInitial.isSome) = true
          then some (startValueDef T) else none := by
      rw [addDef_get]
      by_cases ha : (db.messages.any fun m => m.signals.any fun s => s.rawInitial.isSome) = true
      · rw [if_pos ⟨ha, rfl, h0⟩, if_pos ha]
      · rw [if_neg fun x => ha x.1, if_neg ha, h0]
    unfold syncDefinitions
    rw [addDef_get, if_neg fun x => absurd x.2.1 (by show _ ≠ "CANFD_BRS".toList; decide +kernel), addDef_get,
      if_neg fun x => absurd x.2.1 (by show _ ≠ vFrameFormat; decide +kernel)]
    split
    · rw [addDef_get, if_neg fun x => hb x.2.1, h1]
    · rw [dictGet?_pop, if_neg hb, h1]

theorem sync_baudrate (T : FloatText F) {db : DDatabase F} (h : (busBaudrate db).isSome = true) :
    dictGet? (syncDefinitions T db) baudrate = some ((dictGet? db.definitions baudrate).getD baudrateDef) := by
  have h1 : dictGet? (addDef (db.messages.any fun m => m.signals.any fun s => s.rawInitial.isSome) (startValueDef T)
        (addDef (db.messages.any fun m => m.cycleTime.isSome) cycleTimeDef db.definitions)) baudrate =
      dictGet? db.definitions baudrate := by
    rw [addDef_get, if_neg fun x => absurd x.2.1 (by show _ ≠ genSigStartValue; decide +kernel),
      addDef_get, if_neg fun x => absurd x.2.1 (by show _ ≠ genMsgCycleTime; decide +kernel)]
  unfold syncDefinitions
  rw [addDef_get, if_neg fun x => absurd x.2.1 (by show _ ≠ "CANFD_BRS".toList; decide +kernel), addDef_get,
    if_neg fun x => absurd x.2.1 (by show _ ≠ vFrameFormat; decide +kernel), if_pos h, addDef_get, h1]
  cases hd : dictGet? db.definitions baudrate with
  | none => rw [if_pos ⟨rfl, rfl, h1.trans hd⟩]; rfl
  | some d =>
    rw [if_neg]
    · rfl
    · rintro ⟨-, -, hn⟩
      rw [show (baudrateDef : AttrDef F).name = baudrate from rfl, h1, hd] at hn
      cases hn

theorem sync_format (T : FloatText F) (db : DDatabase F) :
    dictGet? (syncDefinitions T db) vFrameFormat =
      if busIsCanFd db then some ((dictGet? db.definitions vFrameFormat).getD vFrameFormatDef)
      else dictGet? db.definitions vFrameFormat := by
  cases h : dictGet? db.definitions vFrameFormat with
  | some d => rw [sync_kept T (by decide +kernel) h]; simp
  | none =>
    have h1 : dictGet? (addDef (db.messages.any fun m => m.signals.any fun s => s.rawInitial.isSome) (startValueDef T)
          (addDef (db.messages.any fun m => m.cycleTime.isSome) cycleTimeDef db.definitions)) vFrameFormat = none := by
      rw [addDef_get, if_neg fun x => absurd x.2.1 (by show _ ≠ genSigStartValue; decide +kernel),
        addDef_get, if_neg fun x => absurd x.2.1 (by show _ ≠ genMsgCycleTime; decide +kernel), h]
    unfold syncDefinitions
    rw [addDef_get, if_neg fun x => absurd x.2.1 (by show _ ≠ "CANFD_BRS".toList; decide +kernel), addDef_get]
    generalize hd : (if (busBaudrate db).isSome = true then _ else _ : Defs F) = defs
    have h2 : dictGet? defs vFrameFormat = none := by
      rw [← hd]
      split
      · rw [addDef_get, if_neg fun x => absurd x.2.1 (by show _ ≠ baudrate; decide +kernel), h1]
      · rw [dictGet?_pop, if_neg (by decide +kernel), h1]
    cases hb : busIsCanFd db with
    | false => rw [if_neg (by simp), if_neg (by simp), h2]
    | true => rw [if_pos ⟨rfl, rfl, h2⟩, if_pos rfl]; rfl

/-! ### Attributes -/

/-- dbc.py:1283-1295 `to_attribute_object`, for a name and a text. -/
def readAttr (T : FloatText F) (defs : Defs F) (name raw : Chars) : Except Err (Attr F) := do
  let d ← dictGet defs name
  if d.typeName = some "INT" ∨ d.typeName = some "HEX" ∨ d.typeName = some "ENUM" then
    let i ← toInt raw
    return { value := .num (.int i), definition := d }
  else if d.typeName = some "FLOAT" then
    let f ← toFloat T raw
    return { value := .num (.float f), definition := d }
  else return { value := .str raw, definition := d }

/-- The attribute that is read. -/
def gotAttr (T : FloatText F) (defs : Defs F) (a : Attr F) : Attr F :=
  match readAttr T defs a.definition.name (a.value.text T) with
  | .ok b => b
  | .error _ => a

/-- An attribute of an object that can be written and read. -/
structure AttrOk (T : FloatText F) (defs : Defs F) (kind : Option String) (e : Chars × Attr F) : Prop where
  key : e.1 = e.2.definition.name
  name : PlainText e.1
  kind : e.2.definition.kind = kind
  text : if e.2.definition.typeName = some "STRING" then PlainText (e.2.value.text T) else IsNumber (e.2.value.text T)
  read : readAttr T (gotDefs T defs) e.2.definition.name (e.2.value.text T) = .ok (gotAttr T (gotDefs T defs) e.2)

theorem readAttr_int {T : FloatText F} {defs : Defs F} {name raw : Chars} {d : AttrDef F} {i : Int}
    (hd : dictGet? defs name = some d)
    (ht : d.typeName = some "INT" ∨ d.typeName = some "HEX" ∨ d.typeName = some "ENUM") (hi : toInt raw = .ok i) :
    readAttr T defs name raw = .ok { value := .num (.int i), definition := d } := by
  unfold readAttr
  rw [dictGet_eq_ok.2 hd]
  show (if _ then _ else _) = _
  rw [if_pos ht, hi]
  rfl

theorem readAttr_float {T : FloatText F} {defs : Defs F} {name raw : Chars} {d : AttrDef F} {f : F}
    (hd : dictGet? defs name = some d) (ht : d.typeName = some "FLOAT") (hi : T.read raw = .ok f) :
    readAttr T defs name raw = .ok { value := .num (.float f), definition := d } := by
  unfold readAttr
  rw [dictGet_eq_ok.2 hd]
  show (if _ then _ else _) = _
  rw [if_neg (by rw [ht]; simp), if_pos ht, toFloat, hi]
  rfl

theorem readAttr_str {T : FloatText F} {defs : Defs F} {name raw : Chars} {d : AttrDef F}
    (hd : dictGet? defs name = some d) (ht : d.typeName = some "STRING") :
    readAttr T defs name raw = .ok { value := .str raw, definition := d } := by
  unfold readAttr
  rw [dictGet_eq_ok.2 hd]
  show (if _ then _ else _) = _
  rw [if_neg (by rw [ht]; simp), if_neg (by rw [ht]; simp)]
  rfl

variable {T : FloatText F} (L : FloatLaws T) {db : DDatabase F} (W : WritableDatabase T db)

theorem attrOk_of {T : FloatText F} {defs : Defs F} {kind : Option String} {e : Chars × Attr F} {b : Attr F}
    (key : e.1 = e.2.definition.name) (name : PlainText e.1) (hk : e.2.definition.kind = kind)
    (text : if e.2.definition.typeName = some "STRING" then PlainText (e.2.value.text T)
      else IsNumber (e.2.value.text T))
    (read : readAttr T (gotDefs T defs) e.2.definition.name (e.2.value.text T) = .ok b) :
    AttrOk T defs kind e ∧ gotAttr T (gotDefs T defs) e.2 = b := by
  have hg : gotAttr T (gotDefs T defs) e.2 = b := by unfold gotAttr; rw [read]
  exact ⟨⟨key, name, hk, text, by rw [hg, read]⟩, hg⟩

include L in
/-- What is read for a value of the type of its definition. -/
theorem read_typed {defs : Defs F} {a : Attr F} (hw : WritableDef a.definition)
    (hd : dictGet? defs a.definition.name = some a.definition) (ht : OfType a.definition a.value) :
    readAttr T (gotDefs T defs) a.definition.name (a.value.text T) = .ok a ∧
      if a.definition.typeName = some "STRING" then PlainText (a.value.text T) else IsNumber (a.value.text T) := by
  have hg : dictGet? (gotDefs T defs) a.definition.name = some a.definition := by
    rw [gotDefs_get, hd, Option.map_some, gotDef_writable T hw]
  obtain ⟨v, d⟩ := a
  cases v with
  | num n =>
    cases n with
    | int i =>
      refine ⟨readAttr_int hg ht (toInt_intText i), ?_⟩
      rw [if_neg]
      · exact isNumber_intText i
      · rcases ht with h | h | h <;> (simp only at h ⊢; rw [h]; simp)
    | float f =>
      refine ⟨readAttr_float hg ht (L.read_show f), ?_⟩
      rw [if_neg]
      · exact isNumber_float L f
      · simp only [OfType] at ht ⊢; rw [ht]; simp
  | str s =>
    refine ⟨readAttr_str hg ht.1, ?_⟩
    rw [if_pos ht.1]
    exact ht.2

theorem writableDef_of_get {k : Chars} {d : AttrDef F} (W : WritableDatabase T db)
    (h : dictGet? db.definitions k = some d) : k = d.name ∧ WritableDef d :=
  W.definitions _ (dictGet?_mem h)

include L W in
/-- An attribute of the database or one of its objects is read as it is. -/
theorem attrOk_own {kind : Option String} {attributes : Attrs F} (h : WritableAttrs db.definitions kind attributes)
    {e : Chars × Attr F} (he : e ∈ attributes) (hb : e.1 ≠ baudrate) :
    AttrOk T (syncDefinitions T db) kind e ∧ gotAttr T (gotDefs T (syncDefinitions T db)) e.2 = e.2 := by
  obtain ⟨hd, hk⟩ := h.defined e he
  obtain ⟨hn, hw⟩ := writableDef_of_get W hd
  have hs := sync_kept T hb hd
  have hr := read_typed L hw (by rw [← hn]; exact hs) (h.typed e he)
  exact attrOk_of hn (hn ▸ hw.name) hk hr.2 hr.1

/-! #### The cycle time -/

/-- `cycle_time or 0`. -/
def timeOf (T : FloatText F) (m : DMessage F) : Num F :=
  match m.cycleTime with
  | none => .int 0
  | some n => if n.value T = 0 then .int 0 else n

theorem timeOf_spec (T : FloatText F) (m : DMessage F) : timeOf T m = .int 0 ∨ m.cycleTime = some (timeOf T m) := by
  unfold timeOf
  cases m.cycleTime with
  | none => exact Or.inl rfl
  | some n => simp only; split <;> simp

theorem syncCycleTime_eq (T : FloatText F) (defs : Defs F) (m : DMessage F) :
    syncCycleTime T defs m = match dictGet? defs genMsgCycleTime with
      | none => dictPop m.attributes genMsgCycleTime
      | some d =>
        if isDefault T (timeOf T m) d.default then dictPop m.attributes genMsgCycleTime
        else dictSet m.attributes genMsgCycleTime { value := .num (timeOf T m), definition := d } := rfl

/-- The attributes after the cycle time has been stored: unchanged, or with a new value. -/
theorem mem_syncCycleTime {defs : Defs F} {m : DMessage F} {e : Chars × Attr F} (h : e ∈ syncCycleTime T defs m) :
    e ∈ m.attributes ∨ ∃ d, dictGet? defs genMsgCycleTime = some d ∧
      e = (genMsgCycleTime, { value := .num (timeOf T m), definition := d }) := by
  rw [syncCycleTime_eq] at h
  split at h
  · exact Or.inl (mem_dictPop h).1
  · rename_i d hd
    split at h
    · exact Or.inl (mem_dictPop h).1
    · rcases mem_dictSet h with rfl | h
      · exact Or.inr ⟨d, hd, rfl⟩
      · exact Or.inl h

theorem syncCycleTime_nodup {defs : Defs F} {m : DMessage F} (h : (m.attributes.map (·.1)).Nodup) :
    ((syncCycleTime T defs m).map (·.1)).Nodup := by
  rw [syncCycleTime_eq]
  split
  · exact dictPop_nodup _ h
  · split
    · exact dictPop_nodup _ h
    · exact dictSet_nodup _ _ h

theorem syncCycleTime_other {defs : Defs F} {m : DMessage F} {k : Chars} (hk : k ≠ genMsgCycleTime) :
    dictGet? (syncCycleTime T defs m) k = dictGet? m.attributes k := by
  rw [syncCycleTime_eq]
  split
  · rw [dictGet?_pop, if_neg hk]
  · split
    · rw [dictGet?_pop, if_neg hk]
    · rw [dictGet?_set, if_neg (Ne.symm hk)]

theorem baudrate_ne {kind : String} (W : WritableDatabase T db) {attributes : Attrs F}
    (h : WritableAttrs db.definitions (some kind) attributes) {e : Chars × Attr F} (he : e ∈ attributes) :
    e.1 ≠ baudrate := by
  intro hb
  obtain ⟨hd, hk⟩ := h.defined e he
  rw [hb] at hd
  rw [(W.baudrate _ hd).1] at hk
  cases hk

/-- The attributes of an object that is read. -/
def loadedAttrs (T : FloatText F) (defs : Defs F) (as : Attrs F) : Attrs F :=
  as.map fun e => (e.1, gotAttr T (gotDefs T defs) e.2)

theorem loadedAttrs_get (T : FloatText F) (defs : Defs F) (as : Attrs F) (k : Chars) :
    dictGet? (loadedAttrs T defs as) k = (dictGet? as k).map (gotAttr T (gotDefs T defs)) := dictGet?_map _ _ _

include L in
/-- A number is read with the same value. -/
theorem read_num {defs : Defs F} {name : Chars} {d : AttrDef F} {n : Num F} (hd : dictGet? defs name = some d)
    (ht : (∃ i : Int, n = .int i ∧ SmallInt i ∧
        (d.typeName = some "INT" ∨ d.typeName = some "HEX" ∨ d.typeName = some "ENUM")) ∨
      (d.typeName = some "FLOAT" ∧ ∀ i, n = .int i → SmallInt i)) :
    ∃ b : Num F, readAttr T defs name (n.text T) = .ok { value := .num b, definition := d } ∧
      b.value T = n.value T ∧ b.toFloat T = n.toFloat T := by
  rcases ht with ⟨i, rfl, hi, ht⟩ | ⟨ht, hi⟩
  · exact ⟨.int i, readAttr_int hd ht (toInt_intText i), rfl, rfl⟩
  · refine ⟨.float (n.toFloat T), readAttr_float hd ht (read_text L n), ?_, rfl⟩
    cases n with
    | int i => exact L.value_int i (hi i rfl)
    | float f => rfl

theorem cycleDef_spec (W : WritableDatabase T db) {d : AttrDef F}
    (h : dictGet? (syncDefinitions T db) genMsgCycleTime = some d) :
    d.name = genMsgCycleTime ∧ d.kind = some "BO_" ∧
      (d.typeName = some "INT" ∨ d.typeName = some "HEX" ∨ d.typeName = some "FLOAT") := by
  rw [sync_cycleTime] at h
  cases hd : dictGet? db.definitions genMsgCycleTime with
  | some d' =>
    rw [hd] at h
    cases h
    obtain ⟨hk, t, ht, hh⟩ := W.cycleTime _ hd
    refine ⟨(writableDef_of_get W hd).1.symm, hk, ?_⟩
    simp only [List.mem_cons, List.not_mem_nil, or_false] at ht
    rcases ht with rfl | rfl | rfl <;> simp [hh]
  | none =>
    rw [hd] at h
    simp only at h
    split at h
    · cases h; exact ⟨rfl, rfl, Or.inl rfl⟩
    · cases h

include L W in
theorem attrOk_cycle {m : DMessage F} (hm : WritableMessage T db m) {d : AttrDef F}
    (h : dictGet? (syncDefinitions T db) genMsgCycleTime = some d) :
    let e : Chars × Attr F := (genMsgCycleTime, { value := .num (timeOf T m), definition := d })
    AttrOk T (syncDefinitions T db) (some "BO_") e ∧
      ∃ b : Num F, gotAttr T (gotDefs T (syncDefinitions T db)) e.2 = { value := .num b, definition := gotDef T d } ∧
        b.value T = (timeOf T m).value T := by
  intro e
  obtain ⟨hn, hk, ht⟩ := cycleDef_spec W h
  have hg : dictGet? (gotDefs T (syncDefinitions T db)) d.name = some (gotDef T d) := by
    rw [gotDefs_get, hn, h]; rfl
  have hi : (∃ i : Int, timeOf T m = .int i ∧ SmallInt i) ∨ d.typeName = some "FLOAT" := by
    rcases timeOf_spec T m with h0 | h0
    · exact Or.inl ⟨0, h0, by unfold SmallInt; decide⟩
    · rcases (hm.cycleTime _ h0).2 with h1 | ⟨-, d', h1, h2⟩
      · exact Or.inl h1
      · rw [sync_kept T (by decide +kernel) h1] at h
        cases h
        exact Or.inr h2
  have hcase : (∃ i : Int, timeOf T m = .int i ∧ SmallInt i ∧ ((gotDef T d).typeName = some "INT" ∨
        (gotDef T d).typeName = some "HEX" ∨ (gotDef T d).typeName = some "ENUM")) ∨
      ((gotDef T d).typeName = some "FLOAT" ∧ ∀ i, timeOf T m = .int i → SmallInt i) := by
    rw [gotDef_type]
    have hsmall : ∀ i, timeOf T m = .int i → SmallInt i := by
      intro i hi'
      rcases timeOf_spec T m with h0 | h0
      · rw [h0] at hi'; cases hi'; unfold SmallInt; decide
      · rcases (hm.cycleTime _ h0).2 with ⟨j, h1, h2⟩ | ⟨⟨f, hf⟩, -⟩
        · rw [h1] at hi'; cases hi'; exact h2
        · rw [hf] at hi'; cases hi'
    rcases hi with ⟨i, h1, h2⟩ | hf
    · rcases ht with ht | ht | ht
      · exact Or.inl ⟨i, h1, h2, Or.inl ht⟩
      · exact Or.inl ⟨i, h1, h2, Or.inr (Or.inl ht)⟩
      · exact Or.inr ⟨ht, hsmall⟩
    · exact Or.inr ⟨hf, hsmall⟩
  obtain ⟨b, hb, hv, -⟩ := read_num L hg hcase
  obtain ⟨h1, h2⟩ := attrOk_of (T := T) (defs := syncDefinitions T db) (kind := some "BO_") (e := e)
    hn.symm (plain_cycleTimeDef) hk (by
      rw [if_neg]
      · exact isNumber_num L _
      · show d.typeName ≠ _
        rcases ht with h | h | h <;> rw [h] <;> simp) hb
  exact ⟨h1, b, h2, hv⟩

include L W in
/-- The cycle time is read back. -/
theorem cycleTime_read {m : DMessage F} (hmem : m ∈ db.messages) {L' : Attrs F}
    (hL : dictGet? L' genMsgCycleTime =
      (dictGet? (syncCycleTime T (syncDefinitions T db) m) genMsgCycleTime).map
        (gotAttr T (gotDefs T (syncDefinitions T db)))) :
    ∃ t, loadCycleTime T (gotDefs T (syncDefinitions T db)) L' = .ok t ∧
      t.map (·.value T) = m.cycleTime.map (·.value T) := by
  have hm := W.messages m hmem
  have key : ∀ x : Num F, x.value T = (timeOf T m).value T →
      ∃ t, orNone T (.num x) = .ok t ∧ t.map (·.value T) = m.cycleTime.map (·.value T) := by
    intro x hx
    refine ⟨if x.value T = 0 then none else some x, rfl, ?_⟩
    cases hc : m.cycleTime with
    | none =>
      have : (timeOf T m).value T = 0 := by unfold timeOf; rw [hc]; simp [Num.value]
      rw [if_pos (hx.trans this)]
    | some n =>
      have hn := (hm.cycleTime n hc).1
      have : timeOf T m = n := by unfold timeOf; rw [hc]; simp only; rw [if_neg hn]
      rw [this] at hx
      rw [if_neg (by rw [hx]; exact hn)]
      simp [hx]
  unfold loadCycleTime
  rw [gotDefs_get]
  cases hd : dictGet? (syncDefinitions T db) genMsgCycleTime with
  | none =>
    refine ⟨none, rfl, ?_⟩
    cases hc : m.cycleTime with
    | none => rfl
    | some n =>
      rw [sync_cycleTime] at hd
      split at hd
      · cases hd
      · rw [if_pos] at hd
        · cases hd
        · rw [List.any_eq_true]; exact ⟨m, hmem, by rw [hc]; rfl⟩
  | some d =>
    simp only [Option.map_some]
    rw [hL, syncCycleTime_eq, hd]
    simp only
    by_cases hdef : isDefault T (timeOf T m) d.default = true
    · rw [if_pos hdef, dictGet?_pop, if_pos rfl]
      simp only [Option.map_none, gotDef_default]
      unfold isDefault at hdef
      split at hdef
      · rename_i x hx
        rw [hx]
        simp only [decide_eq_true_eq] at hdef
        exact key x hdef.symm
      · cases hdef
    · rw [if_neg hdef, dictGet?_set, if_pos rfl]
      obtain ⟨-, b, hb, hv⟩ := attrOk_cycle L W hm hd
      simp only at hb
      simp only [Option.map_some, hb]
      exact key b hv

/-! #### The frame format -/

theorem formatDef_spec (W : WritableDatabase T db) {d : AttrDef F}
    (h : dictGet? (syncDefinitions T db) vFrameFormat = some d) :
    d.name = vFrameFormat ∧ d.kind = some "BO_" ∧ d.typeName = some "ENUM" := by
  rw [sync_format] at h
  cases hd : dictGet? db.definitions vFrameFormat with
  | some d' =>
    rw [hd] at h
    have : d' = d := by split at h <;> simpa using h
    subst this
    obtain ⟨hk, t, ht, hh⟩ := W.format _ hd
    simp only [List.mem_cons, List.not_mem_nil, or_false] at ht
    subst ht
    exact ⟨(writableDef_of_get W hd).1.symm, hk, hh⟩
  | none =>
    rw [hd] at h
    split at h
    · cases h; exact ⟨rfl, rfl, rfl⟩
    · cases h

theorem enumVFrameFormat_enum (T : FloatText F) {d : AttrDef F} (h : d.typeName = some "ENUM") :
    enumVFrameFormat T d = .ok d := by
  unfold enumVFrameFormat
  rw [if_pos (by rw [h]; simp)]

/-- The attribute for the frame format. -/
def formatAttr (d : AttrDef F) (m : DMessage F) : Attr F :=
  { value := .str (intText (d.choices.idxOf (frameFormat m))), definition := d }

theorem syncFormat_eq (W : WritableDatabase T db) (m : DMessage F) (as : Attrs F) :
    syncFrameFormat T (syncDefinitions T db) m as = .ok (match dictGet? (syncDefinitions T db) vFrameFormat with
      | none => as
      | some d => if (d.choices.contains (frameFormat m) && !isText (frameFormat m) d.default) = true
          then dictSet as vFrameFormat (formatAttr d m) else as) := by
  unfold syncFrameFormat
  cases hd : dictGet? (syncDefinitions T db) vFrameFormat with
  | none => rfl
  | some d =>
    simp only
    rw [enumVFrameFormat_enum T (formatDef_spec W hd).2.2]
    show (if _ then _ else _) = _
    split <;> rfl

theorem attrOk_format (W : WritableDatabase T db) (m : DMessage F) {d : AttrDef F}
    (h : dictGet? (syncDefinitions T db) vFrameFormat = some d) :
    AttrOk T (syncDefinitions T db) (some "BO_") (vFrameFormat, formatAttr d m) ∧
      gotAttr T (gotDefs T (syncDefinitions T db)) (formatAttr d m) =
        { value := .num (.int (d.choices.idxOf (frameFormat m))), definition := gotDef T d } := by
  obtain ⟨hn, hk, ht⟩ := formatDef_spec W h
  have hg : dictGet? (gotDefs T (syncDefinitions T db)) d.name = some (gotDef T d) := by
    rw [gotDefs_get, hn, h]; rfl
  refine attrOk_of (e := (vFrameFormat, formatAttr d m)) hn.symm plain_vFrameFormatDef hk ?_ ?_
  · rw [if_neg]
    · exact isNumber_intText _
    · show d.typeName ≠ _; rw [ht]; simp
  · exact readAttr_int hg (Or.inr (Or.inr ((gotDef_type T d).trans ht))) (toInt_intText _)

theorem pyIndex_nat {α : Type} {l : List α} {i : Nat} {x : α} (h : l[i]? = some x) : pyIndex l (i : Int) = .ok x := by
  unfold pyIndex
  rw [if_neg (by omega)]
  simp only [Int.toNat_natCast, h]
  rw [if_neg (by omega)]

theorem loadSpn_of {defs : Defs F} {attributes : Attrs F} {spn : Option (AttrVal F)} (h : SpnOf defs attributes spn) :
    loadSpn defs attributes = .ok spn := by
  unfold SpnOf at h
  unfold loadSpn spnName
  split at h
  · rename_i a ha
    obtain ⟨i, h1, h2⟩ := h
    rw [ha, h2]
    simp only [h1]
  · rename_i ha
    rw [ha, h]
    cases dictGet? defs "SPN".toList <;> rfl

theorem loadSendType_of {T : FloatText F} {defs : Defs F} {attributes : Attrs F} {sendType : Option Chars}
    (h : SendTypeOf defs attributes sendType) : loadSendType T defs attributes = .ok sendType := by
  unfold SendTypeOf at h
  unfold loadSendType genMsgSendType
  split at h
  · rename_i hd
    rw [hd, h]
  · rename_i d hd
    rw [hd]
    split at h
    · rename_i a ha
      rw [ha]
      rcases h with ⟨i, t, h1, h2, h3⟩ | ⟨h1, t, h2, h3⟩
      · have hne : d.choices ≠ [] := by rintro e; rw [e] at h2; simp at h2
        simp only [if_pos hne, h1]
        have : pyInt (Num.value T (.int (i : Int))) = (i : Int) := pyInt_intCast _
        rw [this, pyIndex_nat h2, h3]
        rfl
      · simp only [h1, ne_eq, not_true_eq_false, if_false, h2, h3]
    · rename_i ha
      rw [ha]
      rcases h with ⟨h1, h2⟩ | ⟨t, h1, h2⟩
      · simp only [h1, h2]
      · simp only [h1, h2]

theorem format_kept {m : DMessage F} (h : m.protocol = none ∨ (m.protocol = some "j1939".toList ∧ m.isFd = false)) :
    (if some (frameFormat m) = some "J1939PG".toList then some "j1939".toList else none) = m.protocol ∧
      ((some (frameFormat m)).map endsWithCanFd).getD false = m.isFd := by
  unfold frameFormat
  rcases h with h | ⟨h, hf⟩
  · rw [h]
    cases m.isFd <;> cases m.isExtendedFrame <;> decide +kernel
  · rw [h, hf, if_pos rfl]
    decide +kernel

include L W in
/-- The frame format is read back. -/
theorem format_read {m : DMessage F} (hmem : m ∈ db.messages) {as L' : Attrs F}
    (has : dictGet? as vFrameFormat = dictGet? m.attributes vFrameFormat)
    (hL : dictGet? L' vFrameFormat = (dictGet? (match dictGet? (syncDefinitions T db) vFrameFormat with
      | none => as
      | some d => if (d.choices.contains (frameFormat m) && !isText (frameFormat m) d.default) = true
          then dictSet as vFrameFormat (formatAttr d m) else as) vFrameFormat).map
        (gotAttr T (gotDefs T (syncDefinitions T db)))) :
    ∃ f, loadFrameFormat T (gotDefs T (syncDefinitions T db)) L' = .ok f ∧
      (if f = some "J1939PG".toList then some "j1939".toList else none) = m.protocol ∧
      (f.map endsWithCanFd).getD false = m.isFd := by
  obtain ⟨hp, hw⟩ := (W.messages m hmem).format
  rw [← sync_format T db] at hw
  unfold loadFrameFormat
  rw [gotDefs_get]
  cases hd : dictGet? (syncDefinitions T db) vFrameFormat with
  | none =>
    rw [hd] at hw
    exact ⟨none, rfl, by rw [hw.1]; simp, by rw [hw.2]; rfl⟩
  | some d =>
    rw [hd] at hw hL
    obtain ⟨hn, hk, ht⟩ := formatDef_spec W hd
    obtain ⟨hmemc, t, hdt, hstale⟩ := hw
    refine ⟨some (frameFormat m), ?_, format_kept hp⟩
    simp only [Option.map_some]
    rw [enumVFrameFormat_enum T ((gotDef_type T d).trans ht)]
    simp only [bind, Except.bind]
    rw [hL]
    simp only
    have hidx : d.choices[d.choices.idxOf (frameFormat m)]? = some (frameFormat m) := by
      rw [List.getElem?_eq_getElem (List.idxOf_lt_length_of_mem hmemc), List.getElem_idxOf]
    by_cases hcond : frameFormat m = t
    · have hno : ¬ (d.choices.contains (frameFormat m) && !isText (frameFormat m) d.default) = true := by
        rw [hdt]; simp [isText, hcond]
      rw [if_neg hno, has]
      cases ha : dictGet? m.attributes vFrameFormat with
      | none =>
        simp only [Option.map_none, gotDef_default, hdt]
        show Except.ok (some t) = _
        rw [hcond]
      | some a =>
        obtain ⟨i, hi, hc⟩ := hstale hcond a ha
        have hown := attrOk_own L W (W.messages m hmem).attributes (dictGet?_mem ha)
          (show vFrameFormat ≠ baudrate by decide +kernel)
        simp only at hown
        simp only [Option.map_some, hown.2, hi, gotDef_choices]
        rw [pyIndex_nat hc]
        rfl
    · have hyes : (d.choices.contains (frameFormat m) && !isText (frameFormat m) d.default) = true := by
        rw [hdt]; simp [isText, hcond, hmemc]
      rw [if_pos hyes, dictGet?_set, if_pos rfl]
      simp only [Option.map_some, (attrOk_format W m hd).2, gotDef_choices]
      rw [pyIndex_nat hidx]
      rfl

/-! #### Messages -/

theorem msgAttrs_eq (W : WritableDatabase T db) (m : DMessage F) :
    syncFrameFormat T (syncDefinitions T db) m (syncCycleTime T (syncDefinitions T db) m) =
      .ok (msgAttrs T (syncDefinitions T db) m) ∧
    msgAttrs T (syncDefinitions T db) m = match dictGet? (syncDefinitions T db) vFrameFormat with
      | none => syncCycleTime T (syncDefinitions T db) m
      | some d => if (d.choices.contains (frameFormat m) && !isText (frameFormat m) d.default) = true
          then dictSet (syncCycleTime T (syncDefinitions T db) m) vFrameFormat (formatAttr d m)
          else syncCycleTime T (syncDefinitions T db) m := by
  have h := syncFormat_eq W m (syncCycleTime T (syncDefinitions T db) m)
  unfold msgAttrs
  rw [h]
  exact ⟨rfl, rfl⟩

include L W in
/-- The attributes of a message are written and read. -/
theorem msgAttrs_ok {m : DMessage F} (hmem : m ∈ db.messages) :
    ((msgAttrs T (syncDefinitions T db) m).map (·.1)).Nodup ∧
      ∀ e ∈ msgAttrs T (syncDefinitions T db) m, AttrOk T (syncDefinitions T db) (some "BO_") e := by
  have hm := W.messages m hmem
  have h1 : ∀ e ∈ syncCycleTime T (syncDefinitions T db) m, AttrOk T (syncDefinitions T db) (some "BO_") e := by
    intro e he
    rcases mem_syncCycleTime he with he | ⟨d, hd, rfl⟩
    · exact (attrOk_own L W hm.attributes he (baudrate_ne W hm.attributes he)).1
    · exact (attrOk_cycle L W hm hd).1
  have h2 := syncCycleTime_nodup (T := T) (defs := syncDefinitions T db) hm.attributes.nodup
  rw [(msgAttrs_eq W m).2]
  split
  · exact ⟨h2, h1⟩
  · rename_i d hd
    split
    · refine ⟨dictSet_nodup _ _ h2, fun e he => ?_⟩
      rcases mem_dictSet he with rfl | he
      · exact (attrOk_format W m hd).1
      · exact h1 e he
    · exact ⟨h2, h1⟩

theorem msgAttrs_other (W : WritableDatabase T db) (m : DMessage F) {k : Chars} (hc : k ≠ genMsgCycleTime)
    (hv : k ≠ vFrameFormat) : dictGet? (msgAttrs T (syncDefinitions T db) m) k = dictGet? m.attributes k := by
  rw [(msgAttrs_eq W m).2]
  split
  · exact syncCycleTime_other hc
  · split
    · rw [dictGet?_set, if_neg (Ne.symm hv)]; exact syncCycleTime_other hc
    · exact syncCycleTime_other hc

theorem msgAttrs_cycle (W : WritableDatabase T db) (m : DMessage F) :
    dictGet? (msgAttrs T (syncDefinitions T db) m) genMsgCycleTime =
      dictGet? (syncCycleTime T (syncDefinitions T db) m) genMsgCycleTime := by
  rw [(msgAttrs_eq W m).2]
  split
  · rfl
  · split
    · rw [dictGet?_set, if_neg (by decide +kernel)]
    · rfl

include L W in
theorem own_map {kind : String} {attributes : Attrs F} (h : WritableAttrs db.definitions (some kind) attributes)
    (k : Chars) : (dictGet? attributes k).map (gotAttr T (gotDefs T (syncDefinitions T db))) =
      dictGet? attributes k := by
  cases hg : dictGet? attributes k with
  | none => rfl
  | some a =>
    have := attrOk_own L W h (dictGet?_mem hg) (baudrate_ne W h (dictGet?_mem hg))
    simp only at this
    simp [this.2]

include L W in
/-- What is read from the attributes of a message. -/
theorem msg_loaded {m : DMessage F} (hmem : m ∈ db.messages) :
    let as := loadedAttrs T (syncDefinitions T db) (msgAttrs T (syncDefinitions T db) m)
    let defs := gotDefs T (syncDefinitions T db)
    SameBut [genMsgCycleTime, vFrameFormat] m.attributes as ∧
      (∃ t, loadCycleTime T defs as = .ok t ∧ t.map (·.value T) = m.cycleTime.map (·.value T)) ∧
      (∃ f, loadFrameFormat T defs as = .ok f ∧
        (if f = some "J1939PG".toList then some "j1939".toList else none) = m.protocol ∧
        (f.map endsWithCanFd).getD false = m.isFd) ∧
      loadSendType T defs as = .ok m.sendType := by
  intro as defs
  have hm := W.messages m hmem
  have hsame : SameBut [genMsgCycleTime, vFrameFormat] m.attributes as := by
    intro k hk
    simp only [List.mem_cons, List.not_mem_nil, or_false, not_or] at hk
    show dictGet? (loadedAttrs _ _ _) k = _
    rw [loadedAttrs_get, msgAttrs_other W m hk.1 hk.2, own_map L W hm.attributes]
  refine ⟨hsame, ?_, ?_, ?_⟩
  · apply cycleTime_read L W hmem
    show dictGet? (loadedAttrs _ _ _) _ = _
    rw [loadedAttrs_get, msgAttrs_cycle W]
  · apply format_read L W hmem (as := syncCycleTime T (syncDefinitions T db) m)
    · exact syncCycleTime_other (by decide +kernel)
    · show dictGet? (loadedAttrs _ _ _) _ = _
      rw [loadedAttrs_get, (msgAttrs_eq W m).2]
  · have hd : dictGet? defs genMsgSendType = dictGet? db.definitions genMsgSendType := by
      show dictGet? (gotDefs _ _) _ = _
      rw [gotDefs_get]
      cases hg : dictGet? db.definitions genMsgSendType with
      | some d =>
        rw [sync_kept T (by decide +kernel) hg, Option.map_some, gotDef_writable T (writableDef_of_get W hg).2]
      | none =>
        rw [sync_none T (by decide +kernel) (by decide +kernel) (by decide +kernel) (by decide +kernel)
          (by decide +kernel) hg]
        rfl
    have ha := hsame genMsgSendType (by decide +kernel)
    rw [← loadSendType_of (T := T) hm.sendType]
    unfold loadSendType
    rw [hd, ha]

/-! #### Signals -/

theorem startDef_spec (W : WritableDatabase T db) {m : DMessage F} (hmem : m ∈ db.messages) {s : DSignal F}
    (hs : s ∈ m.signals) {n : Num F} (hn : s.rawInitial = some n) :
    ∃ d, dictGet? (syncDefinitions T db) genSigStartValue = some d ∧ d.name = genSigStartValue ∧
      (d.typeName = some "FLOAT" ∨
        ((d.typeName = some "INT" ∨ d.typeName = some "HEX") ∧ ∃ i, n = .int i ∧ SmallInt i)) := by
  rw [sync_startValue]
  cases hd : dictGet? db.definitions genSigStartValue with
  | some d =>
    refine ⟨d, rfl, (writableDef_of_get W hd).1.symm, ?_⟩
    obtain ⟨-, t, ht, hh⟩ := W.startValue _ hd
    simp only [List.mem_cons, List.not_mem_nil, or_false] at ht
    rcases ((W.messages m hmem).signals s hs).initial n hn d hd with h | h
    · exact Or.inl h
    · rcases ht with rfl | rfl | rfl
      · exact Or.inr ⟨Or.inl hh, h⟩
      · exact Or.inr ⟨Or.inr hh, h⟩
      · exact Or.inl hh
  | none =>
    refine ⟨startValueDef T, ?_, rfl, Or.inl rfl⟩
    simp only
    rw [if_pos]
    rw [List.any_eq_true]
    refine ⟨m, hmem, ?_⟩
    rw [List.any_eq_true]
    exact ⟨s, hs, by rw [hn]; rfl⟩

/-- The attribute for the start value. -/
def startAttr (T : FloatText F) (n : Num F) : Attr F :=
  { value := .num (.float (n.toFloat T)), definition := startValueDef T }

include L W in
theorem attrOk_start {m : DMessage F} (hmem : m ∈ db.messages) {s : DSignal F} (hs : s ∈ m.signals) {n : Num F}
    (hn : s.rawInitial = some n) :
    AttrOk T (syncDefinitions T db) (some "SG_") (genSigStartValue, startAttr T n) ∧
      ∃ (b : Num F) (d : AttrDef F), gotAttr T (gotDefs T (syncDefinitions T db)) (startAttr T n) =
          { value := .num b, definition := d } ∧ b.toFloat T = n.toFloat T := by
  obtain ⟨d, hd, hname, ht⟩ := startDef_spec W hmem hs hn
  have hg : dictGet? (gotDefs T (syncDefinitions T db)) genSigStartValue = some (gotDef T d) := by
    rw [gotDefs_get, hd]; rfl
  have htext : if (startAttr T n).definition.typeName = some "STRING"
      then PlainText ((startAttr T n).value.text T) else IsNumber ((startAttr T n).value.text T) := by
    rw [if_neg]
    · exact isNumber_float L _
    · simp [startAttr, startValueDef]
  rcases ht with ht | ⟨ht, i, rfl, hi⟩
  · obtain ⟨h1, h2⟩ := attrOk_of (e := (genSigStartValue, startAttr T n)) rfl plain_startValueDef rfl htext
      (readAttr_float (T := T) hg ((gotDef_type T d).trans ht) (L.read_show (n.toFloat T)))
    exact ⟨h1, _, _, h2, rfl⟩
  · have hread : toInt (T.show_ (T.ofInt i)) = .ok i := by
      unfold toInt
      rw [L.show_int i hi]
      simp [Except.map, pyInt_intCast]
    have htn : (gotDef T d).typeName = some "INT" ∨ (gotDef T d).typeName = some "HEX" ∨
        (gotDef T d).typeName = some "ENUM" := by
      rw [gotDef_type]
      rcases ht with h | h <;> simp [h]
    obtain ⟨h1, h2⟩ := attrOk_of (e := (genSigStartValue, startAttr T (.int i))) rfl plain_startValueDef rfl htext
      (readAttr_int (T := T) hg htn hread)
    exact ⟨h1, _, _, h2, rfl⟩

theorem syncStartValue_eq (T : FloatText F) (s : DSignal F) :
    syncStartValue T s = match s.rawInitial with
      | none => dictPop s.attributes genSigStartValue
      | some n => dictSet s.attributes genSigStartValue (startAttr T n) := rfl

include L W in
theorem sigAttrs_ok {m : DMessage F} (hmem : m ∈ db.messages) {s : DSignal F} (hs : s ∈ m.signals) :
    ((syncStartValue T s).map (·.1)).Nodup ∧
      ∀ e ∈ syncStartValue T s, AttrOk T (syncDefinitions T db) (some "SG_") e := by
  have hw := ((W.messages m hmem).signals s hs).attributes
  rw [syncStartValue_eq]
  cases hn : s.rawInitial with
  | none =>
    refine ⟨dictPop_nodup _ hw.nodup, fun e he => ?_⟩
    have := (mem_dictPop he).1
    exact (attrOk_own L W hw this (baudrate_ne W hw this)).1
  | some n =>
    refine ⟨dictSet_nodup _ _ hw.nodup, fun e he => ?_⟩
    rcases mem_dictSet he with rfl | he
    · exact (attrOk_start L W hmem hs hn).1
    · exact (attrOk_own L W hw he (baudrate_ne W hw he)).1

include L W in
/-- What is read from the attributes of a signal. -/
theorem sig_loaded {m : DMessage F} (hmem : m ∈ db.messages) {s : DSignal F} (hs : s ∈ m.signals) :
    let as := loadedAttrs T (syncDefinitions T db) (syncStartValue T s)
    let defs := gotDefs T (syncDefinitions T db)
    SameBut [genSigStartValue] s.attributes as ∧
      (∃ i, loadInitial as = .ok i ∧ i.map (·.toFloat T) = s.rawInitial.map (·.toFloat T)) ∧
      loadSpn defs as = .ok s.spn := by
  intro as defs
  have hw := (W.messages m hmem).signals s hs
  have hsame : SameBut [genSigStartValue] s.attributes as := by
    intro k hk
    simp only [List.mem_cons, List.not_mem_nil, or_false] at hk
    show dictGet? (loadedAttrs _ _ _) k = _
    rw [loadedAttrs_get, ← own_map L W hw.attributes k]
    congr 1
    rw [syncStartValue_eq]
    split
    · rw [dictGet?_pop, if_neg hk]
    · rw [dictGet?_set, if_neg (Ne.symm hk)]
  refine ⟨hsame, ?_, ?_⟩
  · unfold loadInitial
    rw [show dictGet? as genSigStartValue = _ from loadedAttrs_get _ _ _ _, syncStartValue_eq]
    cases hn : s.rawInitial with
    | none =>
      simp only
      rw [dictGet?_pop, if_pos rfl]
      exact ⟨none, rfl, rfl⟩
    | some n =>
      simp only
      rw [dictGet?_set, if_pos rfl]
      obtain ⟨-, b, d, hg, hb⟩ := attrOk_start L W hmem hs hn
      simp only [Option.map_some, hg]
      exact ⟨some b, rfl, by simp [hb]⟩
  · have hd : dictGet? defs spnName = dictGet? db.definitions spnName := by
      show dictGet? (gotDefs _ _) _ = _
      rw [gotDefs_get]
      cases hg : dictGet? db.definitions spnName with
      | some d =>
        rw [sync_kept T (by decide +kernel) hg, Option.map_some, gotDef_writable T (writableDef_of_get W hg).2]
      | none =>
        rw [sync_none T (by decide +kernel) (by decide +kernel) (by decide +kernel) (by decide +kernel)
          (by decide +kernel) hg]
        rfl
    have ha := hsame spnName (by decide +kernel)
    rw [← loadSpn_of hw.spn]
    unfold loadSpn
    rw [hd, ha]

/-! #### The database -/

theorem baudDef_spec (W : WritableDatabase T db) (h : (busBaudrate db).isSome = true) :
    ∃ d, dictGet? (syncDefinitions T db) baudrate = some d ∧ d.name = baudrate ∧ d.kind = none ∧
      (d.typeName = some "INT" ∨ d.typeName = some "HEX") := by
  rw [sync_baudrate T h]
  refine ⟨_, rfl, ?_⟩
  cases hd : dictGet? db.definitions baudrate with
  | none => exact ⟨rfl, rfl, Or.inl rfl⟩
  | some d =>
    obtain ⟨hk, t, ht, hh⟩ := W.baudrate _ hd
    refine ⟨(writableDef_of_get W hd).1.symm, hk, ?_⟩
    simp only [List.mem_cons, List.not_mem_nil, or_false] at ht
    rcases ht with rfl | rfl <;> simp [hh]

/-- The attribute for the baud rate. -/
def baudAttr (b : Int) (d : AttrDef F) : Attr F := { value := .num (.int b), definition := d }

theorem dbAttrs_eq (W : WritableDatabase T db) :
    syncBaudrate (syncDefinitions T db) db = .ok (dbAttrs (syncDefinitions T db) db) ∧
    ((busBaudrate db = none ∧ dbAttrs (syncDefinitions T db) db = dictPop db.attributes baudrate) ∨
      ∃ b d, busBaudrate db = some b ∧ dictGet? (syncDefinitions T db) baudrate = some d ∧
        dbAttrs (syncDefinitions T db) db = dictSet (dictPop db.attributes baudrate) baudrate (baudAttr b d)) := by
  unfold dbAttrs syncBaudrate
  cases hb : busBaudrate db with
  | none => exact ⟨rfl, Or.inl ⟨rfl, rfl⟩⟩
  | some b =>
    obtain ⟨d, hd, -⟩ := baudDef_spec W (by rw [hb]; rfl)
    simp only
    rw [hd]
    exact ⟨rfl, Or.inr ⟨b, d, rfl, rfl, rfl⟩⟩

theorem attrOk_baud (W : WritableDatabase T db) {b : Int} (hb : busBaudrate db = some b) {d : AttrDef F}
    (hd : dictGet? (syncDefinitions T db) baudrate = some d) :
    AttrOk T (syncDefinitions T db) none (baudrate, baudAttr b d) ∧
      gotAttr T (gotDefs T (syncDefinitions T db)) (baudAttr b d) = baudAttr b (gotDef T d) := by
  obtain ⟨d', hd', hn, hk, ht⟩ := baudDef_spec W (by rw [hb]; rfl)
  rw [hd] at hd'
  cases hd'
  have hg : dictGet? (gotDefs T (syncDefinitions T db)) d.name = some (gotDef T d) := by
    rw [gotDefs_get, hn, hd]; rfl
  refine attrOk_of (e := (baudrate, baudAttr b d)) hn.symm plain_baudrateDef hk ?_ ?_
  · rw [if_neg]
    · exact isNumber_intText _
    · show d.typeName ≠ _; rcases ht with h | h <;> rw [h] <;> simp
  · refine readAttr_int hg ?_ (toInt_intText _)
    rw [gotDef_type]
    rcases ht with h | h <;> simp [h]

include L W in
theorem dbAttrs_ok : ((dbAttrs (syncDefinitions T db) db).map (·.1)).Nodup ∧
    ∀ e ∈ dbAttrs (syncDefinitions T db) db, AttrOk T (syncDefinitions T db) none e := by
  have hown : ∀ e ∈ dictPop db.attributes baudrate, AttrOk T (syncDefinitions T db) none e := fun e he =>
    (attrOk_own L W W.attributes (mem_dictPop he).1 (mem_dictPop he).2).1
  rcases (dbAttrs_eq W).2 with ⟨-, h⟩ | ⟨b, d, hb, hd, h⟩
  · rw [h]
    exact ⟨dictPop_nodup _ W.attributes.nodup, hown⟩
  · rw [h]
    refine ⟨dictSet_nodup _ _ (dictPop_nodup _ W.attributes.nodup), fun e he => ?_⟩
    rcases mem_dictSet he with rfl | he
    · exact (attrOk_baud W hb hd).1
    · exact hown e he

include L W in
/-- What is read from the attributes of the database. -/
theorem db_loaded :
    let as := loadedAttrs T (syncDefinitions T db) (dbAttrs (syncDefinitions T db) db)
    SameBut [baudrate] db.attributes as ∧
      ((busBaudrate db = none ∧ dictGet? as baudrate = none) ∨
        ∃ b d, busBaudrate db = some b ∧ dictGet? as baudrate = some (baudAttr b d)) := by
  intro as
  refine ⟨?_, ?_⟩
  · intro k hk
    simp only [List.mem_cons, List.not_mem_nil, or_false] at hk
    show dictGet? (loadedAttrs _ _ _) k = _
    rw [loadedAttrs_get]
    have : dictGet? (dbAttrs (syncDefinitions T db) db) k = dictGet? db.attributes k := by
      rcases (dbAttrs_eq W).2 with ⟨-, h⟩ | ⟨b, d, hb, hd, h⟩
      · rw [h, dictGet?_pop, if_neg hk]
      · rw [h, dictGet?_set, if_neg (Ne.symm hk), dictGet?_pop, if_neg hk]
    rw [this]
    cases hg : dictGet? db.attributes k with
    | none => rfl
    | some a =>
      have := (attrOk_own L W W.attributes (dictGet?_mem hg) hk).2
      simp only at this
      simp [this]
  · show _ ∨ ∃ b d, _ ∧ dictGet? (loadedAttrs _ _ _) _ = _
    rcases (dbAttrs_eq W).2 with ⟨hb, h⟩ | ⟨b, d, hb, hd, h⟩
    · refine Or.inl ⟨hb, ?_⟩
      show dictGet? (loadedAttrs _ _ _) _ = _
      rw [loadedAttrs_get, h, dictGet?_pop, if_pos rfl]
      rfl
    · refine Or.inr ⟨b, gotDef T d, hb, ?_⟩
      rw [loadedAttrs_get, h, dictGet?_set, if_pos rfl]
      simp [(attrOk_baud W hb hd).2]

include L W in
/-- Attributes of nodes and environment variables are read as they are. -/
theorem own_loaded {kind : String} {attributes : Attrs F} (h : WritableAttrs db.definitions (some kind) attributes) :
    loadedAttrs T (syncDefinitions T db) attributes = attributes ∧
      ∀ e ∈ attributes, AttrOk T (syncDefinitions T db) (some kind) e := by
  refine ⟨?_, fun e he => (attrOk_own L W h he (baudrate_ne W h he)).1⟩
  unfold loadedAttrs
  conv_rhs => rw [← List.map_id attributes]
  apply List.map_congr_left
  intro e he
  rw [(attrOk_own L W h he (baudrate_ne W h he)).2]
  rfl

end Cantools.Dbc
