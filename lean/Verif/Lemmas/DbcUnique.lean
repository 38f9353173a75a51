import Verif.Lemmas.DbcDatabase
import Verif.Lemmas.DbcNames

/-
The database after its names have been made short and unique for a DBC file.
-/

namespace Cantools.Dbc
open Cantools Spec

variable {F : Type}

/-! ### Short names -/

/-- The name that is written for a name. -/
def ren (shorten : Bool) (names : List Chars) (n : Chars) : Chars :=
  if shorten then ((longNamesConverter names).bind fun r => dictGet? r.1 n).getD n else n

theorem longToShort_ok (names : List Chars) : ∃ l2s, longToShort names = .ok l2s ∧
    (longNamesConverter names).map (·.1) = some l2s := by
  obtain ⟨⟨l2s, s2l⟩, h⟩ := convertNames_exists (pySorted nameLe names) [] []
  refine ⟨l2s, ?_, ?_⟩
  · unfold longToShort longNamesConverter; rw [h]
  · unfold longNamesConverter; rw [h]; rfl

theorem ren_get {shorten : Bool} {names : List Chars} {l2s : List (Chars × Chars)}
    (h : (longNamesConverter names).map (·.1) = some l2s) (n : Chars) :
    ren shorten names n = if shorten then (dictGet? l2s n).getD n else n := by
  unfold ren
  obtain ⟨r, hr, rfl⟩ := Option.map_eq_some_iff.1 h
  rw [hr]; rfl

theorem decimal4_length_ge (i : Nat) : 4 ≤ (decimal4 i).length := by
  unfold decimal4
  rw [List.length_append, List.length_replicate]
  omega

theorem decimal4_word {i : Nat} {c : Char} (hc : c ∈ decimal4 i) : isWordChar c = true := by
  unfold decimal4 at hc
  rw [List.mem_append, List.mem_replicate] at hc
  rcases hc with ⟨-, rfl⟩ | hc
  · decide
  · exact isDigit_word ((decimal_digits i).2 c hc)

section
variable {shorten : Bool} {names : List Chars} (hnd : names.Nodup)

include hnd

theorem ren_spec {n : Chars} (hn : n ∈ names) :
    (n.length ≤ 32 → ren shorten names n = n) ∧
      (ren shorten names n = n ∨ ShortForm n (ren shorten names n) ∧
        (names.length ≤ 10000 → (ren shorten names n).length ≤ 32)) := by
  obtain ⟨⟨l2s, s2l⟩, h⟩ := convertNames_exists (pySorted nameLe names) [] []
  obtain ⟨-, -, h3⟩ := longNames_spec h hnd
  obtain ⟨s, g1, g2, g3, g4⟩ := h3 n hn
  have e : ren shorten names n = if shorten then s else n := by
    rw [ren_get (l2s := l2s) (by unfold longNamesConverter; rw [h]; rfl), g1]; rfl
  rw [e]
  cases shorten
  · simp
  · exact ⟨g2, .inr ⟨g3, g4⟩⟩

theorem ren_other {n : Chars} (hn : n ∉ names) : ren shorten names n = n := by
  obtain ⟨⟨l2s, s2l⟩, h⟩ := convertNames_exists (pySorted nameLe names) [] []
  obtain ⟨-, h2, -⟩ := longNames_spec h hnd
  rw [ren_get (l2s := l2s) (by unfold longNamesConverter; rw [h]; rfl), h2 n hn]
  simp

theorem ren_short {n : Chars} (hl : n.length ≤ 32) : ren shorten names n = n := by
  by_cases hn : n ∈ names
  · exact (ren_spec hnd hn).1 hl
  · exact ren_other hnd hn

theorem ren_inj {n m : Chars} (hn : n ∈ names) (hm : m ∈ names) (he : ren shorten names n = ren shorten names m) :
    n = m := by
  obtain ⟨⟨l2s, s2l⟩, h⟩ := convertNames_exists (pySorted nameLe names) [] []
  obtain ⟨h1, -, h3⟩ := longNames_spec h hnd
  obtain ⟨s, g1, -⟩ := h3 n hn
  obtain ⟨t, k1, -⟩ := h3 m hm
  rw [ren_get (l2s := l2s) (by unfold longNamesConverter; rw [h]; rfl), g1,
    ren_get (l2s := l2s) (by unfold longNamesConverter; rw [h]; rfl), k1] at he
  cases shorten
  · simpa using he
  · simp only [if_true, Option.getD_some] at he
    subst he
    have a := (h1 n s).1 g1
    have b := (h1 m s).1 k1
    rw [a] at b
    exact Option.some.inj b

theorem ren_map_nodup : (names.map (ren shorten names)).Nodup :=
  hnd.map_on fun _ ha _ hb h => ren_inj hnd ha hb h

/-- A short name that differs from the name has 32 characters or more. -/
theorem ren_long {n : Chars} (h : ren shorten names n ≠ n) : n ∈ names ∧ 32 < n.length ∧
    32 ≤ (ren shorten names n).length ∧ ShortForm n (ren shorten names n) ∧
    (names.length ≤ 10000 → (ren shorten names n).length ≤ 32) := by
  have hn : n ∈ names := by
    by_contra hc; exact h (ren_other hnd hc)
  have hl : 32 < n.length := by
    by_contra hc; exact h ((ren_spec hnd hn).1 (by omega))
  obtain ⟨-, h2⟩ := ren_spec (shorten := shorten) hnd hn
  rcases h2 with h2 | ⟨h2, h3⟩
  · exact absurd h2 h
  · refine ⟨hn, hl, ?_, h2, h3⟩
    rcases h2 with h2 | ⟨i, h2⟩
    · rw [h2, List.length_take]; omega
    · rw [h2]
      have : 4 ≤ (decimal4 i).length := decimal4_length_ge i
      simp only [List.length_append, List.length_take, List.length_cons]
      omega

theorem ren_name {n : Chars} (hn : Name n) : Name (ren shorten names n) := by
  by_cases h : ren shorten names n = n
  · rw [h]; exact hn
  · obtain ⟨-, hl, h32, hf, -⟩ := ren_long hnd h
    refine ⟨?_, ?_⟩
    · obtain ⟨⟨h1, h2, h3⟩, -⟩ := hn
      rcases hf with hf | ⟨i, hf⟩
      · rw [hf]
        refine ⟨?_, fun c hc => h2 c (List.mem_of_mem_take hc), fun c hc => h3 c ?_⟩
        · intro h0
          have := congrArg List.length h0
          rw [List.length_take] at this
          simp only [List.length_nil] at this
          omega
        · rw [List.head?_take] at hc
          simpa using hc
      · rw [hf]
        refine ⟨by simp, ?_, fun c hc => h3 c ?_⟩
        · intro c hc
          simp only [List.mem_append, List.mem_cons] at hc
          rcases hc with hc | rfl | hc
          · exact h2 c (List.mem_of_mem_take hc)
          · decide
          · exact decimal4_word hc
        · rw [List.head?_append, List.head?_take] at hc
          match n, h1 with
          | a :: r, _ => simpa using hc
    · intro hk
      have : ∀ k ∈ keywords, k.length < 32 := by decide +kernel
      have := this _ hk
      omega

end

/-! ### The definition and attribute of a short name -/

/-- The attributes of an object with a new name. -/
def shortAttrs (sys : Chars) (d : AttrDef F) (new old : Chars) (as : Attrs F) : Attrs F :=
  if new = old then dictPop as sys else dictSet (dictPop as sys) sys { value := .str old, definition := d }

/-- The definition that is used for the attribute. -/
def sysDefOf (defs : Defs F) (d : AttrDef F) : AttrDef F := (dictGet? defs d.name).getD d

theorem addDef_addDef (a b : Bool) (d : AttrDef F) (defs : Defs F) :
    addDef b d (addDef a d defs) = addDef (a || b) d defs := by
  cases a
  · simp [addDef]
  · by_cases h : (dictGet? defs d.name).isNone = true
    · have : addDef true d defs = dictSet defs d.name d := by unfold addDef; rw [h]; rfl
      rw [this, Bool.true_or, this]
      unfold addDef
      rw [dictGet?_set, if_pos rfl]
      simp
    · rw [Bool.not_eq_true] at h
      have : addDef true d defs = defs := by unfold addDef; rw [h]; rfl
      rw [this, Bool.true_or, this]
      unfold addDef
      rw [h, Bool.and_false]; rfl

theorem addDef_false (d : AttrDef F) (defs : Defs F) : addDef false d defs = defs := rfl

theorem sysDefOf_add (b : Bool) (d : AttrDef F) (defs : Defs F) : sysDefOf (addDef b d defs) d = sysDefOf defs d := by
  unfold sysDefOf
  rw [addDef_get]
  split
  · rename_i h
    rw [h.2.2]; rfl
  · rfl

theorem shortName_eq {shorten : Bool} {names : List Chars} (hnd : names.Nodup) {l2s : List (Chars × Chars)}
    (hl : (longNamesConverter names).map (·.1) = some l2s) {n : Chars} (hn : n ∈ names) (sd : AttrDef F) (as : Attrs F)
    (defs : Defs F) : shortName shorten l2s sd n as defs =
      .ok (ren shorten names n, shortAttrs sd.name (sysDefOf defs sd) (ren shorten names n) n as,
        addDef (decide (ren shorten names n ≠ n)) sd defs) := by
  obtain ⟨r, hr, rfl⟩ := Option.map_eq_some_iff.1 hl
  obtain ⟨-, -, h3⟩ := longNames_spec (l2s := r.1) (s2l := r.2) hr hnd
  obtain ⟨s, hs, -⟩ := h3 n hn
  have e : ren shorten names n = if shorten then s else n := by
    rw [ren_get hl, hs]; rfl
  unfold shortName
  rw [dictGet_eq_ok.2 hs]
  show (if n = s ∨ (!shorten) = true then _ else _) = _
  by_cases h : n = s ∨ (!shorten) = true
  · have : ren shorten names n = n := by
      rw [e]
      rcases h with rfl | h
      · simp
      · rw [Bool.not_eq_true'] at h; rw [h]; rfl
    rw [if_pos h, this]
    unfold shortAttrs
    simp [addDef_false]
    rfl
  · rw [not_or] at h
    have hsh : shorten = true := by simpa using h.2
    subst hsh
    have e' : ren true names n = s := e
    rw [if_neg (by rw [not_or]; exact h), e']
    have hne : s ≠ n := fun x => h.1 x.symm
    have hd : decide (s ≠ n) = true := by simpa using hne
    rw [hd]
    unfold shortAttrs
    rw [if_neg hne]
    unfold sysDefOf addDef
    cases hg : dictGet? defs sd.name with
    | none => rfl
    | some d => rfl

/-! ### The steps -/

theorem foldlM_state {α σ : Type} {f : σ → α → Except Err σ} {st : List α → σ} {l : List α}
    (h : ∀ p a r, l = p ++ a :: r → f (st p) a = .ok (st (p ++ [a]))) : l.foldlM f (st []) = .ok (st l) := by
  suffices ∀ r p, l = p ++ r → r.foldlM f (st p) = .ok (st (p ++ r)) from this l [] rfl
  intro r
  induction r with
  | nil => intro p hp; simp; rfl
  | cons a r ih =>
    intro p hp
    rw [List.foldlM_cons, h p a r hp, ok_bind2, ih (p ++ [a]) (by simpa using hp)]
    simp

/-- Other names for the nodes in messages. -/
def mapNodes (ρ : Chars → Chars) (ms : List (DMessage F)) : List (DMessage F) :=
  ms.map fun m => { m with
    senders := m.senders.map ρ
    signals := m.signals.map fun s => { s with receivers := s.receivers.map ρ } }

theorem mapNodes_comp (f g : Chars → Chars) (ms : List (DMessage F)) :
    mapNodes g (mapNodes f ms) = mapNodes (fun x => g (f x)) ms := by
  unfold mapNodes
  rw [List.map_map]
  apply List.map_congr_left
  intro m _
  simp only [Function.comp, List.map_map]
  congr 1
  apply List.map_congr_left
  intro s _
  simp only [Function.comp, List.map_map]
  rfl

theorem mapNodes_id (ms : List (DMessage F)) : mapNodes (fun x => x) ms = ms := by
  unfold mapNodes
  conv_rhs => rw [← List.map_id ms]
  apply List.map_congr_left
  intro m _
  simp

/-- A node with its new name. -/
def shortNode (shorten : Bool) (names : List Chars) (defs : Defs F) (n : DNode F) : DNode F :=
  { n with
    name := ren shorten names n.name
    attributes := shortAttrs systemNode (sysDefOf defs (longSymbolDef systemNode "BU_")) (ren shorten names n.name) n.name
      n.attributes }

/-- Whether a name changes. -/
def changes (shorten : Bool) (names l : List Chars) : Bool := l.any fun n => decide (ren shorten names n ≠ n)

theorem changes_append (shorten : Bool) (names l : List Chars) (a : Chars) :
    changes shorten names (l ++ [a]) = (changes shorten names l || decide (ren shorten names a ≠ a)) := by
  unfold changes
  simp

def nodesDone (shorten : Bool) (db : DDatabase F) : DDatabase F :=
  let names := db.nodes.map (·.name)
  { db with
    messages := mapNodes (ren shorten names) db.messages
    nodes := db.nodes.map (shortNode shorten names db.definitions)
    definitions := addDef (changes shorten names names) (longSymbolDef systemNode "BU_") db.definitions }

theorem makeNodes_eq {shorten : Bool} {db : DDatabase F} (hnd : (db.nodes.map (·.name)).Nodup)
    (hfew : shorten = true → db.nodes.length ≤ 10000) : makeNodeNamesUnique shorten db = .ok (nodesDone shorten db) := by
  obtain ⟨l2s, h1, h2⟩ := longToShort_ok (db.nodes.map (·.name))
  unfold makeNodeNamesUnique
  rw [h1, ok_bind2]
  generalize hN : db.nodes.map (·.name) = names at *
  let ρ (p : List (DNode F)) (x : Chars) : Chars := if x ∈ p.map (·.name) then ren shorten names x else x
  let st (p : List (DNode F)) : DDatabase F :=
    { db with
      messages := mapNodes (ρ p) db.messages
      nodes := p.map (shortNode shorten names db.definitions)
      definitions := addDef (changes shorten names (p.map (·.name))) (longSymbolDef systemNode "BU_") db.definitions }
  have hst0 : ({ db with nodes := [] } : DDatabase F) = st [] := by
    have h0 : ρ [] = fun x => x := by
      funext x
      exact if_neg (by simp)
    have h3 : st [] = { db with nodes := [], messages := mapNodes (ρ []) db.messages } := rfl
    rw [h3, h0, mapNodes_id]
  have hst1 : st db.nodes = nodesDone shorten db := by
    have : ρ db.nodes = ren shorten names := by
      funext x
      show (if x ∈ db.nodes.map (·.name) then _ else _) = _
      rw [hN]
      by_cases hx : x ∈ names
      · rw [if_pos hx]
      · rw [if_neg hx, ren_other hnd hx]
    have h3 : st db.nodes = { db with
        messages := mapNodes (ρ db.nodes) db.messages
        nodes := db.nodes.map (shortNode shorten names db.definitions)
        definitions := addDef (changes shorten names (db.nodes.map (·.name))) (longSymbolDef systemNode "BU_")
          db.definitions } := rfl
    rw [h3, this]
    unfold nodesDone
    rw [hN]
  rw [hst0, ← hst1]
  apply foldlM_state
  intro p a r hp
  have ha : a.name ∈ names := by rw [← hN, hp]; simp
  show (shortName shorten l2s _ a.name a.attributes
    (addDef (changes shorten names (p.map (·.name))) (longSymbolDef systemNode "BU_") db.definitions)).bind _ = _
  rw [shortName_eq hnd h2 ha]
  show Except.ok _ = _
  rw [addDef_addDef, sysDefOf_add]
  show Except.ok (DDatabase.mk _ _ _ _ _ _ _ _) = Except.ok (DDatabase.mk _ _ _ _ _ _ _ _)
  congr 2
  · show (if ren shorten names a.name = a.name then mapNodes (ρ p) db.messages
      else renameNode a.name (ren shorten names a.name) (mapNodes (ρ p) db.messages)) = mapNodes (ρ (p ++ [a])) db.messages
    split
    · rename_i h
      congr 1
      funext x
      show (if x ∈ p.map (·.name) then ren shorten names x else x) =
        if x ∈ (p ++ [a]).map (·.name) then ren shorten names x else x
      by_cases hx : x ∈ p.map (·.name)
      · rw [if_pos hx, if_pos (by simp at hx ⊢; exact .inl hx)]
      · rw [if_neg hx]
        split
        · rename_i h2
          have : x = a.name := by
            simp only [List.map_append, List.map_cons, List.map_nil, List.mem_append, List.mem_singleton] at h2
            exact h2.resolve_left hx
          rw [this, h]
        · rfl
    · rename_i h
      refine (mapNodes_comp (ρ p) (fun x => if x = a.name then ren shorten names a.name else x) db.messages).trans ?_
      congr 1
      funext x
      show (if ρ p x = a.name then ren shorten names a.name else ρ p x) =
        if x ∈ (p ++ [a]).map (·.name) then ren shorten names x else x
      have hl := ren_long hnd h
      by_cases hx : x ∈ p.map (·.name)
      · have e : ρ p x = ren shorten names x := if_pos hx
        rw [e, if_neg, if_pos (by simp at hx ⊢; exact .inl hx)]
        intro he
        by_cases hxx : ren shorten names x = x
        · rw [← he, hxx] at h
          exact h hxx
        · have h3 := ren_long hnd hxx
          have hs : shorten = true := by
            by_contra hc
            rw [Bool.not_eq_true] at hc
            subst hc
            exact h rfl
          have h4 := h3.2.2.2.2 (by rw [← hN, List.length_map]; exact hfew hs)
          rw [he] at h4
          omega
      · have e : ρ p x = x := if_neg hx
        rw [e]
        by_cases hxa : x = a.name
        · rw [if_pos hxa, if_pos (by simp [hxa]), hxa]
        · rw [if_neg hxa, if_neg]
          simp only [List.map_append, List.map_cons, List.map_nil, List.mem_append, List.mem_singleton, not_or]
          exact ⟨hx, hxa⟩
  · simp [shortNode, longSymbolDef]
    rfl
  · rw [List.map_append, List.map_cons, List.map_nil, changes_append]

/-- A message with its new name. -/
def shortMsg (shorten : Bool) (names : List Chars) (defs : Defs F) (m : DMessage F) : DMessage F :=
  { m with
    name := ren shorten names m.name
    attributes := shortAttrs systemMessage (sysDefOf defs (longSymbolDef systemMessage "BO_")) (ren shorten names m.name)
      m.name m.attributes }

def messagesDone (shorten : Bool) (db : DDatabase F) : DDatabase F :=
  let names := db.messages.map (·.name)
  { db with
    messages := db.messages.map (shortMsg shorten names db.definitions)
    definitions := addDef (changes shorten names names) (longSymbolDef systemMessage "BO_") db.definitions }

theorem makeMessages_eq {shorten : Bool} {db : DDatabase F} (hnd : (db.messages.map (·.name)).Nodup) :
    makeMessageNamesUnique shorten db = .ok (messagesDone shorten db) := by
  obtain ⟨l2s, h1, h2⟩ := longToShort_ok (db.messages.map (·.name))
  unfold makeMessageNamesUnique
  rw [h1, ok_bind2]
  unfold messagesDone
  generalize hN : db.messages.map (·.name) = names at *
  let st (p : List (DMessage F)) : DDatabase F :=
    { db with
      messages := p.map (shortMsg shorten names db.definitions)
      definitions := addDef (changes shorten names (p.map (·.name))) (longSymbolDef systemMessage "BO_") db.definitions }
  have hst0 : ({ db with messages := [] } : DDatabase F) = st [] := rfl
  have hst1 : st db.messages = { db with
      messages := db.messages.map (shortMsg shorten names db.definitions)
      definitions := addDef (changes shorten names names) (longSymbolDef systemMessage "BO_") db.definitions } := by
    have h3 : st db.messages = { db with
      messages := db.messages.map (shortMsg shorten names db.definitions)
      definitions := addDef (changes shorten names (db.messages.map (·.name))) (longSymbolDef systemMessage "BO_")
        db.definitions } := rfl
    rw [h3, hN]
  rw [hst0, ← hst1]
  apply foldlM_state
  intro p a r hp
  have ha : a.name ∈ names := by rw [← hN, hp]; simp
  show (shortName shorten l2s _ a.name a.attributes
    (addDef (changes shorten names (p.map (·.name))) (longSymbolDef systemMessage "BO_") db.definitions)).bind _ = _
  rw [shortName_eq hnd h2 ha]
  show Except.ok _ = _
  rw [addDef_addDef, sysDefOf_add]
  show Except.ok (DDatabase.mk _ _ _ _ _ _ _ _) = Except.ok (DDatabase.mk _ _ _ _ _ _ _ _)
  congr 2
  · simp [shortMsg, longSymbolDef]
    rfl
  · rw [List.map_append, List.map_cons, List.map_nil, changes_append]

/-- An environment variable with its new name. -/
def shortEnv (shorten : Bool) (names : List Chars) (defs : Defs F) (e : Chars × DEnvvar F) : Chars × DEnvvar F :=
  (e.1, { e.2 with
    name := ren shorten names e.2.name
    attributes := shortAttrs systemEnvvar (sysDefOf defs (longSymbolDef systemEnvvar "EV_")) (ren shorten names e.2.name)
      e.2.name e.2.attributes })

def envvarsDone (shorten : Bool) (db : DDatabase F) : DDatabase F :=
  let names := db.envvars.map (·.2.name)
  { db with
    envvars := db.envvars.map (shortEnv shorten names db.definitions)
    definitions := addDef (changes shorten names names) (longSymbolDef systemEnvvar "EV_") db.definitions }

theorem makeEnvvars_eq {shorten : Bool} {db : DDatabase F} (hnd : (db.envvars.map (·.2.name)).Nodup) :
    makeEnvvarNamesUnique shorten db = .ok (envvarsDone shorten db) := by
  obtain ⟨l2s, h1, h2⟩ := longToShort_ok (db.envvars.map (·.2.name))
  unfold makeEnvvarNamesUnique
  rw [h1, ok_bind2]
  unfold envvarsDone
  generalize hN : db.envvars.map (·.2.name) = names at *
  let st (p : List (Chars × DEnvvar F)) : DDatabase F :=
    { db with
      envvars := p.map (shortEnv shorten names db.definitions)
      definitions := addDef (changes shorten names (p.map (·.2.name))) (longSymbolDef systemEnvvar "EV_") db.definitions }
  have hst0 : ({ db with envvars := [] } : DDatabase F) = st [] := rfl
  have hst1 : st db.envvars = { db with
      envvars := db.envvars.map (shortEnv shorten names db.definitions)
      definitions := addDef (changes shorten names names) (longSymbolDef systemEnvvar "EV_") db.definitions } := by
    have h3 : st db.envvars = { db with
      envvars := db.envvars.map (shortEnv shorten names db.definitions)
      definitions := addDef (changes shorten names (db.envvars.map (·.2.name))) (longSymbolDef systemEnvvar "EV_")
        db.definitions } := rfl
    rw [h3, hN]
  rw [hst0, ← hst1]
  apply foldlM_state
  intro p a r hp
  have ha : a.2.name ∈ names := by rw [← hN, hp]; simp
  show (shortName shorten l2s _ a.2.name a.2.attributes
    (addDef (changes shorten names (p.map (·.2.name))) (longSymbolDef systemEnvvar "EV_") db.definitions)).bind _ = _
  rw [shortName_eq hnd h2 ha]
  show Except.ok _ = _
  rw [addDef_addDef, sysDefOf_add]
  show Except.ok (DDatabase.mk _ _ _ _ _ _ _ _) = Except.ok (DDatabase.mk _ _ _ _ _ _ _ _)
  congr 2
  · rw [List.map_append, List.map_cons, List.map_nil, changes_append]
  · simp [shortEnv, longSymbolDef]
    rfl

/-- A signal with its new name. -/
def shortSig (shorten : Bool) (names : List Chars) (defs : Defs F) (s : DSignal F) : DSignal F :=
  { s with
    name := ren shorten names s.name
    attributes := shortAttrs systemSignal (sysDefOf defs (longSymbolDef systemSignal "SG_")) (ren shorten names s.name)
      s.name s.attributes }

/-- A message with new names for its signals. -/
def shortSigs (shorten : Bool) (defs : Defs F) (m : DMessage F) : DMessage F :=
  { m with
    signals := m.signals.map (shortSig shorten (m.signals.map (·.name)) defs)
    signalGroups := m.signalGroups.map fun gs => gs.map fun g =>
      { g with signalNames := g.signalNames.map (ren shorten (m.signals.map (·.name))) } }

/-- Whether the name of a signal changes. -/
def sigChanges (shorten : Bool) (m : DMessage F) : Bool :=
  changes shorten (m.signals.map (·.name)) (m.signals.map (·.name))

def signalsDone (shorten : Bool) (db : DDatabase F) : DDatabase F :=
  { db with
    messages := db.messages.map (shortSigs shorten db.definitions)
    definitions := addDef (db.messages.any (sigChanges shorten)) (longSymbolDef systemSignal "SG_") db.definitions }

theorem mapM_eq_map {α β : Type} {f : α → Except Err β} {g : α → β} {l : List α} (h : ∀ a ∈ l, f a = .ok (g a)) :
    l.mapM f = .ok (l.map g) := by
  induction l with
  | nil => rfl
  | cons a r ih =>
    rw [List.mapM_cons, h a (by simp), ih fun x hx => h x (List.mem_cons_of_mem _ hx)]
    rfl

theorem makeSignals_eq {shorten : Bool} {db : DDatabase F}
    (hnd : ∀ m ∈ db.messages, (m.signals.map (·.name)).Nodup)
    (hg : ∀ m ∈ db.messages, ∀ gs, m.signalGroups = some gs → ∀ g ∈ gs, ∀ n ∈ g.signalNames,
      n ∈ m.signals.map (·.name)) :
    makeSignalNamesUnique shorten db = .ok (signalsDone shorten db) := by
  unfold makeSignalNamesUnique
  let st (p : List (DMessage F)) : DDatabase F :=
    { db with
      messages := p.map (shortSigs shorten db.definitions)
      definitions := addDef (p.any (sigChanges shorten)) (longSymbolDef systemSignal "SG_") db.definitions }
  have hst0 : ({ db with messages := [] } : DDatabase F) = st [] := rfl
  have hst1 : st db.messages = signalsDone shorten db := rfl
  rw [hst0, ← hst1]
  apply foldlM_state
  intro p m r hp
  have hm : m ∈ db.messages := by rw [hp]; simp
  have hn := hnd m hm
  obtain ⟨l2s, h1, h2⟩ := longToShort_ok (m.signals.map (·.name))
  dsimp only
  rw [h1, ok_bind2]
  have hsig : m.signals.foldlM (fun (st : List (DSignal F) × Defs F) s => do
      let (name, attributes, defs) ←
        shortName shorten l2s (longSymbolDef systemSignal "SG_") s.name s.attributes st.2
      return (st.1 ++ [{ s with name := name, attributes := attributes }], defs)) ([], (st p).definitions) =
      .ok (m.signals.map (shortSig shorten (m.signals.map (·.name)) db.definitions),
        addDef (p.any (sigChanges shorten) || sigChanges shorten m) (longSymbolDef systemSignal "SG_") db.definitions) := by
    generalize hN : m.signals.map (·.name) = names at *
    let st2 (q : List (DSignal F)) : List (DSignal F) × Defs F :=
      (q.map (shortSig shorten names db.definitions),
        addDef (p.any (sigChanges shorten) || changes shorten names (q.map (·.name)))
          (longSymbolDef systemSignal "SG_") db.definitions)
    have h0 : (([], (st p).definitions) : List (DSignal F) × Defs F) = st2 [] := by
      show _ = ([], addDef (p.any (sigChanges shorten) || false) _ _)
      rw [Bool.or_false]
    have h3 : (m.signals.map (shortSig shorten names db.definitions),
        addDef (p.any (sigChanges shorten) || sigChanges shorten m) (longSymbolDef systemSignal "SG_") db.definitions) =
        st2 m.signals := by
      show _ = (_, addDef (p.any (sigChanges shorten) || changes shorten names (m.signals.map (·.name))) _ _)
      unfold sigChanges
      rw [hN]
    rw [h0, h3]
    apply foldlM_state
    intro q a t hq
    have ha : a.name ∈ names := by rw [← hN, hq]; simp
    show (shortName shorten l2s _ a.name a.attributes
      (addDef (p.any (sigChanges shorten) || changes shorten names (q.map (·.name)))
        (longSymbolDef systemSignal "SG_") db.definitions)).bind _ = _
    rw [shortName_eq hn h2 ha]
    show Except.ok _ = _
    rw [addDef_addDef, sysDefOf_add]
    show Except.ok (_, _) = Except.ok (_, _)
    congr 2
    · simp [shortSig, longSymbolDef]
      rfl
    · rw [List.map_append, List.map_cons, List.map_nil, changes_append, Bool.or_assoc]
  refine (bind_of_ok hsig).trans ?_
  have hgr : (match m.signalGroups with
      | none => .ok none
      | some gs =>
        if shorten then
          (gs.mapM fun (g : DGroup) => do
            let names ← g.signalNames.mapM (dictGet l2s)
            return { g with signalNames := names }).map some
        else .ok (some gs) : Except Err (Option (List DGroup))) =
      .ok (m.signalGroups.map fun gs => gs.map fun g =>
        { g with signalNames := g.signalNames.map (ren shorten (m.signals.map (·.name))) }) := by
    cases hgs : m.signalGroups with
    | none => rfl
    | some gs =>
      cases shorten with
      | false =>
        show Except.ok (some gs) = Except.ok (some (gs.map fun g => { g with signalNames := g.signalNames.map fun n => n }))
        simp
      | true =>
        show Except.map some (List.mapM _ gs) = _
        rw [mapM_eq_map (g := fun g : DGroup =>
          { g with signalNames := g.signalNames.map (ren true (m.signals.map (·.name))) })]
        · rfl
        · intro g hgg
          rw [mapM_eq_map (g := ren true (m.signals.map (·.name)))]
          · rfl
          · intro n hnn
            obtain ⟨x, hx, rfl⟩ := Option.map_eq_some_iff.1 h2
            obtain ⟨-, -, h3⟩ := longNames_spec (l2s := x.1) (s2l := x.2) hx hn
            obtain ⟨s, hs, -⟩ := h3 n (hg m hm gs hgs g hgg n hnn)
            rw [dictGet_eq_ok.2 hs, ren_get h2, hs]
            rfl
  refine (bind_of_ok hgr).trans ?_
  show Except.ok (DDatabase.mk _ _ _ _ _ _ _ _) = Except.ok (DDatabase.mk _ _ _ _ _ _ _ _)
  congr 2
  · simp [shortSigs]
    rfl
  · simp

end Cantools.Dbc
