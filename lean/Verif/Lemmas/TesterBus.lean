import Verif.Spec.TesterBus
import Verif.Lemmas.Basic
import Verif.Props.Tester
import Verif.Props.TesterPeriodic
import Verif.Props.TesterInit
import Verif.Props.Decode
import Verif.Props.Database

/-
Lemmas about whole testers.
-/

namespace Cantools.Tester
open Cantools Spec

/-! ### Creating a tester -/

theorem dutOk_iff {nodes : List String} {dut : Option String} :
    dutOk nodes dut = true ↔ ∀ d, dut = some d → d = "" ∨ d ∈ nodes := by
  unfold dutOk
  cases dut with
  | none => simp
  | some d => simp

theorem busOk_iff {buses : List String} {bus : Option String} :
    busOk buses bus = true ↔ (buses = [] → bus = none) ∧ (buses ≠ [] → ∃ b ∈ buses, bus = some b) := by
  unfold busOk
  cases buses with
  | nil => simp
  | cons b r =>
    simp only [List.isEmpty_cons, Bool.false_eq_true, if_false, List.any_eq_true, beq_iff_eq, reduceCtorEq, false_implies, ne_eq,
      not_false_eq_true, forall_const, true_and]
    exact ⟨fun ⟨x, h, e⟩ => ⟨x, h, e.symm⟩, fun ⟨x, h, e⟩ => ⟨x, h, e.symm⟩⟩

section
variable {fo : FloatOps} {bus : Option String} {sc pad st : Bool}

/-- The last message of a list with a bus and a name. -/
def LastIn (bus : Option String) (n : String) (l : List BusMessage) (x : BusMessage) : Prop :=
  ∃ a b, l = a ++ x :: b ∧ x.bus = bus ∧ x.message.name = n ∧ ∀ y ∈ b, ¬ (y.bus = bus ∧ y.message.name = n)

theorem lastIn_cons {n : String} {y x : BusMessage} {l : List BusMessage} :
    LastIn bus n (y :: l) x ↔ LastIn bus n l x ∨
      (y = x ∧ x.bus = bus ∧ x.message.name = n ∧ ∀ z ∈ l, ¬ (z.bus = bus ∧ z.message.name = n)) := by
  constructor
  · rintro ⟨a, b, h1, h2, h3, h4⟩
    cases a with
    | nil =>
      obtain ⟨rfl, rfl⟩ := List.cons.inj h1
      exact .inr ⟨rfl, h2, h3, h4⟩
    | cons a0 a =>
      obtain ⟨rfl, rfl⟩ := List.cons.inj h1
      exact .inl ⟨a, b, rfl, h2, h3, h4⟩
  · rintro (⟨a, b, rfl, h⟩ | ⟨rfl, h⟩)
    · exact ⟨y :: a, b, rfl, h⟩
    · exact ⟨[], l, rfl, h⟩

theorem lastIn_exists {n : String} {l : List BusMessage} (h : ∃ y ∈ l, y.bus = bus ∧ y.message.name = n) :
    ∃ x, LastIn bus n l x := by
  induction l with
  | nil => obtain ⟨_, h, _⟩ := h; cases h
  | cons y l ih =>
    by_cases hl : ∃ y ∈ l, y.bus = bus ∧ y.message.name = n
    · obtain ⟨x, hx⟩ := ih hl
      exact ⟨x, lastIn_cons.2 (.inl hx)⟩
    · obtain ⟨z, hz, h1, h2⟩ := h
      rcases List.mem_cons.1 hz with rfl | hz
      · exact ⟨z, lastIn_cons.2 (.inr ⟨rfl, h1, h2, fun w hw h => hl ⟨w, hw, h⟩⟩)⟩
      · exact (hl ⟨z, hz, h1, h2⟩).elim

theorem newSlots_ok : ∀ {l : List BusMessage} {acc : List (String × BusMessage × TMessage)},
    (∃ out, newSlots fo bus sc pad st acc l = .ok out) ↔
      ∀ x ∈ l, x.bus = bus → ∃ t, newSlot fo sc pad st x = .ok t := by
  intro l
  induction l with
  | nil => intro acc; simp [newSlots]
  | cons x l ih =>
    intro acc
    unfold newSlots
    rw [List.forall_mem_cons]
    by_cases hx : x.bus = bus
    · rw [if_pos hx]
      cases ht : newSlot fo sc pad st x with
      | error e =>
        constructor
        · rintro ⟨out, h⟩; cases h
        · rintro ⟨h, -⟩; obtain ⟨t, h⟩ := h hx; cases h
      | ok t => exact ih.trans ⟨fun h => ⟨fun _ => ⟨t, rfl⟩, h⟩, fun h => h.2⟩
    · rw [if_neg hx]
      exact ih.trans ⟨fun h => ⟨fun h' => (hx h').elim, h⟩, fun h => h.2⟩

theorem newSlots_get : ∀ {l : List BusMessage} {acc out : List (String × BusMessage × TMessage)},
    newSlots fo bus sc pad st acc l = .ok out → ∀ n x, (∃ t, dictGet? out n = some (x, t)) ↔
      LastIn bus n l x ∨ ((∃ t, dictGet? acc n = some (x, t)) ∧ ∀ y ∈ l, ¬ (y.bus = bus ∧ y.message.name = n)) := by
  intro l
  induction l with
  | nil =>
    intro acc out h n x
    obtain rfl := Except.ok.inj h
    constructor
    · intro h; exact .inr ⟨h, fun _ h => nomatch h⟩
    · rintro (⟨a, b, h, _⟩ | h)
      · simp at h
      · exact h.1
  | cons y l ih =>
    intro acc out h n x
    unfold newSlots at h
    rw [lastIn_cons, List.forall_mem_cons]
    split at h
    · rename_i hy
      obtain ⟨t, -, h⟩ := Except.bind_eq_ok.1 h
      rw [ih h n x, dictGet?_set]
      by_cases hn : y.message.name = n
      · rw [if_pos hn]
        constructor
        · rintro (h | ⟨⟨t', e⟩, h⟩)
          · exact .inl (.inl h)
          · obtain ⟨rfl, -⟩ := Prod.mk.inj (Option.some.inj e)
            exact .inl (.inr ⟨rfl, hy, hn, h⟩)
        · rintro ((h | ⟨rfl, h⟩) | ⟨-, h, -⟩)
          · exact .inl h
          · exact .inr ⟨⟨_, rfl⟩, h.2.2⟩
          · exact (h ⟨hy, hn⟩).elim
      · rw [if_neg hn]
        constructor
        · rintro (h | ⟨h, h'⟩)
          · exact .inl (.inl h)
          · exact .inr ⟨h, fun h => hn h.2, h'⟩
        · rintro ((h | ⟨rfl, h⟩) | ⟨h, -, h'⟩)
          · exact .inl h
          · exact (hn h.2.1).elim
          · exact .inr ⟨h, h'⟩
    · rename_i hy
      rw [ih h n x]
      constructor
      · rintro (h | ⟨h, h'⟩)
        · exact .inl (.inl h)
        · exact .inr ⟨h, fun h => hy h.1, h'⟩
      · rintro ((h | ⟨rfl, h⟩) | ⟨h, -, h'⟩)
        · exact .inl h
        · exact (hy h.1).elim
        · exact .inr ⟨h, h'⟩

theorem newSlots_nodup : ∀ {l : List BusMessage} {acc out : List (String × BusMessage × TMessage)},
    newSlots fo bus sc pad st acc l = .ok out → (acc.map (·.1)).Nodup → (out.map (·.1)).Nodup := by
  intro l
  induction l with
  | nil =>
    intro acc out h hn
    obtain rfl := Except.ok.inj h
    exact hn
  | cons y l ih =>
    intro acc out h hn
    unfold newSlots at h
    split at h
    · obtain ⟨t, -, h⟩ := Except.bind_eq_ok.1 h
      exact ih h (dictSet_nodup _ _ hn)
    · exact ih h hn

theorem mem_set {l : List (String × BusMessage × TMessage)} {k : String} {v : BusMessage × TMessage}
    {e : String × BusMessage × TMessage} (h : e ∈ dictSet l k v) : e = (k, v) ∨ e ∈ l := by
  induction l with
  | nil => simp [dictSet] at h; exact .inl h
  | cons x l ih =>
    obtain ⟨k0, v0⟩ := x
    unfold dictSet at h
    split at h
    · rename_i hk
      subst hk
      rcases List.mem_cons.1 h with h | h
      · exact .inl h
      · exact .inr (List.mem_cons_of_mem _ h)
    · rcases List.mem_cons.1 h with h | h
      · exact .inr (h ▸ List.mem_cons_self)
      · exact (ih h).imp id (List.mem_cons_of_mem _)

/-- Each message comes from `newSlot`. -/
theorem newSlots_made : ∀ {l : List BusMessage} {acc out : List (String × BusMessage × TMessage)},
    newSlots fo bus sc pad st acc l = .ok out → (∀ e ∈ acc, newSlot fo sc pad st e.2.1 = .ok e.2.2) →
    ∀ e ∈ out, newSlot fo sc pad st e.2.1 = .ok e.2.2 := by
  intro l
  induction l with
  | nil =>
    intro acc out h hn
    obtain rfl := Except.ok.inj h
    exact hn
  | cons y l ih =>
    intro acc out h hn
    unfold newSlots at h
    split at h
    · obtain ⟨t, ht, h⟩ := Except.bind_eq_ok.1 h
      refine ih h fun e he => ?_
      rcases mem_set he with rfl | he
      · exact ht
      · exact hn e he
    · exact ih h hn

end

/-! ### Periodic sending -/

/-- The names and what is enabled. -/
def flags (ms : List PMessage) : List (String × Bool) := ms.map fun m => (m.name, m.enabled)

theorem flags_start (ms : List PMessage) : ∀ next active, flags (startLoop ms next active).1 = flags ms := by
  induction ms with
  | nil => intro _ _; rfl
  | cons m r ih =>
    intro next active
    unfold startLoop flags
    simp only [List.map_cons]
    refine congrArg₂ _ ?_ (ih _ _)
    split
    · rfl
    · unfold periodicStart
      split <;> rfl

theorem flags_stop (ms : List PMessage) : ∀ active, flags (stopLoop ms active).1 = flags ms := by
  induction ms with
  | nil => intro _; rfl
  | cons m r ih =>
    intro active
    unfold stopLoop flags
    simp only [List.map_cons]
    refine congrArg₂ _ ?_ (ih _)
    unfold periodicStop
    split <;> rfl

theorem flags_update {n : String} {b : Bool} {f : PMessage → Nat → List (Nat × String) → PMessage × Nat × List (Nat × String)}
    (hf : ∀ m next active, ((f m next active).1.name, (f m next active).1.enabled) = (m.name, b)) (ms : List PMessage)
    (hnd : (ms.map (·.name)).Nodup) : ∀ next active,
    flags (updateNamed n f ms next active).1 = ms.map fun m => (m.name, if m.name = n then b else m.enabled) := by
  induction ms with
  | nil => intro _ _; rfl
  | cons m r ih =>
    intro next active
    rw [List.map_cons, List.nodup_cons] at hnd
    unfold updateNamed flags
    split
    · rename_i hm
      simp only [List.map_cons, if_pos hm]
      refine congrArg₂ _ (hf _ _ _) (List.map_congr_left fun x hx => ?_)
      rw [if_neg]
      intro e
      exact hnd.1 (List.mem_map.2 ⟨x, hx, e.trans hm.symm⟩)
    · rename_i hm
      simp only [List.map_cons, if_neg hm]
      exact congrArg₂ _ rfl (ih hnd.2 _ _)

theorem flags_call (s : PState) (hnd : (s.messages.map (·.name)).Nodup) (c : PCall) :
    flags (s.call c).messages = s.messages.map fun m => (m.name, match c with
      | .enable n => if m.name = n then true else m.enabled
      | .disable n => if m.name = n then false else m.enabled
      | _ => m.enabled) := by
  cases c with
  | start => exact flags_start _ _ _
  | stop => exact flags_stop _ _
  | enable n =>
    refine flags_update (b := true) (fun m next active => ?_) _ hnd _ _
    unfold enableMessage
    split
    · rfl
    · rfl
  | disable n =>
    refine flags_update (b := false) (fun m next active => ?_) _ hnd _ _
    unfold disableMessage
    split
    · dsimp only [periodicStop]
      split <;> rfl
    · rfl

theorem flags_names (ms : List PMessage) : (flags ms).map (·.1) = ms.map (·.name) := by
  unfold flags; rw [List.map_map]; rfl

/-- What is being sent after a start. -/
theorem startLoop_only (ms : List PMessage) : ∀ (next : Nat) (active : List (Nat × String)) (t : Nat) (n : String),
    (t, n) ∈ (startLoop ms next active).2.2 → (t, n) ∈ active ∨
      ∃ m ∈ ms, m.name = n ∧ m.periodic = true ∧ m.fromDut = false := by
  induction ms with
  | nil => intro _ _ _ _ h; exact .inl h
  | cons m r ih =>
    intro next active t n h
    unfold startLoop at h
    rcases ih _ _ _ _ h with h | ⟨x, hx, h⟩
    · split at h
      · exact .inl h
      · rename_i hm
        simp only [Bool.or_eq_true, Bool.not_eq_true', not_or, Bool.not_eq_true, Bool.not_eq_false] at hm
        unfold periodicStart at h
        split at h
        · rcases List.mem_append.1 h with h | h
          · exact .inl h
          · obtain ⟨rfl, rfl⟩ := Prod.mk.inj (List.mem_singleton.1 h)
            exact .inr ⟨m, by simp, rfl, hm.2, hm.1⟩
        · exact .inl h
    · exact .inr ⟨x, List.mem_cons_of_mem _ hx, h⟩

/-- The flag of a name. -/
def flagOf (fl : List (String × Bool)) (n : String) : Bool := ((fl.find? fun e => e.1 == n).map (·.2)).getD false

theorem enabled_flags (t : State) (n : String) : t.enabled n = flagOf (flags t.periodic.messages) n := by
  unfold State.enabled flags flagOf
  rw [List.find?_map]
  change _ = ((((t.periodic.messages.find? fun m => m.name == n).map (fun m => (m.name, m.enabled))).map (·.2)).getD false)
  cases t.periodic.messages.find? fun m => m.name == n <;> rfl

theorem flagOf_other {fl : List (String × Bool)} {n : String} (h : n ∉ fl.map (·.1)) : flagOf fl n = false := by
  unfold flagOf
  rw [List.find?_eq_none.2]
  · rfl
  · intro e he h'
    exact h (List.mem_map.2 ⟨e, he, by simpa using h'⟩)

theorem flagOf_change {ms : List PMessage} {n k : String} {b : Bool} :
    flagOf (ms.map fun m => (m.name, if m.name = n then b else m.enabled)) k =
    if k = n ∧ k ∈ ms.map (·.name) then b else flagOf (flags ms) k := by
  unfold flagOf flags
  induction ms with
  | nil => simp
  | cons m r ih =>
    simp only [List.map_cons, List.find?_cons]
    by_cases hm : m.name = k
    · subst hm
      simp only [beq_self_eq_true, List.map_cons, List.mem_cons, true_or, and_true, Option.map_some, Option.getD_some]
    · have : (m.name == k) = false := by simpa using hm
      simp only [this]
      rw [ih]
      have : (k ∈ m.name :: r.map (·.name)) ↔ k ∈ r.map (·.name) := by
        rw [List.mem_cons]
        exact ⟨fun h => h.resolve_left fun e => hm e.symm, .inr⟩
      simp only [this]

/-! ### Using a tester -/

/-- What never changes. -/
structure Same (t u : State) : Prop where
  database : u.database = t.database
  choices : u.decodeChoices = t.decodeChoices
  scaling : u.scaling = t.scaling
  names : u.messages.map (fun e => (e.1, e.2.1)) = t.messages.map fun e => (e.1, e.2.1)
  flags : u.periodic.messages.map (·.name) = t.periodic.messages.map (·.name)
  nodup : (t.periodic.messages.map (·.name)).Nodup

theorem dictSet_names {l : List (String × BusMessage × TMessage)} {n : String} {x : BusMessage} {m : TMessage}
    (h : dictGet? l n = some (x, m)) (m' : TMessage) :
    (dictSet l n (x, m')).map (fun e => (e.1, e.2.1)) = l.map fun e => (e.1, e.2.1) := by
  induction l with
  | nil => simp at h
  | cons e l ih =>
    obtain ⟨k, y, z⟩ := e
    rw [dictGet?_cons] at h
    unfold dictSet
    split at h
    · rename_i hk
      obtain ⟨rfl, rfl⟩ := Prod.mk.inj (Option.some.inj h)
      rw [if_pos hk]
      subst hk
      rfl
    · rename_i hk
      rw [if_neg hk, List.map_cons, List.map_cons, ih h]

theorem used_same {fo : FloatOps} {t u : State} (h : Used fo t u) (hnd : (t.periodic.messages.map (·.name)).Nodup) : Same t u := by
  induction h with
  | new => exact ⟨rfl, rfl, rfl, rfl, rfl, hnd⟩
  | @set u n s v h ih =>
    obtain ⟨h1, h2, h3, h4, h5, h6⟩ := ih
    unfold State.set
    split
    · exact ⟨h1, h2, h3, h4, h5, h6⟩
    · rename_i x m e
      exact ⟨h1, h2, h3, (dictSet_names e _).trans h4, h5, h6⟩
  | @update u n s h ih =>
    obtain ⟨h1, h2, h3, h4, h5, h6⟩ := ih
    unfold State.update
    split
    · exact ⟨h1, h2, h3, h4, h5, h6⟩
    · rename_i x m e
      exact ⟨h1, h2, h3, (dictSet_names e _).trans h4, h5, h6⟩
  | @send u n s h ih =>
    obtain ⟨h1, h2, h3, h4, h5, h6⟩ := ih
    unfold State.send
    split
    · exact ⟨h1, h2, h3, h4, h5, h6⟩
    · rename_i x m e
      exact ⟨h1, h2, h3, (dictSet_names e _).trans h4, h5, h6⟩
  | @hear u f h ih =>
    obtain ⟨h1, h2, h3, h4, h5, h6⟩ := ih
    unfold State.hear
    split <;> exact ⟨h1, h2, h3, h4, h5, h6⟩
  | @expect u n s d w rs h ih =>
    obtain ⟨h1, h2, h3, h4, h5, h6⟩ := ih
    unfold State.expect
    split <;> exact ⟨h1, h2, h3, h4, h5, h6⟩
  | @flush u a h ih =>
    obtain ⟨h1, h2, h3, h4, h5, h6⟩ := ih
    exact ⟨h1, h2, h3, h4, h5, h6⟩
  | @control u c h ih =>
    obtain ⟨h1, h2, h3, h4, h5, h6⟩ := ih
    refine ⟨h1, h2, h3, h4, ?_, h6⟩
    rw [← h5, ← flags_names]
    unfold State.control
    rw [flags_call _ (h5 ▸ h6), List.map_map]
    rfl

/-- The first parts of the values of a dictionary. -/
theorem get_names {l : List (String × BusMessage × TMessage)} {n : String} {x : BusMessage} :
    (∃ m, dictGet? l n = some (x, m)) ↔ dictGet? (l.map fun e => (e.1, e.2.1)) n = some x := by
  induction l with
  | nil => simp
  | cons e l ih =>
    obtain ⟨k, y, z⟩ := e
    rw [List.map_cons, dictGet?_cons, dictGet?_cons]
    split
    · simp
    · exact ih

/-! ### Talking -/

theorem lastWith_own {P : DbMessage → Prop} {l : List DbMessage} {m : DbMessage} (hm : m ∈ l) (hp : P m)
    (h : ∀ y ∈ l, P y → y = m) : LastWith P l m := by
  by_contra hc
  have : ¬ ∃ x, LastWith P l x := by
    rintro ⟨x, hx⟩
    obtain ⟨a, b, rfl, h1, h2⟩ := hx
    obtain rfl := h x (by simp) h1
    exact hc ⟨a, b, rfl, h1, h2⟩
  exact lastWith_none.1 this m hm hp

/-- The settings of a message. -/
def settings (t : TMessage) : Message × Bool × Bool × Bool := (t.database, t.scaling, t.padding, t.strict)

section
variable {fo : FloatOps}

theorem settings_change (t : TMessage) : settings (afterChange fo t).2 = settings t := by
  unfold afterChange updateCanMessage
  cases newFrame fo t <;> rfl

theorem settings_set (t : TMessage) (n : String) (v : Value) : settings (setItem fo t n v).2 = settings t := by
  unfold setItem
  split
  · exact settings_change _
  · rfl

theorem settings_update (t : TMessage) (s : List (String × Value)) : settings (update fo t s).2 = settings t := by
  unfold update
  split
  · exact settings_change _
  · rfl

theorem settings_send (t : TMessage) (s : Option (List (String × Value))) : settings (send fo t s).2 = settings t := by
  unfold send
  cases s with
  | none => rfl
  | some s =>
    have := settings_update (fo := fo) t s
    dsimp only
    cases h : update fo t s with
    | mk o t' =>
      rw [h] at this
      cases o <;> exact this

/-- The messages of a tester have the settings they were made with. -/
def Fits (sc pad st : Bool) (u : State) : Prop :=
  ∀ e ∈ u.messages, ∃ m, e.2.1.message.body = .inl m ∧ settings e.2.2 = (m, sc, pad, st)

theorem fits_set {sc pad st : Bool} {u : State} (h : Fits sc pad st u) {n : String} {x : BusMessage} {m m' : TMessage}
    (hg : dictGet? u.messages n = some (x, m)) (hs : settings m' = settings m) :
    Fits sc pad st { u with messages := dictSet u.messages n (x, m') } := by
  intro e he
  rcases mem_set he with rfl | he
  · obtain ⟨k, h1, h2⟩ := h _ (dictGet?_mem hg)
    exact ⟨k, h1, hs.trans h2⟩
  · exact h e he

theorem used_fits {sc pad st : Bool} {t u : State} (hu : Used fo t u) (h : Fits sc pad st t) : Fits sc pad st u := by
  induction hu with
  | new => exact h
  | @set u n s v _ ih =>
    unfold State.set
    split
    · exact ih
    · rename_i x m e
      exact fits_set ih e (settings_set _ _ _)
  | @update u n s _ ih =>
    unfold State.update
    split
    · exact ih
    · rename_i x m e
      exact fits_set ih e (settings_update _ _)
  | @send u n s _ ih =>
    unfold State.send
    split
    · exact ih
    · rename_i x m e
      exact fits_set ih e (settings_send _ _)
  | @hear u f _ ih =>
    unfold State.hear
    split <;> exact ih
  | @expect u n s d w rs _ ih =>
    unfold State.expect
    split <;> exact ih
  | @flush u a _ ih => exact ih
  | @control u c _ ih => exact ih

end

end Cantools.Tester
