import Verif.Spec.Tester
import Verif.Lemmas.Basic
import Mathlib.Data.List.Basic
import Mathlib.Data.List.Nodup

/-
Properties of periodic sending: C34.
-/

namespace Cantools
open Spec Tester

namespace Tester

/-- The tasks of the bus are exactly those the messages know. -/
structure Known (ms : List PMessage) (next : Nat) (active : List (Nat × String)) : Prop where
  names : (ms.map (·.name)).Nodup
  tasks : ∀ t n, (t, n) ∈ active ↔ ∃ m ∈ ms, m.task = some t ∧ m.name = n
  distinct : (active.map (·.1)).Nodup
  old : ∀ a ∈ active, a.1 < next

theorem nodup_mid {pre post : List PMessage} {m m' : PMessage}
    (h : ((pre ++ m :: post).map (·.name)).Nodup) (hn : m'.name = m.name) :
    ((pre ++ m' :: post).map (·.name)).Nodup := by
  simpa [hn] using h

theorem name_ne {pre post : List PMessage} {m x : PMessage}
    (h : ((pre ++ m :: post).map (·.name)).Nodup) (hx : x ∈ pre ∨ x ∈ post) : x.name ≠ m.name := by
  simp only [List.map_append, List.map_cons, List.nodup_append, List.nodup_cons, List.mem_map,
    List.mem_cons] at h
  obtain ⟨_, ⟨h2, _⟩, h3⟩ := h
  rcases hx with hx | hx
  · exact h3 x.name ⟨x, hx, rfl⟩ m.name (Or.inl rfl)
  · intro he; exact h2 ⟨x, hx, he⟩

theorem fst_inj {active : List (Nat × String)} (h : (active.map (·.1)).Nodup) {t : Nat}
    {a b : String} (ha : (t, a) ∈ active) (hb : (t, b) ∈ active) : a = b := by
  have := List.inj_on_of_nodup_map h ha hb rfl
  exact (Prod.ext_iff.1 this).2

theorem known_same {pre post : List PMessage} {m m' : PMessage} {next : Nat}
    {active : List (Nat × String)} (h : Known (pre ++ m :: post) next active)
    (hn : m'.name = m.name) (ht : m'.task = m.task) : Known (pre ++ m' :: post) next active := by
  refine ⟨nodup_mid h.names hn, fun t n => ?_, h.distinct, h.old⟩
  rw [h.tasks]
  simp only [List.mem_append, List.mem_cons]
  constructor
  · rintro ⟨x, hx | rfl | hx, h1, h2⟩
    · exact ⟨x, Or.inl hx, h1, h2⟩
    · exact ⟨m', Or.inr (Or.inl rfl), by rw [ht]; exact h1, by rw [hn]; exact h2⟩
    · exact ⟨x, Or.inr (Or.inr hx), h1, h2⟩
  · rintro ⟨x, hx | rfl | hx, h1, h2⟩
    · exact ⟨x, Or.inl hx, h1, h2⟩
    · exact ⟨m, Or.inr (Or.inl rfl), by rw [← ht]; exact h1, by rw [← hn]; exact h2⟩
    · exact ⟨x, Or.inr (Or.inr hx), h1, h2⟩

theorem periodicStart_name {m : PMessage} {next active} :
    (periodicStart m next active).1.name = m.name := by
  unfold periodicStart; split <;> rfl

theorem known_start {pre post : List PMessage} {m : PMessage} {next : Nat}
    {active : List (Nat × String)} (h : Known (pre ++ m :: post) next active)
    (ht : m.enabled = true → m.task = none) :
    Known (pre ++ (periodicStart m next active).1 :: post) (periodicStart m next active).2.1
      (periodicStart m next active).2.2 := by
  unfold periodicStart
  split
  · rename_i he
    refine ⟨nodup_mid h.names rfl, fun t n => ?_, ?_, ?_⟩
    · simp only [List.mem_append, List.mem_cons, List.not_mem_nil, or_false, Prod.mk.injEq]
      rw [h.tasks]
      simp only [List.mem_append, List.mem_cons]
      constructor
      · rintro (⟨x, hx | rfl | hx, h1, h2⟩ | ⟨rfl, rfl⟩)
        · exact ⟨x, Or.inl hx, h1, h2⟩
        · rw [ht he] at h1; cases h1
        · exact ⟨x, Or.inr (Or.inr hx), h1, h2⟩
        · exact ⟨_, Or.inr (Or.inl rfl), rfl, rfl⟩
      · rintro ⟨x, hx | rfl | hx, h1, h2⟩
        · exact Or.inl ⟨x, Or.inl hx, h1, h2⟩
        · simp only [Option.some.injEq] at h1 h2
          exact Or.inr ⟨h1.symm, h2.symm⟩
        · exact Or.inl ⟨x, Or.inr (Or.inr hx), h1, h2⟩
    · simp only [List.map_append, List.map_cons, List.map_nil]
      refine List.nodup_append.2 ⟨h.distinct, by simp, ?_⟩
      intro a ha b hb
      obtain ⟨x, hx, rfl⟩ := List.mem_map.1 ha
      rw [List.mem_singleton] at hb
      rw [hb]
      exact Nat.ne_of_lt (h.old x hx)
    · intro a ha
      rcases List.mem_append.1 ha with ha | ha
      · exact Nat.lt_succ_of_lt (h.old a ha)
      · rw [List.mem_singleton] at ha; rw [ha]; exact Nat.lt_succ_self _
  · exact h

theorem known_stop {pre post : List PMessage} {m : PMessage} {next : Nat}
    {active : List (Nat × String)} (h : Known (pre ++ m :: post) next active) :
    Known (pre ++ (periodicStop m active).1 :: post) next (periodicStop m active).2 := by
  unfold periodicStop
  split
  · exact h
  · rename_i t0 ht0
    refine ⟨nodup_mid h.names rfl, fun t n => ?_, ?_, ?_⟩
    · simp only [List.mem_filter, bne_iff_ne, ne_eq]
      rw [h.tasks]
      simp only [List.mem_append, List.mem_cons]
      have hm0 : (t0, m.name) ∈ active := (h.tasks _ _).2 ⟨m, by simp, ht0, rfl⟩
      have hne : ∀ x, x ∈ pre ∨ x ∈ post → x.task = some t → t ≠ t0 := by
        rintro x hx h1 rfl
        have hx' : (t, x.name) ∈ active :=
          (h.tasks _ _).2 ⟨x, by simp only [List.mem_append, List.mem_cons]; tauto, h1, rfl⟩
        exact name_ne h.names hx (fst_inj h.distinct hx' hm0)
      constructor
      · rintro ⟨⟨x, hx | rfl | hx, h1, h2⟩, h3⟩
        · exact ⟨x, Or.inl hx, h1, h2⟩
        · rw [ht0] at h1; cases h1; exact (h3 rfl).elim
        · exact ⟨x, Or.inr (Or.inr hx), h1, h2⟩
      · rintro ⟨x, hx | rfl | hx, h1, h2⟩
        · exact ⟨⟨x, Or.inl hx, h1, h2⟩, hne x (Or.inl hx) h1⟩
        · cases h1
        · exact ⟨⟨x, Or.inr (Or.inr hx), h1, h2⟩, hne x (Or.inr hx) h1⟩
    · exact h.distinct.sublist (List.filter_sublist.map _)
    · intro a ha; exact h.old a (List.mem_filter.1 ha).1

theorem known_startLoop : ∀ (post pre : List PMessage) (next : Nat) (active : List (Nat × String)),
    Known (pre ++ post) next active →
    (∀ m ∈ post, m.fromDut = false → m.periodic = true → m.enabled = true → m.task = none) →
    Known (pre ++ (startLoop post next active).1) (startLoop post next active).2.1
      (startLoop post next active).2.2 := by
  intro post
  induction post with
  | nil => intro pre next active h _; exact h
  | cons m r ih =>
    intro pre next active h ht
    unfold startLoop
    simp only
    split
    · rename_i hs
      have := ih (pre ++ [m]) next active (by simpa using h) (fun x hx => ht x (by simp [hx]))
      simpa using this
    · rename_i hs
      simp only [Bool.or_eq_true, Bool.not_eq_true', not_or, Bool.not_eq_true, Bool.not_eq_false]
        at hs
      have h' := known_start h (ht m (by simp) hs.1 hs.2)
      have := ih (pre ++ [(periodicStart m next active).1]) _ _ (by simpa using h')
        (fun x hx => ht x (by simp [hx]))
      simpa using this

theorem known_stopLoop : ∀ (post pre : List PMessage) (next : Nat) (active : List (Nat × String)),
    Known (pre ++ post) next active →
    Known (pre ++ (stopLoop post active).1) next (stopLoop post active).2 := by
  intro post
  induction post with
  | nil => intro pre next active h; exact h
  | cons m r ih =>
    intro pre next active h
    unfold stopLoop
    have := ih (pre ++ [(periodicStop m active).1]) next _ (by simpa using known_stop h)
    simpa using this

theorem stopLoop_none : ∀ (ms : List PMessage) (active : List (Nat × String)),
    ∀ m ∈ (stopLoop ms active).1, m.task = none := by
  intro ms
  induction ms with
  | nil => intro a m hm; cases hm
  | cons x r ih =>
    intro a m hm
    unfold stopLoop at hm
    rcases List.mem_cons.1 hm with rfl | hm
    · unfold periodicStop
      split <;> simp_all
    · exact ih _ m hm

theorem updateNamed_eq (n : String) (f) : ∀ (ms : List PMessage) (next : Nat)
    (active : List (Nat × String)),
    (updateNamed n f ms next active = (ms, next, active) ∧ ∀ m ∈ ms, m.name ≠ n) ∨
    ∃ pre m post, ms = pre ++ m :: post ∧ m.name = n ∧
      updateNamed n f ms next active =
        (pre ++ (f m next active).1 :: post, (f m next active).2) := by
  intro ms
  induction ms with
  | nil => intro next active; exact Or.inl ⟨rfl, by simp⟩
  | cons x r ih =>
    intro next active
    unfold updateNamed
    by_cases h : x.name = n
    · rw [if_pos h]
      exact Or.inr ⟨[], x, r, rfl, h, rfl⟩
    · rw [if_neg h]
      rcases ih next active with ⟨h1, h2⟩ | ⟨pre, m, post, h1, h2, h3⟩
      · left
        rw [h1]
        refine ⟨rfl, ?_⟩
        intro m hm
        rcases List.mem_cons.1 hm with rfl | hm
        · exact h
        · exact h2 m hm
      · right
        refine ⟨x :: pre, m, post, by rw [h1]; rfl, h2, ?_⟩
        rw [h3]; rfl

/-- What holds of a carefully used tester. -/
structure Good (s : PState) : Prop where
  known : Known s.messages s.next s.active
  sent : ∀ m ∈ s.messages, m.task ≠ none →
    s.running = true ∧ m.enabled = true ∧ m.periodic = true

theorem startLoop_mem : ∀ (ms : List PMessage) (next : Nat) (active : List (Nat × String)),
    ∀ m' ∈ (startLoop ms next active).1, ∃ m ∈ ms,
      m'.name = m.name ∧ m'.enabled = m.enabled ∧ m'.periodic = m.periodic ∧
      m'.fromDut = m.fromDut ∧
      (m'.task = m.task ∨ m.enabled = true ∧ m.periodic = true ∧ m.fromDut = false) ∧
      (m.enabled = true → m.periodic = true → m.fromDut = false → m'.task ≠ none) := by
  intro ms
  induction ms with
  | nil => intro next active m hm; cases hm
  | cons x r ih =>
    intro next active m' hm
    unfold startLoop at hm
    rcases List.mem_cons.1 hm with rfl | hm
    · refine ⟨x, by simp, ?_⟩
      split
      · rename_i hs
        simp only [Bool.or_eq_true, Bool.not_eq_true'] at hs
        refine ⟨rfl, rfl, rfl, rfl, Or.inl rfl, ?_⟩
        intro _ h2 h3
        rcases hs with hs | hs
        · rw [h3] at hs; cases hs
        · rw [h2] at hs; cases hs
      · rename_i hs
        simp only [Bool.or_eq_true, Bool.not_eq_true', not_or, Bool.not_eq_true,
          Bool.not_eq_false] at hs
        unfold periodicStart
        split
        · rename_i he
          exact ⟨rfl, rfl, rfl, rfl, Or.inr ⟨he, hs.2, hs.1⟩, fun _ _ _ => by simp⟩
        · rename_i he
          exact ⟨rfl, rfl, rfl, rfl, Or.inl rfl, fun h => (he h).elim⟩
    · obtain ⟨m, h1, h2⟩ := ih _ _ m' hm
      exact ⟨m, by simp [h1], h2⟩

theorem mem_mid {α : Type} {pre post : List α} {m x : α} (h : x ∈ pre ++ m :: post) :
    (x ∈ pre ∨ x ∈ post) ∨ x = m := by
  simp only [List.mem_append, List.mem_cons] at h; tauto

theorem mem_mid' {α : Type} {pre post : List α} {m x : α} (h : x ∈ pre ∨ x ∈ post) :
    x ∈ pre ++ m :: post := by
  simp only [List.mem_append, List.mem_cons]; tauto

theorem good_call {s : PState} {c : PCall} (h : Good s) (hc : Careful s c) : Good (s.call c) := by
  cases c with
  | start =>
    have hk := known_startLoop s.messages [] s.next s.active h.known (by
      intro m hm hd hp he
      cases ht : m.task with
      | none => rfl
      | some t => exact (hc m hm hp he hd ⟨t, (h.known.tasks _ _).2 ⟨m, hm, ht, rfl⟩⟩).elim)
    refine ⟨hk, ?_⟩
    intro m' hm' ht
    obtain ⟨m, hm, _, h2, h3, _, h4, _⟩ := startLoop_mem _ _ _ m' hm'
    refine ⟨rfl, ?_⟩
    rw [h2, h3]
    rcases h4 with h4 | h4
    · rw [h4] at ht; exact (h.sent m hm ht).2
    · exact ⟨h4.1, h4.2.1⟩
  | stop =>
    have hk := known_stopLoop s.messages [] s.next s.active h.known
    refine ⟨hk, ?_⟩
    intro m' hm' ht
    exact (ht (stopLoop_none _ _ m' hm')).elim
  | enable n =>
    simp only [PState.call]
    rcases updateNamed_eq n (enableMessage s.running) s.messages s.next s.active with
      ⟨h1, _⟩ | ⟨pre, m, post, h1, hn, h2⟩
    · rw [h1]; exact h
    · rw [h2]
      have hk := h.known
      have hsent := h.sent
      have hc : m.periodic = true → s.running = true → ¬ Sending s n :=
        hc m (by rw [h1]; simp) hn
      rw [h1] at hk hsent
      unfold enableMessage
      split
      · rename_i hr
        simp only [Bool.and_eq_true] at hr
        have hnone : m.task = none := by
          cases ht : m.task with
          | none => rfl
          | some t =>
            exact (hc hr.2 hr.1 ⟨t, (h.known.tasks _ _).2 ⟨m, by rw [h1]; simp, ht, hn⟩⟩).elim
        have hk' : Known (pre ++ { m with enabled := true } :: post) s.next s.active :=
          known_same hk rfl rfl
        refine ⟨known_start hk' (fun _ => hnone), ?_⟩
        intro x hx ht
        rcases mem_mid hx with hx | rfl
        · exact hsent x (mem_mid' hx) ht
        · refine ⟨hr.1, ?_⟩
          simp [periodicStart, hr.2]
      · refine ⟨known_same hk rfl rfl, ?_⟩
        intro x hx ht
        rcases mem_mid hx with hx | rfl
        · exact hsent x (mem_mid' hx) ht
        · have := hsent m (by simp) ht
          exact ⟨this.1, rfl, this.2.2⟩
  | disable n =>
    simp only [PState.call]
    rcases updateNamed_eq n (disableMessage s.running) s.messages s.next s.active with
      ⟨h1, _⟩ | ⟨pre, m, post, h1, hn, h2⟩
    · rw [h1]; exact h
    · rw [h2]
      have hk := h.known
      have hsent := h.sent
      rw [h1] at hk hsent
      unfold disableMessage
      split
      · have hk' : Known (pre ++ { m with enabled := false } :: post) s.next s.active :=
          known_same hk rfl rfl
        refine ⟨known_stop hk', ?_⟩
        intro x hx ht
        rcases mem_mid hx with hx | rfl
        · exact hsent x (mem_mid' hx) ht
        · unfold periodicStop at ht
          split at ht <;> simp_all
      · rename_i hr
        refine ⟨known_same hk rfl rfl, ?_⟩
        intro x hx ht
        rcases mem_mid hx with hx | rfl
        · exact hsent x (mem_mid' hx) ht
        · have := hsent m (by simp) ht
          simp [this.1, this.2.2] at hr

theorem good {s : PState} (h : CarefullyUsed s) : Good s := by
  induction h with
  | @new s hf =>
    obtain ⟨h1, h2, h3, h4⟩ := hf
    refine ⟨⟨h1, ?_, by rw [h4]; simp, by rw [h4]; simp⟩, ?_⟩
    · intro t n
      rw [h4]
      simp only [List.not_mem_nil, false_iff, not_exists, not_and]
      intro m hm ht
      rw [(h2 m hm).2] at ht; cases ht
    · intro m hm ht
      exact (ht (h2 m hm).2).elim
  | call c _ hc ih => exact good_call ih hc

end Tester

section
variable {s : PState}

/-- C34, the part that holds: if no message was started while it was already being sent, nothing is
being sent after `stop()`. -/
theorem C34_stop_partial (h : CarefullyUsed s) : (s.call .stop).active = [] := by
  have hg := good_call (good h) (c := .stop) trivial
  apply List.eq_nil_iff_forall_not_mem.2
  rintro ⟨t, n⟩ ha
  obtain ⟨m, hm, ht, _⟩ := (hg.known.tasks t n).1 ha
  have := stopLoop_none _ _ m hm
  rw [this] at ht; cases ht

/-- C34, the part that holds: nothing is sent after `stop()` until `start()` is called again, whatever
is enabled and disabled in between. -/
theorem C34_stopped_partial (h : CarefullyUsed s) {calls : List PCall} (hc : .start ∉ calls) :
    (calls.foldl PState.call (s.call .stop)).active = [] := by
  have key : ∀ (calls : List PCall) (s : PState), .start ∉ calls → s.running = false →
      s.active = [] → (calls.foldl PState.call s).active = [] := by
    intro calls
    induction calls with
    | nil => intro s _ _ ha; exact ha
    | cons c r ih =>
      intro s hc hr ha
      refine ih _ (fun h => hc (List.mem_cons_of_mem _ h)) ?_ ?_
      · cases c with
        | start => exact absurd (List.mem_cons_self ..) hc
        | stop => rfl
        | enable n => exact hr
        | disable n => exact hr
      · cases c with
        | start => exact absurd (List.mem_cons_self ..) hc
        | stop =>
          have : ∀ ms : List PMessage, (stopLoop ms []).2 = [] := by
            intro ms
            induction ms with
            | nil => rfl
            | cons m r ih =>
              have hp : (periodicStop m []).2 = [] := by unfold periodicStop; split <;> rfl
              simp only [stopLoop, hp, ih]
          simp only [PState.call, ha, this]
        | enable n =>
          have hu : ∀ ms : List PMessage, (updateNamed n (enableMessage false) ms s.next []).2.2 = [] := by
            intro ms
            rcases updateNamed_eq n (enableMessage false) ms s.next [] with ⟨h3, -⟩ | ⟨_, _, _, -, -, h4⟩
            · rw [h3]
            · rw [h4]; simp [enableMessage]
          simp only [PState.call, ha, hr, hu]
        | disable n =>
          have hu : ∀ ms : List PMessage, (updateNamed n (disableMessage false) ms s.next []).2.2 = [] := by
            intro ms
            rcases updateNamed_eq n (disableMessage false) ms s.next [] with ⟨h3, -⟩ | ⟨_, _, _, -, -, h4⟩
            · rw [h3]
            · rw [h4]; simp [disableMessage]
          simp only [PState.call, ha, hr, hu]
  exact key calls _ hc rfl (C34_stop_partial h)

/-- C34, the part that holds: every message is sent by at most one task, and only if it is periodic and
enabled and the tester runs. -/
theorem C34_one_task_partial (h : CarefullyUsed s) {n : String} {t : Nat} (ht : (t, n) ∈ s.active) :
    s.running = true ∧ (∃ m ∈ s.messages, m.name = n ∧ m.enabled = true ∧ m.periodic = true) ∧
    (∀ t', (t', n) ∈ s.active → t' = t) ∧ s.active.Nodup := by
  have hg := good h
  obtain ⟨m, hm, h1, h2⟩ := (hg.known.tasks t n).1 ht
  have := hg.sent m hm (by rw [h1]; simp)
  refine ⟨this.1, ⟨m, hm, h2, this.2⟩, ?_, List.Nodup.of_map _ hg.known.distinct⟩
  intro t' ht'
  obtain ⟨m', hm', h1', h2'⟩ := (hg.known.tasks t' n).1 ht'
  have : m' = m := List.inj_on_of_nodup_map hg.known.names hm' hm (h2'.trans h2.symm)
  rw [this, h1] at h1'
  exact (Option.some.inj h1').symm

/-- After `disable(n)` the message is not being sent any more. -/
theorem C34_disable_partial (h : CarefullyUsed s) (n : String) :
    ¬ Sending (s.call (.disable n)) n := by
  have hg := good_call (good h) (c := .disable n) trivial
  rintro ⟨t, ht⟩
  obtain ⟨m, hm, h1, h2⟩ := (hg.known.tasks t n).1 ht
  have hs := hg.sent m hm (by rw [h1]; simp)
  simp only [PState.call] at hm
  rcases updateNamed_eq n (disableMessage s.running) s.messages s.next s.active with
    ⟨h3, h4⟩ | ⟨pre, m0, post, h3, hn, h4⟩
  · rw [h3] at hm; exact h4 m hm h2
  · rw [h4] at hm
    have hnames := (good h).known.names
    rw [h3] at hnames
    rcases mem_mid hm with hm | rfl
    · exact name_ne hnames hm (h2.trans hn.symm)
    · unfold disableMessage at hs
      split at hs
      · unfold periodicStop at hs
        split at hs <;> simp at hs
      · simp at hs

/-- After `start()` every enabled periodic message that the DUT does not send is being sent. -/
theorem C34_start_partial (h : CarefullyUsed s) (hc : Careful s .start) {m : PMessage}
    (hm : m ∈ s.messages) (hp : m.periodic = true) (he : m.enabled = true)
    (hd : m.fromDut = false) : Sending (s.call .start) m.name := by
  have hg := good_call (good h) hc
  have key : ∀ (ms : List PMessage) (next : Nat) (active : List (Nat × String)), m ∈ ms →
      ∃ m' ∈ (startLoop ms next active).1, m'.name = m.name ∧ m'.task ≠ none := by
    intro ms
    induction ms with
    | nil => intro _ _ h; cases h
    | cons x r ih =>
      intro next active hx
      rcases List.mem_cons.1 hx with rfl | hx
      · refine ⟨_, List.mem_cons_self, ?_⟩
        simp [hd, hp, periodicStart, he]
      · unfold startLoop
        obtain ⟨m', h1, h2⟩ := ih _ _ hx
        exact ⟨m', List.mem_cons_of_mem _ h1, h2⟩
  obtain ⟨m', h1, h2, h3⟩ := key s.messages s.next s.active hm
  cases ht : m'.task with
  | none => exact (h3 ht).elim
  | some t => exact ⟨t, (hg.known.tasks _ _).2 ⟨m', h1, ht, h2⟩⟩

/-- A new tester may be started, stopped and used again; a stopped tester can always be started
carefully, and a message that was disabled can always be enabled carefully. -/
theorem C34_careful (h : CarefullyUsed s) :
    Careful (s.call .stop) .start ∧ ∀ n, Careful (s.call (.disable n)) (.enable n) := by
  constructor
  · intro m _ _ _ _ ⟨t, ht⟩
    rw [C34_stop_partial h] at ht; cases ht
  · intro n m _ _ _ _
    exact C34_disable_partial h n

end

/-! ### The claim is false in general -/

namespace Example

def ptester : PState := { messages := [{ name := "M", periodic := true, fromDut := false }] }

example : CarefullyUsed (((ptester.call .start).call (.disable "M")).call (.enable "M")) := by
  have h0 : CarefullyUsed ptester := .new (by
    refine ⟨by simp [ptester], by simp [ptester], rfl, rfl⟩)
  have h1 : CarefullyUsed (ptester.call .start) := .call _ h0 (by
    intro m _ _ _ _ ⟨t, ht⟩; simp [ptester] at ht)
  exact .call _ (.call _ h1 trivial) ((C34_careful h1).2 "M")

example (h1 : CarefullyUsed (ptester.call .start)) :=
  C34_stopped_partial h1 (calls := [.disable "M", .enable "M", .stop, .enable "M"]) (by decide +kernel)

example : (((ptester.call .start).call (.disable "M")).call (.enable "M")).active = [(1, "M")] := by
  decide +kernel

end Example

open Example in
/-- C34 is false in general: starting a running tester starts a second task, and `stop()` stops only
one of them. -/
theorem C34_double_start_leaks :
    ∃ s : PState, PFresh s ∧
      (((s.call .start).call .start).active = [(0, "M"), (1, "M")]) ∧
      (((s.call .start).call .start).call .stop).active = [(0, "M")] := by
  refine ⟨ptester, ⟨by simp [ptester], by simp [ptester], rfl, rfl⟩, ?_, ?_⟩ <;> decide +kernel

open Example in
/-- C34 is false in general: enabling a message that is enabled already has the same effect, and neither
disabling it nor `stop()` ends the first task. -/
theorem C34_double_enable_leaks :
    ∃ s : PState, PFresh s ∧
      ((((s.call .start).call (.enable "M")).call (.disable "M")).call .stop).active = [(0, "M")] := by
  refine ⟨ptester, ⟨by simp [ptester], by simp [ptester], rfl, rfl⟩, ?_⟩; decide +kernel

/-- `enable` starts messages of the DUT, which `start` does not. -/
theorem C34_enable_sends_for_dut :
    ∃ s : PState, PFresh s ∧ (s.call .start).active = [] ∧
      ((s.call .start).call (.enable "M")).active = [(0, "M")] := by
  refine ⟨{ messages := [{ name := "M", periodic := true, fromDut := true }] },
    ⟨by simp, by simp, rfl, rfl⟩, ?_, ?_⟩ <;> decide +kernel

end Cantools
