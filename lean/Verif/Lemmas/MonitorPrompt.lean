import Verif.Lemmas.MonitorRun

/-
The prompt for the filter of the monitor, and what is displayed for containers and for frames that
cannot be decoded.
-/

namespace Cantools.Monitor
open Cantools

section
variable {R : Type} {env : Env R} {s s' : State R}

/-! ### The prompt -/

/-- The prompt of a state. -/
structure Prompted (p : Spec.Prompt) (s : State R) : Prop where
  text : s.filter = p.text
  editing : s.showFilter = p.editing
  cursor : s.showFilter = true → s.cursor = p.before.length ∧ s.oldFilter = some p.saved

theorem filterKey_cursor {l : Spec.Ledger R} (h : Inv env l s) {k : Key}
    (ho : filterKey env s k = .ok s') : ∃ t, editFilter s k = .ok t ∧ s'.filter = t.filter ∧
      s'.showFilter = t.showFilter ∧ s'.oldFilter = t.oldFilter ∧ s'.cursor = t.cursor := by
  unfold filterKey at ho
  simp only [Except.bind_eq_ok, Except.pure_eq_ok] at ho
  obtain ⟨t, h1, s2, h2, rfl⟩ := ho
  obtain ⟨e1, -, -⟩ := editFilter_spec h1
  obtain ⟨c1, c2, c3, -⟩ := h.cleared e1
  have hraw : t.raw = s.raw := c3
  have h2' : (s.raw.map (·.2)).foldlM (again env)
      { compileFilter env t with names := [], signals := [], formatted := [] } = .ok s2 := by
    rw [← hraw]; exact h2
  obtain ⟨-, -, a3, -⟩ := agains_spec (nm := fun _ => []) _ c1 c2 h2'
  obtain ⟨x1, x2, x3, x4, x5, x6, hx⟩ := a3.rest
  refine ⟨t, h1, ?_⟩
  rw [hx]
  exact ⟨rfl, rfl, rfl, rfl⟩

theorem tick_fields {l : Spec.Ledger R} (hi : Inv env l s) {resized : Option Nat} {d : Option Screen}
    (ho : tick env resized s = .ok (s', d)) : s'.filter = s.filter ∧ s'.showFilter = s.showFilter ∧
      s'.oldFilter = s.oldFilter ∧ s'.cursor = s.cursor := by
  unfold tick at ho
  simp only [Except.bind_eq_ok] at ho
  obtain ⟨s1, h1, h2⟩ := ho
  have hg : ∀ q, Good env { s with queue := q } := fun q =>
    ⟨⟨hi.good.core.sorted, hi.good.core.listed, hi.good.core.shown⟩, hi.good.recorded⟩
  obtain ⟨-, t, -, a3, -, a5⟩ := updateMessages_spec _ (hg _) h1
  obtain ⟨x1, x2, x3, x4, x5, x6, hx⟩ := a3.rest
  have hr : s1.filter = s.filter ∧ s1.showFilter = s.showFilter ∧ s1.oldFilter = s.oldFilter ∧
      s1.cursor = s.cursor := by
    rw [a5, hx]; exact ⟨rfl, rfl, rfl, rfl⟩
  generalize (if s.playing = true then s.queue else []) = frames at h2
  split at h2
  · simp only [Except.bind_eq_ok, Except.pure_eq_ok, Prod.mk.injEq] at h2
    obtain ⟨⟨s3, d'⟩, h3, rfl, -⟩ := h2
    obtain ⟨h4, -⟩ := redraw_eq h3
    rw [h4]
    exact hr
  · simp only [Except.pure_eq_ok, Prod.mk.injEq] at h2
    obtain ⟨rfl, -⟩ := h2
    exact hr

theorem editFilter_prompted {p : Spec.Prompt} (h : Prompted p s) (he : s.showFilter = true) {k : Key}
    (ho : editFilter s k = .ok s') : Prompted (p.type k) s' := by
  obtain ⟨hc, hsv⟩ := h.cursor he
  have ht : s.filter = p.before ++ p.after := h.text
  have hpe : p.editing = true := h.editing.symm.trans he
  cases k <;> simp only [editFilter] at ho
  case escape =>
    rw [hsv] at ho
    cases ho
    exact ⟨(List.append_nil _).symm, rfl, fun h => nomatch h⟩
  all_goals simp only [Except.ok.injEq] at ho
  all_goals subst ho
  case enter => exact ⟨ht, rfl, fun h => nomatch h⟩
  case backspace =>
    split
    · rename_i hpos
      refine ⟨?_, h.editing, fun _ => ⟨?_, hsv⟩⟩
      · show s.filter.take (s.cursor - 1) ++ s.filter.drop s.cursor = p.before.dropLast ++ p.after
        rw [ht, hc, List.drop_left, List.take_append_of_le_length (by omega), List.dropLast_eq_take]
      · show s.cursor - 1 = p.before.dropLast.length
        rw [List.length_dropLast, hc]
    · rename_i hpos
      have hb : p.before = [] := List.eq_nil_of_length_eq_zero (by omega)
      refine ⟨?_, h.editing, fun _ => ⟨?_, hsv⟩⟩
      · show s.filter = p.before.dropLast ++ p.after
        rw [ht, hb]; rfl
      · show s.cursor = p.before.dropLast.length
        rw [hc, hb]; rfl
  case delete =>
    split
    · rename_i hlt
      refine ⟨?_, h.editing, fun _ => ⟨hc, hsv⟩⟩
      show s.filter.take s.cursor ++ s.filter.drop (s.cursor + 1) = p.before ++ p.after.tail
      rw [ht, hc, List.take_left, ← List.drop_drop, List.drop_left, List.drop_one]
    · rename_i hlt
      have hb : p.after = [] := List.eq_nil_of_length_eq_zero (by rw [ht, List.length_append] at hlt; omega)
      refine ⟨?_, h.editing, fun _ => ⟨hc, hsv⟩⟩
      show s.filter = p.before ++ p.after.tail
      rw [ht, hb]; rfl
  case left =>
    split
    · rename_i hpos
      have hne : p.before ≠ [] := fun hb => by rw [hb] at hc; simp at hc; omega
      have hl := List.getLast?_eq_some_getLast hne
      have hd := List.dropLast_append_getLast hne
      simp only [Spec.Prompt.type, hl]
      refine ⟨?_, h.editing, fun _ => ⟨?_, hsv⟩⟩
      · show s.filter = p.before.dropLast ++ p.before.getLast hne :: p.after
        rw [ht, ← List.singleton_append, ← List.append_assoc, hd]
      · show s.cursor - 1 = p.before.dropLast.length
        rw [List.length_dropLast, hc]
    · rename_i hpos
      have hb : p.before = [] := List.eq_nil_of_length_eq_zero (by omega)
      simp only [Spec.Prompt.type, hb, List.getLast?_nil]
      exact h
  case right =>
    split
    · rename_i hlt
      cases ha : p.after with
      | nil => rw [ht, ha, List.append_nil] at hlt; omega
      | cons c r =>
        simp only [Spec.Prompt.type, ha]
        refine ⟨?_, h.editing, fun _ => ⟨?_, hsv⟩⟩
        · show s.filter = (p.before ++ [c]) ++ r
          rw [ht, ha]; simp
        · show s.cursor + 1 = (p.before ++ [c]).length
          rw [hc, List.length_append]; rfl
    · rename_i hlt
      have hb : p.after = [] := List.eq_nil_of_length_eq_zero (by rw [ht, List.length_append] at hlt; omega)
      simp only [Spec.Prompt.type, hb]
      exact h
  case char c =>
    refine ⟨?_, h.editing, fun _ => ⟨?_, hsv⟩⟩
    · show s.filter.take s.cursor ++ [c] ++ s.filter.drop s.cursor = (p.before ++ [c]) ++ p.after
      rw [ht, hc, List.drop_left, List.take_left]
    · show s.cursor + 1 = (p.before ++ [c]).length
      rw [hc, List.length_append]; rfl
  all_goals exact ⟨h.text, h.editing, h.cursor⟩

theorem menuKey_prompted {p : Spec.Prompt} (h : Prompted p s) (he : s.showFilter = false) {k : Key}
    (ho : menuKey s k = some s') : Prompted (p.next (.key k : Event R)) s' := by
  have hpe : ¬ p.editing = true := by rw [← h.editing, he]; exact Bool.false_ne_true
  simp only [Spec.Prompt.next, if_neg hpe]
  cases k with
  | char c =>
    simp only [menuKey] at ho
    simp only [Key.char.injEq]
    by_cases hq : c = 'q'
    · rw [if_pos hq] at ho; cases ho
    · rw [if_neg hq] at ho
      by_cases hp : c = 'p'
      · rw [if_pos hp] at ho
        subst hp
        cases ho
        rw [if_neg (by decide), if_neg (by decide)]
        exact ⟨h.text, h.editing, h.cursor⟩
      · rw [if_neg hp] at ho
        by_cases hr : c = 'r'
        · rw [if_pos hr] at ho
          subst hr
          cases ho
          rw [if_neg (by decide), if_pos rfl]
          exact ⟨rfl, he, fun hx => absurd (he.symm.trans hx) Bool.false_ne_true⟩
        · rw [if_neg hr] at ho
          by_cases hf : c = 'f' ∨ c = '/'
          · rw [if_pos hf] at ho ⊢
            cases ho
            refine ⟨?_, rfl, fun _ => ⟨?_, ?_⟩⟩
            · show s.filter = p.text ++ []
              rw [h.text, List.append_nil]
            · show s.filter.length = p.text.length
              rw [h.text]
            · show some s.filter = some p.text
              rw [h.text]
          · rw [if_neg hf] at ho ⊢
            rw [if_neg hr]
            cases ho
            exact h
  | up => cases ho; exact ⟨h.text, h.editing, h.cursor⟩
  | down => cases ho; exact ⟨h.text, h.editing, h.cursor⟩
  | pageUp => cases ho; exact ⟨h.text, h.editing, h.cursor⟩
  | pageDown => cases ho; exact ⟨h.text, h.editing, h.cursor⟩
  | _ => cases ho; exact h

theorem step_prompted {l : Spec.Ledger R} (hi : Inv env l s) {p : Spec.Prompt} (h : Prompted p s)
    {e : Event R} {d : Option Screen} (ho : step env s e = .ok (some (s', d))) :
    Prompted (p.next e) s' := by
  cases e with
  | frame r => cases ho; exact ⟨h.text, h.editing, h.cursor⟩
  | tick resized =>
    simp only [step, Except.map_eq_ok, Option.some.injEq] at ho
    obtain ⟨q, h1, rfl⟩ := ho
    obtain ⟨a, b, c, e⟩ := tick_fields hi h1
    exact ⟨a.trans h.text, b.trans h.editing, fun hx => by
      rw [e, c]; exact h.cursor (b ▸ hx)⟩
  | key k =>
    simp only [step] at ho
    split at ho
    · rename_i he
      simp only [Except.map_eq_ok, Option.some.injEq, Prod.mk.injEq] at ho
      obtain ⟨q, h1, rfl, -⟩ := ho
      obtain ⟨t, h2, a, b, c, e⟩ := filterKey_cursor hi h1
      have ht := editFilter_prompted h he h2
      have hpe : p.editing = true := h.editing.symm.trans he
      simp only [Spec.Prompt.next, if_pos hpe]
      exact ⟨a.trans ht.text, b.trans ht.editing, fun hx => by rw [e, c]; exact ht.cursor (b ▸ hx)⟩
    · rename_i he
      simp only [Except.ok.injEq, Option.map_eq_some_iff, Prod.mk.injEq] at ho
      obtain ⟨q, h1, rfl, -⟩ := ho
      exact menuKey_prompted h (by simpa using he) h1

theorem steps_prompted {es : List (Event R)} (hs : Spec.MonitorSteps env s es s') :
    ∀ {l : Spec.Ledger R}, Inv env l s → ∀ {p : Spec.Prompt}, Prompted p s →
      Prompted (es.foldl Spec.Prompt.next p) s' := by
  induction hs with
  | nil s => intro l _ p h; exact h
  | cons h1 _ ih => intro l hi p h; exact ih (hi.step h1) (step_prompted hi h h1)

/-! ### Containers and frames that cannot be decoded -/

/-- What a part of a container changes. -/
theorem updatePart_lines {t : Rat} {p : Part} (h : Good env s) (ho : updatePart env t s p = .ok s') :
    ∃ items pad, Spec.ShowsPart items p ∧ s'.formatted = dictSet s.formatted (Spec.partName p)
      (formatLines env t (Spec.partName p) items ++ List.replicate pad "") := by
  cases p with
  | undecoded n text =>
    cases ho
    obtain ⟨ns, fs, h1, -⟩ := updateFormatted_spec h.core.sorted n
      (formatLines env t n ["undecoded: " ++ text]) false
    rw [h1]
    exact ⟨_, _, rfl, rfl⟩
  | decoded n sigs =>
    simp only [updatePart, updateDecoded, Except.bind_eq_ok, Except.pure_eq_ok] at ho
    obtain ⟨⟨s1, shown⟩, h1, h2⟩ := ho
    obtain ⟨ns, sg, fs, e1, e2, -⟩ := filterSignals_spec h.core h1
    simp only at h2
    subst h2
    obtain ⟨ns', fs', h3, -⟩ := updateFormatted_spec e2.sorted n
      (formatLines env t n (shown.map (·.2))) false
    rw [h3]
    have hsub : shown.Sublist sigs := by
      unfold filterSignals at h1
      simp only [Except.bind_eq_ok, Except.pure_eq_ok] at h1
      obtain ⟨l, -, h4⟩ := h1
      cases h4
      exact List.filter_sublist
    have hm : (shown.map fun x : String × String => x.2).Sublist (sigs.map fun x => x.2) := hsub.map _
    exact ⟨_, _, hm, by rw [e1]; rfl⟩

theorem updateParts_other {t : Rat} {n : String} (ps : List Part) (h : Good env s)
    (hn : ∀ p ∈ ps, Spec.partName p ≠ n) (ho : ps.foldlM (updatePart env t) s = .ok s') :
    dictGet? s'.formatted n = dictGet? s.formatted n := by
  induction ps generalizing s with
  | nil => cases ho; rfl
  | cons p r ih =>
    rw [List.foldlM_cons] at ho
    simp only [Except.bind_eq_ok] at ho
    obtain ⟨s1, h1, h2⟩ := ho
    obtain ⟨items, pad, -, h3⟩ := updatePart_lines h h1
    rw [ih (updatePart_spec h h1).1 (fun q hq => hn q (List.mem_cons_of_mem _ hq)) h2, h3, dictGet?_set,
      if_neg (hn p (List.mem_cons_self ..))]

theorem updateParts_last {t : Rat} {ps a b : List Part} {p : Part} (h : Good env s)
    (hps : ps = a ++ p :: b) (hn : ∀ q ∈ b, Spec.partName q ≠ Spec.partName p)
    (ho : ps.foldlM (updatePart env t) s = .ok s') :
    ∃ items pad, Spec.ShowsPart items p ∧ dictGet? s'.formatted (Spec.partName p) =
      some (formatLines env t (Spec.partName p) items ++ List.replicate pad "") := by
  subst hps
  rw [List.foldlM_append] at ho
  simp only [Except.bind_eq_ok, List.foldlM_cons] at ho
  obtain ⟨s1, h1, s2, h2, h3⟩ := ho
  have g1 := (updateParts_spec a h h1).1
  obtain ⟨items, pad, h4, h5⟩ := updatePart_lines g1 h2
  refine ⟨items, pad, h4, ?_⟩
  rw [updateParts_other b (updatePart_spec g1 h2).1 hn h3, h5, dictGet?_set, if_pos rfl]

theorem updateMessages_append {frames : List R} {r : R} (h : Good env s)
    (ho : updateMessages env (frames ++ [r]) s = .ok s') :
    ∃ t u, Good env t ∧ tryUpdateMessage env t r = .ok (u, env.interpret r) ∧
      s' = count u (env.interpret r) := by
  unfold updateMessages at ho
  rw [List.foldlM_append] at ho
  simp only [Except.bind_eq_ok, List.foldlM_cons, List.foldlM_nil, Except.pure_eq_ok] at ho
  obtain ⟨t, h1, s1, ⟨⟨u, o⟩, h2, h3⟩, h4⟩ := ho
  subst h4
  obtain ⟨-, t', g, -, -, e⟩ := updateMessages_spec frames h h1
  have gt : Good env t := by rw [e]; exact g.counters _ _ _
  obtain ⟨-, -, -, ho, -⟩ := tryUpdateMessage_spec gt h2
  subst ho
  exact ⟨t, u, gt, h2, h3.symm⟩

theorem count_fields (s : State R) (o : Outcome) : (count s o).formatted = s.formatted ∧
    (count s o).names = s.names ∧ (count s o).basetime = s.basetime := by
  cases o <;> exact ⟨rfl, rfl, rfl⟩

/-- The last frame of a tick is handled last. -/
theorem tick_last {l : Spec.Ledger R} (hi : Inv env l s) {frames : List R} {r : R}
    (hp : s.playing = true) (hq : s.queue = frames ++ [r]) {resized : Option Nat} {d : Option Screen}
    (ho : tick env resized s = .ok (s', d)) :
    ∃ t u, Good env t ∧ tryUpdateMessage env t r = .ok (u, env.interpret r) ∧
      s'.formatted = u.formatted ∧ s'.names = u.names ∧ s'.basetime = u.basetime := by
  unfold tick at ho
  simp only [Except.bind_eq_ok] at ho
  obtain ⟨s1, h1, h2⟩ := ho
  have hg : ∀ q, Good env { s with queue := q } := fun q =>
    ⟨⟨hi.good.core.sorted, hi.good.core.listed, hi.good.core.shown⟩, hi.good.recorded⟩
  rw [if_pos hp, hq] at h1
  obtain ⟨t, u, g, a, b⟩ := updateMessages_append (hg _) h1
  obtain ⟨c1, c2, c3⟩ := count_fields u (env.interpret r)
  refine ⟨t, u, g, a, ?_⟩
  rw [← b] at c1 c2 c3
  rw [← c1, ← c2, ← c3]
  generalize (if s.playing = true then s.queue else []) = frames at h2
  split at h2
  · simp only [Except.bind_eq_ok, Except.pure_eq_ok, Prod.mk.injEq] at h2
    obtain ⟨⟨s3, d'⟩, h3, rfl, -⟩ := h2
    obtain ⟨h4, -⟩ := redraw_eq h3
    rw [h4]
    exact ⟨rfl, rfl, rfl⟩
  · simp only [Except.pure_eq_ok, Prod.mk.injEq] at h2
    obtain ⟨rfl, -⟩ := h2
    exact ⟨rfl, rfl, rfl⟩

theorem tryUpdateMessage_container {r : R} {n : String} {c : List String} {ps : List Part} {o : Outcome}
    (h : Good env s) (hr : env.interpret r = .container n c ps)
    (ho : tryUpdateMessage env s r = .ok (s', o)) :
    ∃ base, s'.basetime = some base ∧
      ((∀ p ∈ ps, Spec.partName p ≠ n) → ∃ pad, dictGet? s'.formatted n =
        some (formatLines env (env.timestamp r - base) n c ++ List.replicate pad "")) ∧
      ∀ a p b, ps = a ++ p :: b → (∀ q ∈ b, Spec.partName q ≠ Spec.partName p) →
        ∃ items pad, Spec.ShowsPart items p ∧ dictGet? s'.formatted (Spec.partName p) =
          some (formatLines env (env.timestamp r - base) (Spec.partName p) items ++
            List.replicate pad "") := by
  obtain ⟨-, g, -⟩ := tryUpdateMessage_spec h ho
  obtain ⟨x1, x2, x3, x4, x5, x6, hx⟩ := g.rest
  have h0 := h.based (some (s.basetime.getD (env.timestamp r)))
  refine ⟨s.basetime.getD (env.timestamp r), by rw [hx], ?_⟩
  unfold tryUpdateMessage at ho
  simp only [Except.bind_eq_ok, Except.pure_eq_ok, Prod.mk.injEq, hr] at ho
  obtain ⟨s1, ⟨s2, h2, rfl⟩, rfl, -⟩ := ho
  obtain ⟨a0, -⟩ := container_good h0 hr (formatLines env
    (env.timestamp r - s.basetime.getD (env.timestamp r)) n c)
  constructor
  · intro hn
    show ∃ pad, dictGet? s2.formatted n = _
    rw [updateParts_other ps a0 hn h2]
    obtain ⟨ns, fs, h3, -⟩ := updateFormatted_spec (s := { s with
        basetime := some (s.basetime.getD (env.timestamp r)), signals := dictSet s.signals n c })
      h.core.sorted n (formatLines env (env.timestamp r - s.basetime.getD (env.timestamp r)) n c) false
    rw [h3]
    exact ⟨_, (dictGet?_set ..).trans (if_pos rfl)⟩
  · intro a p b hps hn
    have := updateParts_last a0 hps hn h2
    exact this

theorem tryUpdateMessage_undecodable {r : R} {n e : String} {o : Outcome}
    (h : Good env s) (hr : env.interpret r = .undecodable n e)
    (ho : tryUpdateMessage env s r = .ok (s', o)) :
    ∃ base, s'.basetime = some base ∧ n ∈ s'.names ∧ ∃ pad, dictGet? s'.formatted n =
      some (formatLines env (env.timestamp r - base) n ["undecoded, " ++ e ++ ": 0x" ++ env.hex r] true ++
        List.replicate pad "") := by
  obtain ⟨-, g, -⟩ := tryUpdateMessage_spec h ho
  obtain ⟨x1, x2, x3, x4, x5, x6, hx⟩ := g.rest
  refine ⟨s.basetime.getD (env.timestamp r), by rw [hx], ?_⟩
  unfold tryUpdateMessage at ho
  simp only [Except.bind_eq_ok, Except.pure_eq_ok, Prod.mk.injEq, hr, Except.ok.injEq] at ho
  obtain ⟨s1, rfl, rfl, -⟩ := ho
  obtain ⟨ns, fs, h3, -, h5, -⟩ := updateFormatted_spec (s := { s with
      basetime := some (s.basetime.getD (env.timestamp r)) })
    h.core.sorted n (formatLines env (env.timestamp r - s.basetime.getD (env.timestamp r)) n
      ["undecoded, " ++ e ++ ": 0x" ++ env.hex r] true) true
  rw [h3]
  refine ⟨?_, _, (dictGet?_set ..).trans (if_pos rfl)⟩
  · show n ∈ ns
    refine (h5 n).2 (.inr ⟨rfl, .inl ?_⟩)
    unfold newErrors
    rw [if_pos rfl]
    split
    · assumption
    · simp

end

end Cantools.Monitor
