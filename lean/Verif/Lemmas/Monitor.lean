import Verif.Spec.Monitor
import Verif.Lemmas.Basic
import Mathlib.Data.List.InsertIdx

/-
Lemmas about the monitor.
-/

namespace Cantools.Monitor
open Cantools Spec

set_option linter.unusedSimpArgs false

/-! ### Sorted lists -/

theorem getD_of_lt {a : List String} {i : Nat} {d : String} (h : i < a.length) : a.getD i d = a[i] := by
  simp [List.getD, h]

theorem bisectRight_spec {a : List String} (ha : a.Pairwise (· < ·)) {x : String} (hx : x ∉ a) :
    ∀ lo hi, lo ≤ hi → hi ≤ a.length →
      (∀ i, (h : i < a.length) → i < lo → a[i] < x) →
      (∀ i, (h : i < a.length) → hi ≤ i → x < a[i]) →
      bisectRight a x lo hi ≤ a.length ∧
      (∀ i, (h : i < a.length) → i < bisectRight a x lo hi → a[i] < x) ∧
      (∀ i, (h : i < a.length) → bisectRight a x lo hi ≤ i → x < a[i]) := by
  intro lo hi
  induction lo, hi using bisectRight.induct a x with
  | case1 lo hi h mid hlt ih =>
    intro _ h2 h3 h4
    rw [bisectRight, dif_pos h]
    simp only [show x < a.getD ((lo + hi) / 2) "" from hlt, if_true]
    have hm : mid < a.length := by omega
    apply ih (by omega) (by omega) h3
    intro i hi' hle
    have hlt' : x < a[mid] := by rwa [getD_of_lt hm] at hlt
    rcases Nat.lt_or_eq_of_le hle with h5 | h5
    · exact String.lt_trans hlt' (List.pairwise_iff_getElem.1 ha mid i hm hi' h5)
    · subst h5; exact hlt'
  | case2 lo hi h mid hlt ih =>
    intro _ h2 h3 h4
    rw [bisectRight, dif_pos h]
    simp only [show ¬ x < a.getD ((lo + hi) / 2) "" from hlt, if_false]
    have hm : mid < a.length := by omega
    apply ih (by omega) (by omega) _ h4
    intro i hi' hle
    have hlt' : a[mid] < x := by
      have h5 : ¬ x < a[mid] := by rwa [getD_of_lt hm] at hlt
      have h6 : a[mid] ≠ x := fun h => hx (h ▸ List.getElem_mem hm)
      exact Decidable.byContradiction fun h7 => h6 (String.le_antisymm (String.not_lt.1 h5) (String.not_lt.1 h7))
    rcases Nat.lt_or_eq_of_le (Nat.le_of_lt_succ hle) with h5 | h5
    · exact String.lt_trans (List.pairwise_iff_getElem.1 ha i mid hi' hm h5) hlt'
    · subst h5; exact hlt'
  | case3 lo hi h =>
    intro h1 h2 h3 h4
    rw [bisectRight]
    simp only [h, dif_neg, not_false_eq_true]
    exact ⟨by omega, fun i hi' hl => h3 i hi' hl, fun i hi' hl => h4 i hi' (by omega)⟩

theorem mem_insort {a : List String} (ha : a.Pairwise (· < ·)) {x : String} (hx : x ∉ a)
    (n : String) : n ∈ insort a x ↔ n = x ∨ n ∈ a := by
  have h := (bisectRight_spec ha hx 0 a.length (by omega) (by omega) (by omega)
    (fun i h h' => by omega)).1
  unfold insort
  rw [List.mem_insertIdx h]

theorem insort_sorted {a : List String} (ha : a.Pairwise (· < ·)) {x : String} (hx : x ∉ a) :
    (insort a x).Pairwise (· < ·) := by
  obtain ⟨h1, h2, h3⟩ := bisectRight_spec ha hx 0 a.length (by omega) (by omega) (by omega)
    (fun i h h' => by omega)
  unfold insort
  generalize bisectRight a x 0 a.length = p at h1 h2 h3
  have hlen := List.length_insertIdx_of_le_length h1 x
  rw [List.pairwise_iff_getElem]
  intro i j hi hj hij
  rw [List.getElem_insertIdx, List.getElem_insertIdx]
  have hs := List.pairwise_iff_getElem.1 ha
  rw [hlen] at hi hj
  split
  · split
    · exact hs i j (by omega) (by omega) hij
    · split
      · exact h2 i (by omega) (by omega)
      · exact hs i (j - 1) (by omega) (by omega) (by omega)
  · split
    · split
      · omega
      · split
        · omega
        · exact h3 (j - 1) (by omega) (by omega)
    · split
      · omega
      · split
        · omega
        · exact hs (i - 1) (j - 1) (by omega) (by omega) (by omega)

/-! ### Filtering and displaying -/

section
variable {R : Type} {s s' : State R} {n : String}

/-- The message has no known signals, or the filter leaves some. -/
def Matches (s : State R) (n : String) : Prop :=
  ∀ all, dictGet? s.signals n = some all → signalsMatchingFilter s.compiled n all ≠ []

theorem insortFiltered_spec (hs : s.names.Pairwise (· < ·)) (n : String) :
    ∃ ns fs, insortFiltered s n = { s with names := ns, filteredSignals := fs } ∧
      ns.Pairwise (· < ·) ∧
      (∀ m, m ∈ ns ↔ m ∈ s.names ∨ (m = n ∧ (n ∈ s.withError ∨ Matches s n))) ∧
      ∀ m, (dictGet? s.filteredSignals m).isSome = true → (dictGet? fs m).isSome = true := by
  unfold insortFiltered
  split
  · rename_i h
    refine ⟨s.names, s.filteredSignals, rfl, hs, fun m => ⟨.inl, ?_⟩, fun m h => h⟩
    rintro (h1 | ⟨rfl, -⟩)
    · exact h1
    · exact h
  · rename_i h
    split
    · rename_i he
      refine ⟨_, s.filteredSignals, rfl, insort_sorted hs h, fun m => ?_, fun m h => h⟩
      rw [mem_insort hs h]
      constructor
      · rintro (rfl | h1)
        · exact .inr ⟨rfl, .inl he⟩
        · exact .inl h1
      · rintro (h1 | ⟨rfl, -⟩)
        · exact .inr h1
        · exact .inl rfl
    · rename_i he
      unfold messageMatchesFilter
      cases hg : dictGet? s.signals n with
      | none =>
        refine ⟨_, s.filteredSignals, rfl, insort_sorted hs h, fun m => ?_, fun m h => h⟩
        rw [mem_insort hs h]
        constructor
        · rintro (rfl | h1)
          · exact .inr ⟨rfl, .inr fun all hall => by rw [hg] at hall; cases hall⟩
          · exact .inl h1
        · rintro (h1 | ⟨rfl, -⟩)
          · exact .inr h1
          · exact .inl rfl
      | some all =>
        simp only
        split
        · rename_i hm
          refine ⟨s.names, s.filteredSignals, by simp, hs, fun m => ⟨.inl, ?_⟩, fun m h => h⟩
          rintro (h1 | ⟨rfl, h1 | h1⟩)
          · exact h1
          · exact absurd h1 he
          · exact absurd hm (h1 all hg)
        · rename_i hm
          refine ⟨_, _, rfl, insort_sorted hs h, fun m => ?_, fun m h => ?_⟩
          · rw [mem_insort hs h]
            constructor
            · rintro (rfl | h1)
              · refine .inr ⟨rfl, .inr fun all' hall => ?_⟩
                rw [hg] at hall; cases hall; exact hm
              · exact .inl h1
            · rintro (h1 | ⟨rfl, -⟩)
              · exact .inr h1
              · exact .inl rfl
          · rw [dictGet?_set]
            split
            · rfl
            · exact h

/-- What holds of the list of displayed names; `x` is a name for which it may fail at the moment. -/
structure WeakCore (s : State R) (x : String → Prop) : Prop where
  sorted : s.names.Pairwise (· < ·)
  listed : ∀ m ∈ s.names, x m ∨ m ∈ s.formatted.map (·.1)
  shown : ∀ m ∈ s.formatted.map (·.1), ¬ x m → (m ∈ s.withError ∨ Matches s m) → m ∈ s.names

abbrev Core (s : State R) : Prop := WeakCore s fun _ => False

theorem Core.weak (h : Core s) (x : String → Prop) : WeakCore s x :=
  ⟨h.sorted, fun m hm => .inr ((h.listed m hm).resolve_left id), fun m hm _ => h.shown m hm id⟩

theorem mem_keys_dictSet {α : Type} (d : List (String × α)) (k m : String) (v : α) :
    m ∈ (dictSet d k v).map (·.1) ↔ m = k ∨ m ∈ d.map (·.1) := by
  rw [dictSet_keys]
  split
  · rename_i h
    constructor
    · exact .inr
    · rintro (rfl | h1)
      · exact h
      · exact h1
  · simp [or_comm]

/-- The new lines of a message. -/
def newLines (s : State R) (n : String) (f : List String) : List String :=
  f ++ List.replicate (((dictGet? s.formatted n).getD []).length - f.length) ""

/-- The new set of messages with an error. -/
def newErrors (s : State R) (n : String) (e : Bool) : List String :=
  if e then (if n ∈ s.withError then s.withError else s.withError ++ [n])
  else s.withError.filter (· ≠ n)

theorem mem_newErrors {e : Bool} {m : String} (h : m ≠ n) :
    m ∈ newErrors s n e ↔ m ∈ s.withError := by
  unfold newErrors
  split
  · split
    · rfl
    · simp [h]
  · simp [h]

theorem updateFormatted_spec (hs : s.names.Pairwise (· < ·)) (n : String) (f : List String)
    (e : Bool) :
    ∃ ns fs, updateFormatted s n f e =
        { s with formatted := dictSet s.formatted n (newLines s n f), withError := newErrors s n e
                 names := ns, filteredSignals := fs } ∧
      ns.Pairwise (· < ·) ∧
      (∀ m, m ∈ ns ↔ m ∈ s.names ∨ (m = n ∧ (n ∈ newErrors s n e ∨ Matches s n))) ∧
      ∀ m, (dictGet? s.filteredSignals m).isSome = true → (dictGet? fs m).isSome = true := by
  unfold updateFormatted
  exact insortFiltered_spec (s := { s with
    formatted := dictSet s.formatted n (newLines s n f), withError := newErrors s n e }) hs n

theorem updateFormatted_core (h : WeakCore s (· = n)) (f : List String) (e : Bool) :
    Core (updateFormatted s n f e) := by
  obtain ⟨ns, fs, h1, h2, h3, -⟩ := updateFormatted_spec h.sorted n f e
  rw [h1]
  refine ⟨h2, ?_, ?_⟩
  · intro m hm
    right
    show m ∈ (dictSet s.formatted n _).map (·.1)
    rw [mem_keys_dictSet]
    rcases (h3 m).1 hm with h4 | ⟨rfl, -⟩
    · exact h.listed m h4
    · exact .inl rfl
  · intro m hm _ hd
    show m ∈ ns
    rw [h3]
    by_cases hmn : m = n
    · subst hmn
      exact .inr ⟨rfl, hd⟩
    · have hm' : m ∈ (dictSet s.formatted n (newLines s n f)).map (·.1) := hm
      rw [mem_keys_dictSet] at hm'
      refine .inl (h.shown m (hm'.resolve_left hmn) hmn ?_)
      rcases hd with hd | hd
      · exact .inl ((mem_newErrors hmn).1 hd)
      · exact .inr hd

/-! ### Decoded messages -/

/-- The signals of all messages except containers are recorded in both tables. -/
def Recorded (env : Env R) (s : State R) : Prop :=
  ∀ n, (dictGet? s.signals n).isSome = true → (dictGet? s.filteredSignals n).isSome = true ∨
    ∃ r c ps, env.interpret r = .container n c ps

theorem filterSignals_spec (h : Core s) {sigs : List (String × String)} {shown : List (String × String)}
    (ho : filterSignals s n sigs = .ok (s', shown)) :
    ∃ ns sg fs, s' = { s with names := ns, signals := sg, filteredSignals := fs } ∧
      WeakCore s' (· = n) ∧
      (∀ m, m ∈ ns → m ∈ s.names ∨ (m = n ∧ (n ∈ s.withError ∨ Matches s' n))) ∧
      (∀ m ∈ s.names, m ∈ ns) ∧
      (sg = s.signals ∧ (dictGet? s.signals n).isSome = true ∨
        sg = dictSet s.signals n (sigs.map (·.1)) ∧ dictGet? s.signals n = none) ∧
      (dictGet? fs n).isSome = true ∧
      ∀ m, (dictGet? s.filteredSignals m).isSome = true → (dictGet? fs m).isSome = true := by
  unfold filterSignals at ho
  simp only [Except.bind_eq_ok, Except.pure_eq_ok, dictGet_eq_ok] at ho
  obtain ⟨l, h1, h2⟩ := ho
  split at h1
  · rename_i hsome
    rw [if_pos hsome] at h2
    cases h2
    exact ⟨s.names, s.signals, s.filteredSignals, rfl, h.weak _, fun m hm => .inl hm,
      fun m hm => hm, .inl ⟨rfl, hsome⟩, by rw [h1]; rfl, fun m hm => hm⟩
  · rename_i hnone
    rw [if_neg hnone] at h2
    have hnone' : dictGet? s.signals n = none := by
      cases hg : dictGet? s.signals n with
      | none => rfl
      | some a => rw [hg] at hnone; exact absurd rfl hnone
    obtain ⟨ns, fs, e1, e2, e3, e4⟩ := insortFiltered_spec (s := { s with
      signals := dictSet s.signals n (sigs.map (·.1))
      filteredSignals := dictSet s.filteredSignals n (sigs.map (·.1)) }) h.sorted n
    rw [e1] at h1 h2
    cases h2
    refine ⟨ns, _, fs, rfl, ⟨e2, ?_, ?_⟩, ?_, ?_, .inr ⟨rfl, hnone'⟩, by rw [h1]; rfl, ?_⟩
    · intro m hm
      rcases (e3 m).1 hm with h4 | ⟨rfl, -⟩
      · exact .inr ((h.listed m h4).resolve_left id)
      · exact .inl rfl
    · intro m hm hmn hd
      refine (e3 m).2 (.inl (h.shown m hm id ?_))
      rcases hd with hd | hd
      · exact .inl hd
      · refine .inr fun all hall => hd all ?_
        show dictGet? (dictSet s.signals n _) m = _
        rw [dictGet?_set, if_neg (Ne.symm hmn)]
        exact hall
    · intro m hm
      exact (e3 m).1 hm
    · intro m hm
      exact (e3 m).2 (.inl hm)
    · intro m hm
      apply e4
      show (dictGet? (dictSet s.filteredSignals n _) m).isSome = true
      rw [dictGet?_set]
      split
      · rfl
      · exact hm

theorem filterSignals_ok {env : Env R} (hr : Recorded env s) (hs : s.names.Pairwise (· < ·))
    (hn : ∀ r c ps, env.interpret r ≠ .container n c ps) (sigs : List (String × String)) :
    ∃ s' shown, filterSignals s n sigs = .ok (s', shown) := by
  unfold filterSignals
  by_cases hsome : (dictGet? s.signals n).isSome = true
  · simp only [hsome, if_true]
    rcases hr n hsome with h | ⟨r, c, ps, h⟩
    · obtain ⟨l, hl⟩ := Option.isSome_iff_exists.1 h
      rw [dictGet_eq_ok.2 hl]
      exact ⟨_, _, rfl⟩
    · exact absurd h (hn r c ps)
  · simp only [hsome, if_false]
    obtain ⟨ns, fs, e1, e2, e3, e4⟩ := insortFiltered_spec (s := { s with
      signals := dictSet s.signals n (sigs.map (·.1))
      filteredSignals := dictSet s.filteredSignals n (sigs.map (·.1)) }) hs n
    have := e4 n (by
      show (dictGet? (dictSet s.filteredSignals n _) n).isSome = true
      rw [dictGet?_set, if_pos rfl]; rfl)
    obtain ⟨l, hl⟩ := Option.isSome_iff_exists.1 this
    simp only [e1, Bool.false_eq_true, if_false]
    rw [dictGet_eq_ok.2 hl]
    exact ⟨_, _, rfl⟩

/-- The second state differs from the first in the tables of messages only; no message loses a line
and no displayed message vanishes. -/
structure Grow (s s' : State R) : Prop where
  rest : ∃ ns fm rw sg fs we, s' =
    { s with
      names := ns, formatted := fm, raw := rw, signals := sg
      filteredSignals := fs, withError := we }
  lines : ∀ m l, dictGet? s.formatted m = some l →
    ∃ l', dictGet? s'.formatted m = some l' ∧ l.length ≤ l'.length
  names : ∀ m ∈ s.names, m ∈ s'.names

theorem Grow.refl (s : State R) : Grow s s :=
  ⟨⟨_, _, _, _, _, _, rfl⟩, fun _ l h => ⟨l, h, Nat.le_refl _⟩, fun _ h => h⟩

theorem Grow.trans {s₁ s₂ s₃ : State R} (h : Grow s₁ s₂) (h' : Grow s₂ s₃) : Grow s₁ s₃ := by
  refine ⟨?_, ?_, fun m hm => h'.names m (h.names m hm)⟩
  · obtain ⟨a, b, c, d, e, f, h1⟩ := h.rest
    obtain ⟨a', b', c', d', e', f', h2⟩ := h'.rest
    rw [h1] at h2
    exact ⟨_, _, _, _, _, _, h2⟩
  · intro m l hl
    obtain ⟨l', h1, h2⟩ := h.lines m l hl
    obtain ⟨l'', h3, h4⟩ := h'.lines m l' h1
    exact ⟨l'', h3, Nat.le_trans h2 h4⟩

theorem updateFormatted_grow (hs : s.names.Pairwise (· < ·)) (n : String) (f : List String) (e : Bool) :
    Grow s (updateFormatted s n f e) := by
  obtain ⟨ns, fs, h1, h2, h3, h4⟩ := updateFormatted_spec hs n f e
  rw [h1]
  refine ⟨⟨_, _, _, _, _, _, rfl⟩, ?_, fun m hm => (h3 m).2 (.inl hm)⟩
  intro m l hl
  show ∃ l', dictGet? (dictSet s.formatted n _) m = some l' ∧ _
  rw [dictGet?_set]
  split
  · rename_i h
    subst h
    refine ⟨_, rfl, ?_⟩
    unfold newLines
    rw [hl]
    simp
    omega
  · exact ⟨l, hl, Nat.le_refl _⟩

theorem updateFormatted_recorded {env : Env R} (h : Recorded env s) (hs : s.names.Pairwise (· < ·))
    (n : String) (f : List String) (e : Bool) : Recorded env (updateFormatted s n f e) := by
  obtain ⟨ns, fs, h1, h2, h3, h4⟩ := updateFormatted_spec hs n f e
  rw [h1]
  intro m hm
  rcases h m hm with h5 | h5
  · exact .inl (h4 m h5)
  · exact .inr h5

theorem updateFormatted_raw (hs : s.names.Pairwise (· < ·)) (n : String) (f : List String) (e : Bool) :
    (updateFormatted s n f e).raw = s.raw ∧ (updateFormatted s n f e).signals = s.signals := by
  obtain ⟨ns, fs, h1, -⟩ := updateFormatted_spec hs n f e
  rw [h1]
  exact ⟨rfl, rfl⟩

theorem updateFormatted_listed (hs : s.names.Pairwise (· < ·)) (n : String) (f : List String) (e : Bool) :
    (dictGet? (updateFormatted s n f e).formatted n).isSome = true := by
  obtain ⟨ns, fs, h1, -⟩ := updateFormatted_spec hs n f e
  rw [h1]
  show (dictGet? (dictSet s.formatted n _) n).isSome = true
  rw [dictGet?_set, if_pos rfl]
  rfl

/-- What holds between the handling of two frames. -/
structure Good (env : Env R) (s : State R) : Prop where
  core : Core s
  recorded : Recorded env s

theorem updateDecoded_spec {env : Env R} {t : Rat} {sigs : List (String × String)} (h : Good env s)
    (ho : updateDecoded env s t n sigs = .ok s') :
    Good env s' ∧ Grow s s' ∧ s'.raw = s.raw ∧ (dictGet? s'.formatted n).isSome = true := by
  unfold updateDecoded at ho
  simp only [Except.bind_eq_ok, Except.pure_eq_ok] at ho
  obtain ⟨⟨s1, shown⟩, h1, h2⟩ := ho
  simp only at h2
  obtain ⟨ns, sg, fs, e1, e2, e3, e4, e5, e6, e7⟩ := filterSignals_spec h.core h1
  subst h2
  have hs1 := e2.sorted
  have hrec : Recorded env s1 := by
    intro m hm
    by_cases hmn : m = n
    · subst hmn
      left; rw [e1]; exact e6
    · have : dictGet? s1.signals m = dictGet? s.signals m := by
        rw [e1]
        rcases e5 with ⟨e5, -⟩ | ⟨e5, -⟩
        · exact congrArg (fun x => dictGet? x m) e5
        · show dictGet? sg m = _
          rw [e5, dictGet?_set, if_neg (Ne.symm hmn)]
      rw [this] at hm
      rcases h.recorded m hm with h5 | h5
      · left; rw [e1]; exact e7 m h5
      · exact .inr h5
  refine ⟨⟨updateFormatted_core e2 _ _, updateFormatted_recorded hrec hs1 _ _ _⟩, ?_, ?_, updateFormatted_listed hs1 _ _ _⟩
  · refine Grow.trans ?_ (updateFormatted_grow hs1 _ _ _)
    rw [e1]
    exact ⟨⟨_, _, _, _, _, _, rfl⟩, fun _ l h => ⟨l, h, Nat.le_refl _⟩, e4⟩
  · rw [(updateFormatted_raw hs1 _ _ _).1, e1]

theorem updateDecoded_ok {env : Env R} {t : Rat} {sigs : List (String × String)} (h : Good env s)
    (hn : ∀ r c ps, env.interpret r ≠ .container n c ps) :
    ∃ s', updateDecoded env s t n sigs = .ok s' := by
  obtain ⟨s1, shown, h1⟩ := filterSignals_ok h.recorded h.core.sorted hn sigs
  unfold updateDecoded
  rw [h1]
  exact ⟨_, rfl⟩

theorem updatePart_spec {env : Env R} {t : Rat} {p : Part} (h : Good env s)
    (ho : updatePart env t s p = .ok s') : Good env s' ∧ Grow s s' ∧ s'.raw = s.raw := by
  cases p with
  | decoded n sigs =>
    obtain ⟨a, b, c, -⟩ := updateDecoded_spec h ho
    exact ⟨a, b, c⟩
  | undecoded n text =>
    cases ho
    exact ⟨⟨updateFormatted_core (h.core.weak _) _ _, updateFormatted_recorded h.recorded h.core.sorted _ _ _⟩,
      updateFormatted_grow h.core.sorted _ _ _, (updateFormatted_raw h.core.sorted _ _ _).1⟩

theorem updateParts_spec {env : Env R} {t : Rat} (ps : List Part) (h : Good env s)
    (ho : ps.foldlM (updatePart env t) s = .ok s') :
    Good env s' ∧ Grow s s' ∧ s'.raw = s.raw := by
  induction ps generalizing s with
  | nil => cases ho; exact ⟨h, .refl _, rfl⟩
  | cons p r ih =>
    rw [List.foldlM_cons] at ho
    simp only [Except.bind_eq_ok] at ho
    obtain ⟨s1, h1, h2⟩ := ho
    obtain ⟨a, b, c⟩ := updatePart_spec h h1
    obtain ⟨a', b', c'⟩ := ih a h2
    exact ⟨a', b.trans b', c'.trans c⟩

theorem updateParts_ok {env : Env R} {t : Rat} (ps : List Part) (h : Good env s)
    (hn : ∀ n sigs, .decoded n sigs ∈ ps → ∀ r c ps, env.interpret r ≠ .container n c ps) :
    ∃ s', ps.foldlM (updatePart env t) s = .ok s' := by
  induction ps generalizing s with
  | nil => exact ⟨s, rfl⟩
  | cons p r ih =>
    rw [List.foldlM_cons]
    have : ∃ s1, updatePart env t s p = .ok s1 := by
      cases p with
      | undecoded n text => exact ⟨_, rfl⟩
      | decoded n sigs => exact updateDecoded_ok h (hn n sigs (List.mem_cons_self ..))
    obtain ⟨s1, h1⟩ := this
    obtain ⟨a, -, -⟩ := updatePart_spec h h1
    obtain ⟨s2, h2⟩ := ih a fun n sigs hm => hn n sigs (List.mem_cons_of_mem _ hm)
    exact ⟨s2, by rw [h1]; exact h2⟩

/-- The frames that are kept after one more frame. -/
def newRaw (env : Env R) (s : State R) (r : R) : List (String × R) :=
  match Spec.nameOf (env.interpret r) with
  | none => s.raw
  | some n => dictSet s.raw n r

/-- A state after a base time was set. -/
theorem Good.based {env : Env R} (h : Good env s) (b : Option Rat) :
    Good env { s with basetime := b } := ⟨⟨h.core.sorted, h.core.listed, h.core.shown⟩, h.recorded⟩

theorem Good.raw {env : Env R} (h : Good env s) (b : List (String × R)) :
    Good env { s with raw := b } ∧ Grow s { s with raw := b } :=
  ⟨⟨⟨h.core.sorted, h.core.listed, h.core.shown⟩, h.recorded⟩,
   ⟨⟨_, _, _, _, _, _, rfl⟩, fun _ l h => ⟨l, h, Nat.le_refl _⟩, fun _ h => h⟩⟩

/-- The entry for a container itself. -/
theorem container_good {env : Env R} {r : R} {ps : List Part} {c : List String} (h : Good env s)
    (hr : env.interpret r = .container n c ps) (f : List String) :
    let s' := updateFormatted { s with signals := dictSet s.signals n c } n f false
    Good env s' ∧ Grow s s' ∧ s'.raw = s.raw ∧ (dictGet? s'.formatted n).isSome = true := by
  have hw : WeakCore { s with signals := dictSet s.signals n c } (· = n) := by
    refine ⟨h.core.sorted, fun m hm => .inr ((h.core.listed m hm).resolve_left id), ?_⟩
    intro m hm hne hd
    refine h.core.shown m hm id (hd.imp_right ?_)
    intro h1 all hall
    refine h1 all ?_
    show dictGet? (dictSet s.signals n c) m = _
    rw [dictGet?_set, if_neg (Ne.symm hne)]
    exact hall
  have hrec : Recorded env { s with signals := dictSet s.signals n c } := by
    intro m hm
    by_cases hmn : m = n
    · subst hmn; exact .inr ⟨r, c, ps, hr⟩
    · refine h.recorded m ?_
      have : dictGet? (dictSet s.signals n c) m = dictGet? s.signals m := by
        rw [dictGet?_set, if_neg (Ne.symm hmn)]
      rw [← this]
      exact hm
  refine ⟨⟨updateFormatted_core hw _ _, updateFormatted_recorded hrec hw.sorted _ _ _⟩, ?_, ?_,
    updateFormatted_listed hw.sorted _ _ _⟩
  · refine Grow.trans ?_ (updateFormatted_grow hw.sorted _ _ _)
    exact ⟨⟨_, _, _, _, _, _, rfl⟩, fun _ l h => ⟨l, h, Nat.le_refl _⟩, fun _ h => h⟩
  · exact (updateFormatted_raw hw.sorted _ _ _).1

theorem tryUpdateMessage_spec {env : Env R} {r : R} {o : Outcome} (h : Good env s)
    (ho : tryUpdateMessage env s r = .ok (s', o)) :
    Good env s' ∧ Grow { s with basetime := some (s.basetime.getD (env.timestamp r)) } s' ∧
      s'.raw = newRaw env s r ∧ o = env.interpret r ∧
      ∀ n, Spec.nameOf (env.interpret r) = some n → (dictGet? s'.formatted n).isSome = true := by
  unfold tryUpdateMessage at ho
  simp only [Except.bind_eq_ok, Except.pure_eq_ok, Prod.mk.injEq] at ho
  obtain ⟨s1, h1, rfl, rfl⟩ := ho
  have h0 := h.based (some (s.basetime.getD (env.timestamp r)))
  unfold newRaw
  generalize hs0 : { s with basetime := some (s.basetime.getD (env.timestamp r)) } = s0 at h0 h1 ⊢
  have hraw : s0.raw = s.raw := by rw [← hs0]
  rw [← hraw]
  cases hi : env.interpret r with
  | unknown =>
    simp only [hi, Except.ok.injEq] at h1
    subst h1
    exact ⟨h0, .refl _, rfl, rfl, (fun _ h => nomatch h)⟩
  | undecodable n e =>
    simp only [hi, Except.ok.injEq] at h1
    subst h1
    exact ⟨⟨updateFormatted_core (h0.core.weak _) _ _,
        updateFormatted_recorded h0.recorded h0.core.sorted _ _ _⟩,
      updateFormatted_grow h0.core.sorted _ _ _, (updateFormatted_raw h0.core.sorted _ _ _).1, rfl,
      (fun _ h => nomatch h)⟩
  | decoded n sigs =>
    simp only [hi, Except.bind_eq_ok, Except.pure_eq_ok] at h1
    obtain ⟨s2, h2, rfl⟩ := h1
    obtain ⟨a, b, c, d⟩ := updateDecoded_spec h0 h2
    obtain ⟨a', b'⟩ := a.raw (dictSet s2.raw n r)
    refine ⟨a', b.trans b', ?_, rfl, fun _ h => by cases h; exact d⟩
    show dictSet s2.raw n r = dictSet s0.raw n r
    rw [c]
  | container n c ps =>
    simp only [hi, Except.bind_eq_ok, Except.pure_eq_ok] at h1
    subst hs0
    obtain ⟨s2, h2, rfl⟩ := h1
    obtain ⟨a0, b0, c0, d0⟩ := container_good h0 hi (formatLines env
      (env.timestamp r - s.basetime.getD (env.timestamp r)) n c)
    obtain ⟨a, b, c⟩ := updateParts_spec ps a0 h2
    obtain ⟨a', b'⟩ := a.raw (dictSet s2.raw n r)
    refine ⟨a', (b0.trans b).trans b', ?_, rfl, fun _ h => ?_⟩
    rotate_left
    · cases h
      obtain ⟨l, hl⟩ := Option.isSome_iff_exists.1 d0
      obtain ⟨l', hl', -⟩ := b.lines _ l hl
      show (dictGet? s2.formatted n).isSome = true
      rw [hl']; rfl
    show dictSet s2.raw n r = dictSet s.raw n r
    rw [c, c0]

/-- With separate names no frame makes the monitor fail. -/
theorem tryUpdateMessage_ok {env : Env R} (hsep : Spec.SeparateNames env) (h : Good env s) (r : R) :
    ∃ s' o, tryUpdateMessage env s r = .ok (s', o) := by
  have h0 := h.based (some (s.basetime.getD (env.timestamp r)))
  unfold tryUpdateMessage
  cases hi : env.interpret r with
  | unknown => exact ⟨_, _, rfl⟩
  | undecodable n e => exact ⟨_, _, rfl⟩
  | decoded n sigs =>
    obtain ⟨s2, h2⟩ := updateDecoded_ok (n := n) (t := env.timestamp r - s.basetime.getD (env.timestamp r))
      (sigs := sigs) h0 fun r' c ps hc =>
      hsep r' r n c ps hc (by rw [hi]; exact List.mem_cons_self ..)
    simp only
    rw [h2]
    exact ⟨_, _, rfl⟩
  | container n c ps =>
    obtain ⟨a0, b0, c0, d0⟩ := container_good h0 hi (formatLines env
      (env.timestamp r - s.basetime.getD (env.timestamp r)) n c)
    obtain ⟨s2, h2⟩ := updateParts_ok (t := env.timestamp r - s.basetime.getD (env.timestamp r)) ps a0
      fun m sigs hm r' c' ps' hc => hsep r' r m c' ps' hc (by
        rw [hi]
        exact List.mem_filterMap.2 ⟨_, hm, rfl⟩)
    simp only
    rw [h2]
    exact ⟨_, _, rfl⟩

/-! ### All frames -/

/-- The counters do not matter. -/
theorem Good.counters {env : Env R} (h : Good env s) (a b c : Nat) :
    Good env { s with received := a, discarded := b, errors := c } :=
  ⟨⟨h.core.sorted, h.core.listed, h.core.shown⟩, h.recorded⟩

theorem count_eq (s : State R) (o : Outcome) : count s o =
    { s with
      received := s.received + 1
      discarded := s.discarded + [o].countP Spec.isUnknown
      errors := s.errors + [o].countP Spec.isUndecodable } := by
  cases o <;> rfl

theorem updateMessages_spec {env : Env R} (frames : List R) (h : Good env s)
    (ho : updateMessages env frames s = .ok s') :
    (∀ r ∈ frames, ∀ n, Spec.nameOf (env.interpret r) = some n →
      (dictGet? s'.formatted n).isSome = true) ∧
    ∃ t, Good env t ∧ Grow { s with basetime := s.basetime.or (frames.head?.map env.timestamp) } t ∧ t.raw = frames.foldl (fun w r =>
        match Spec.nameOf (env.interpret r) with | none => w | some n => dictSet w n r) s.raw ∧
      s' = { t with
        received := s.received + frames.length
        discarded := s.discarded + (frames.map env.interpret).countP Spec.isUnknown
        errors := s.errors + (frames.map env.interpret).countP Spec.isUndecodable } := by
  induction frames generalizing s with
  | nil =>
    simp only [updateMessages, List.foldlM_nil, Except.pure_eq_ok] at ho
    subst ho
    refine ⟨(fun _ h => nomatch h), s, h, ?_, rfl, rfl⟩
    simp only [List.head?_nil, Option.map_none, Option.or_none]
    exact .refl _
  | cons r rest ih =>
    unfold updateMessages at ho
    rw [List.foldlM_cons] at ho
    simp only [Except.bind_eq_ok, Except.pure_eq_ok] at ho
    obtain ⟨s1, ⟨⟨s2, o⟩, h1, h2⟩, h3⟩ := ho
    simp only at h2
    obtain ⟨a, b, c, rfl, d⟩ := tryUpdateMessage_spec h h1
    rw [count_eq] at h2
    have g1 : Good env s1 := by rw [← h2]; exact a.counters _ _ _
    obtain ⟨d', t, a', b', c', e⟩ := ih g1 h3
    obtain ⟨x1, x2, x3, x4, x5, x6, hx⟩ := b.rest
    obtain ⟨y1, y2, y3, y4, y5, y6, hy⟩ := b'.rest
    have hbt : s1.basetime.or (rest.head?.map env.timestamp) =
        s.basetime.or ((r :: rest).head?.map env.timestamp) := by
      rw [← h2, hx]
      cases s.basetime <;> rfl
    refine ⟨?_, { t with received := s.received, discarded := s.discarded, errors := s.errors },
      a'.counters _ _ _, ⟨⟨y1, y2, y3, y4, y5, y6, ?_⟩, ?_, ?_⟩, ?_, ?_⟩
    · intro x hx' n hn
      rcases List.mem_cons.1 hx' with rfl | hx'
      · obtain ⟨l, hl⟩ := Option.isSome_iff_exists.1 (d n hn)
        obtain ⟨l', hl', -⟩ := b'.lines n l (by rw [← h2]; exact hl)
        rw [e]
        show (dictGet? t.formatted n).isSome = true
        rw [hl']; rfl
      · exact d' x hx' n hn
    · rw [hy, hbt, ← h2, hx]
    · intro m l hl
      obtain ⟨l', h4, h5⟩ := b.lines m l hl
      obtain ⟨l'', h6, h7⟩ := b'.lines m l' (by rw [← h2]; exact h4)
      exact ⟨l'', h6, Nat.le_trans h5 h7⟩
    · intro m hm
      exact b'.names m (by rw [← h2]; exact b.names m hm)
    · show t.raw = _
      rw [c', ← h2, List.foldl_cons]
      show List.foldl _ s2.raw rest = _
      rw [c]
      rfl
    · rw [e, ← h2]
      have hc : s2.received = s.received ∧ s2.discarded = s.discarded ∧ s2.errors = s.errors := by
        rw [hx]; exact ⟨rfl, rfl, rfl⟩
      simp only [List.length_cons, List.map_cons, hc]
      rw [show env.interpret r :: rest.map env.interpret = [env.interpret r] ++ rest.map env.interpret from rfl,
        List.countP_append, List.countP_append]
      simp only [Nat.add_assoc, Nat.add_comm 1]

theorem updateMessages_ok {env : Env R} (hsep : Spec.SeparateNames env) (frames : List R)
    (h : Good env s) : ∃ s', updateMessages env frames s = .ok s' := by
  induction frames generalizing s with
  | nil => exact ⟨s, rfl⟩
  | cons r rest ih =>
    obtain ⟨s1, o, h1⟩ := tryUpdateMessage_ok hsep h r
    obtain ⟨a, -⟩ := tryUpdateMessage_spec h h1
    obtain ⟨s2, h2⟩ := ih (s := count s1 o) (by rw [count_eq]; exact a.counters _ _ _)
    refine ⟨s2, ?_⟩
    unfold updateMessages at h2 ⊢
    rw [List.foldlM_cons, h1]
    exact h2

/-! ### Only decoded messages -/

/-- The signals of a message that pass the filter. -/
abbrev matching (nm : String → List String) (s : State R) (n : String) : List String :=
  signalsMatchingFilter s.compiled n (nm n)

theorem insortFiltered_plain (hw : s.withError = []) {all : List String}
    (h : dictGet? s.signals n = some all) :
    insortFiltered s n =
      if n ∈ s.names ∨ signalsMatchingFilter s.compiled n all = [] then s
      else { s with filteredSignals := dictSet s.filteredSignals n (signalsMatchingFilter s.compiled n all)
                    names := insort s.names n } := by
  unfold insortFiltered messageMatchesFilter
  rw [hw, h]
  by_cases h1 : n ∈ s.names
  · simp [h1]
  · by_cases h2 : signalsMatchingFilter s.compiled n all = []
    · simp [h1, h2]
    · simp [h1, h2]

/-- What holds if all frames are decoded or unknown: which messages are displayed. -/
structure Plain (nm : String → List String) (s : State R) : Prop where
  noError : s.withError = []
  signals : ∀ m all, dictGet? s.signals m = some all → all = nm m
  names : ∀ m ∈ s.names, (dictGet? s.signals m).isSome = true ∧ matching nm s m ≠ []
  known : ∀ m ∈ s.formatted.map (·.1), (dictGet? s.signals m).isSome = true

/-- The table of the signals that are displayed is up to date. -/
def Filtered (nm : String → List String) (s : State R) : Prop :=
  ∀ m, (dictGet? s.signals m).isSome = true → matching nm s m ≠ [] →
    dictGet? s.filteredSignals m = some (matching nm s m)

theorem updateFormatted_plain {nm : String → List String} (h : Plain nm s)
    (hs : s.names.Pairwise (· < ·))
    (hn : dictGet? s.signals n = some (nm n)) (f : List String) :
    ∃ ns fs, updateFormatted s n f false = { s with formatted := dictSet s.formatted n (newLines s n f)
                                                    names := ns, filteredSignals := fs } ∧
      Plain nm (updateFormatted s n f false) ∧
      (Filtered nm s → Filtered nm (updateFormatted s n f false)) := by
  have he : (s.withError.filter (· ≠ n)) = [] := by rw [h.noError]; rfl
  have hu : updateFormatted s n f false =
      insortFiltered { s with formatted := dictSet s.formatted n (newLines s n f) } n := by
    unfold updateFormatted
    simp only [Bool.false_eq_true, if_false, he]
    exact congrArg (fun e => insortFiltered
      { s with formatted := dictSet s.formatted n (newLines s n f), withError := e } n) h.noError.symm
  rw [hu, insortFiltered_plain (s := { s with formatted := dictSet s.formatted n (newLines s n f) })
    h.noError hn]
  have hkn : ∀ m ∈ (dictSet s.formatted n (newLines s n f)).map (·.1),
      (dictGet? s.signals m).isSome = true := by
    intro m hm
    rcases (mem_keys_dictSet ..).1 hm with rfl | hm
    · rw [hn]; rfl
    · exact h.known m hm
  split
  · exact ⟨s.names, s.filteredSignals, rfl, ⟨h.noError, h.signals, h.names, hkn⟩, fun x => x⟩
  · rename_i hd
    have hd' : n ∉ s.names ∧ matching nm s n ≠ [] := by
      constructor
      · exact fun x => hd (.inl x)
      · exact fun x => hd (.inr x)
    refine ⟨_, _, rfl, ⟨h.noError, h.signals, ?_, hkn⟩, ?_⟩
    · intro m hm
      rcases (mem_insort hs hd'.1 m).1 hm with rfl | hm
      · exact ⟨by show (dictGet? s.signals _).isSome = true; rw [hn]; rfl, hd'.2⟩
      · exact h.names m hm
    · intro hf m hm hne
      show dictGet? (dictSet s.filteredSignals n (signalsMatchingFilter s.compiled n (nm n))) m = _
      rw [dictGet?_set]
      split
      · rename_i he'; subst he'; rfl
      · exact hf m hm hne

theorem updateDecoded_plain {env : Env R} {nm : String → List String} {t : Rat}
    {sigs : List (String × String)} (h : Plain nm s) (hs : s.names.Pairwise (· < ·))
    (hnm : sigs.map (·.1) = nm n)
    (ho : updateDecoded env s t n sigs = .ok s') :
    Plain nm s' ∧ (∃ shown k,
      s'.formatted = dictSet s.formatted n
        (formatLines env t n ((sigs.filter fun x => x.1 ∈ shown).map (·.2)) ++ List.replicate k "") ∧
      (Filtered nm s → matching nm s n ≠ [] → shown = matching nm s n)) ∧
      (Filtered nm s → Filtered nm s') ∧ s'.compiled = s.compiled ∧ s'.raw = s.raw ∧
      s'.basetime = s.basetime := by
  unfold updateDecoded filterSignals at ho
  simp only [Except.bind_eq_ok, Except.pure_eq_ok, dictGet_eq_ok] at ho
  obtain ⟨⟨s1, sh⟩, ⟨shown, h1, h2⟩, h3⟩ := ho
  simp only at h3
  by_cases hsome : (dictGet? s.signals n).isSome = true
  · simp only [hsome, if_true] at h1 h2
    obtain ⟨all, hall⟩ := Option.isSome_iff_exists.1 hsome
    have hall' := h.signals n all hall
    subst hall'
    cases h2
    obtain ⟨ns, fs, e1, e2, e3⟩ := updateFormatted_plain h hs hall
      (formatLines env t n ((sigs.filter fun x => x.1 ∈ shown).map (·.2)))
    rw [← h3]
    refine ⟨e2, ⟨shown, _, by rw [e1]; rfl, ?_⟩, e3, by rw [e1]; exact ⟨rfl, rfl, rfl⟩⟩
    intro hf hne
    have := hf n hsome hne
    rw [h1] at this
    exact Option.some.inj this
  · have hnone : dictGet? s.signals n = none := by
      cases hx : dictGet? s.signals n with
      | none => rfl
      | some v => rw [hx] at hsome; exact absurd rfl hsome
    have hnn : n ∉ s.names := fun hm => hsome (h.names n hm).1
    simp only [hsome, Bool.false_eq_true, if_false, hnm] at h1 h2
    have hg : dictGet? (dictSet s.signals n (nm n)) n = some (nm n) := by rw [dictGet?_set, if_pos rfl]
    rw [insortFiltered_plain (s := { s with
        signals := dictSet s.signals n (nm n), filteredSignals := dictSet s.filteredSignals n (nm n) })
      h.noError hg] at h1 h2
    have hsg : ∀ m all, dictGet? (dictSet s.signals n (nm n)) m = some all → all = nm m := by
      intro m all hm
      rw [dictGet?_set] at hm
      split at hm
      · rename_i he; subst he; exact (Option.some.inj hm).symm
      · exact h.signals m all hm
    have hsm : ∀ m, (dictGet? s.signals m).isSome = true →
        (dictGet? (dictSet s.signals n (nm n)) m).isSome = true := by
      intro m hm
      rw [dictGet?_set]
      split
      · rfl
      · exact hm
    have hsm' : ∀ m, m ≠ n → (dictGet? (dictSet s.signals n (nm n)) m).isSome = true →
        (dictGet? s.signals m).isSome = true := by
      intro m hmn hm
      rw [dictGet?_set, if_neg (Ne.symm hmn)] at hm
      exact hm
    by_cases hme : matching nm s n = []
    · rw [if_pos (.inr hme)] at h1 h2
      cases h2
      have hp : Plain nm { s with signals := dictSet s.signals n (nm n)
                                  filteredSignals := dictSet s.filteredSignals n (nm n) } :=
        ⟨h.noError, hsg, fun m hm => ⟨hsm m (h.names m hm).1, (h.names m hm).2⟩,
          fun m hm => hsm m (h.known m hm)⟩
      obtain ⟨ns, fs, e1, e2, e3⟩ := updateFormatted_plain hp hs hg
        (formatLines env t n ((sigs.filter fun x => x.1 ∈ shown).map (·.2)))
      rw [← h3]
      refine ⟨e2, ⟨shown, _, by rw [e1]; rfl, fun _ hne => absurd hme hne⟩, ?_, by rw [e1]; exact ⟨rfl, rfl, rfl⟩⟩
      intro hf
      refine e3 fun m hm hne => ?_
      by_cases hmn : m = n
      · subst hmn; exact absurd hme hne
      · show dictGet? (dictSet s.filteredSignals n (nm n)) m = _
        rw [dictGet?_set, if_neg (Ne.symm hmn)]
        exact hf m (hsm' m hmn hm) hne
    · rw [if_neg (by rintro (hx | hx); exacts [hnn hx, hme hx])] at h1 h2
      cases h2
      have hp : Plain nm { s with
          signals := dictSet s.signals n (nm n)
          filteredSignals := dictSet (dictSet s.filteredSignals n (nm n)) n
            (signalsMatchingFilter s.compiled n (nm n))
          names := insort s.names n } := by
        refine ⟨h.noError, hsg, fun m hm => ?_, fun m hm => hsm m (h.known m hm)⟩
        rcases (mem_insort hs hnn m).1 hm with rfl | hm
        · exact ⟨by show (dictGet? (dictSet s.signals _ _) _).isSome = true; rw [hg]; rfl, hme⟩
        · exact ⟨hsm m (h.names m hm).1, (h.names m hm).2⟩
      obtain ⟨ns, fs, e1, e2, e3⟩ := updateFormatted_plain hp (insort_sorted hs hnn) hg
        (formatLines env t n ((sigs.filter fun x => x.1 ∈ shown).map (·.2)))
      have hsh : shown = matching nm s n := by
        have h1' : dictGet? (dictSet (dictSet s.filteredSignals n (nm n)) n
            (signalsMatchingFilter s.compiled n (nm n))) n = some shown := h1
        rw [dictGet?_set, if_pos rfl] at h1'
        exact (Option.some.inj h1').symm
      rw [← h3]
      refine ⟨e2, ⟨shown, _, by rw [e1]; rfl, fun _ _ => hsh⟩, ?_, by rw [e1]; exact ⟨rfl, rfl, rfl⟩⟩
      intro hf
      refine e3 fun m hm hne => ?_
      show dictGet? (dictSet (dictSet s.filteredSignals n (nm n)) n _) m = _
      by_cases hmn : m = n
      · subst hmn
        rw [dictGet?_set, if_pos rfl]
      · rw [dictGet?_set, if_neg (Ne.symm hmn), dictGet?_set, if_neg (Ne.symm hmn)]
        exact hf m (hsm' m hmn hm) hne

end

end Cantools.Monitor
