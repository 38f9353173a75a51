import Verif.Lemmas.Monitor
import Verif.Lemmas.Kcd

/-
Invariants of all runs of the monitor.
-/

namespace Cantools.Monitor
open Cantools

section
variable {R : Type} {s s' : State R} {n : String} {env : Env R} {nm : String → List String}

/-- The lines of every message are those of the frame that is kept for it. -/
def Content (env : Env R) (nm : String → List String) (s : State R) : Prop :=
  ∀ n l, dictGet? s.formatted n = some l → ∃ r sigs b, dictGet? s.raw n = some r ∧
    env.interpret r = .decoded n sigs ∧ s.basetime = some b ∧
    (matching nm s n ≠ [] → ∃ k, l = formatLines env (env.timestamp r - b) n
      ((sigs.filter fun x => x.1 ∈ matching nm s n).map (·.2)) ++ List.replicate k "")

/-- A frame is kept for every message. -/
def Kept (s : State R) : Prop :=
  ∀ n, (dictGet? s.formatted n).isSome = true → (dictGet? s.raw n).isSome = true

theorem tryUpdateMessage_plain (hd : Spec.OnlyDecoded env nm) (h : Plain nm s)
    (hs : s.names.Pairwise (· < ·)) {r : R} {o : Outcome}
    (ho : tryUpdateMessage env s r = .ok (s', o)) :
    Plain nm s' ∧ (Kept s → Kept s') ∧
      (Filtered nm s → Content env nm s → Filtered nm s' ∧ Content env nm s') := by
  unfold tryUpdateMessage at ho
  simp only [Except.bind_eq_ok, Except.pure_eq_ok, Prod.mk.injEq] at ho
  obtain ⟨s1, h1, rfl, rfl⟩ := ho
  rcases hd r with hi | ⟨n, sigs, hi, hsig⟩
  · simp only [hi, Except.ok.injEq] at h1
    subst h1
    refine ⟨⟨h.noError, h.signals, h.names, h.known⟩, fun x => x, fun hf hc => ⟨hf, ?_⟩⟩
    intro n l hl
    obtain ⟨r', sigs, b, x1, x2, x3, x4⟩ := hc n l hl
    exact ⟨r', sigs, b, x1, x2, by show some _ = some b; rw [x3]; rfl, x4⟩
  · simp only [hi, Except.bind_eq_ok, Except.pure_eq_ok] at h1
    obtain ⟨s2, h2, rfl⟩ := h1
    have h0 : Plain nm { s with basetime := some (s.basetime.getD (env.timestamp r)) } :=
      ⟨h.noError, h.signals, h.names, h.known⟩
    obtain ⟨a1, ⟨shown, k, a2, a3⟩, a4, a5, a6, a7⟩ := updateDecoded_plain h0 hs hsig h2
    have a5' : s2.compiled = s.compiled := a5
    have a6' : s2.raw = s.raw := a6
    have a2' : s2.formatted = dictSet s.formatted n _ := a2
    refine ⟨⟨a1.noError, a1.signals, a1.names, a1.known⟩, ?_, ?_⟩
    · intro hk m hm
      show (dictGet? (dictSet s2.raw n r) m).isSome = true
      have hm' : (dictGet? s2.formatted m).isSome = true := hm
      rw [a2', dictGet?_set] at hm'
      rw [dictGet?_set]
      split
      · rfl
      · rename_i hmn
        rw [if_neg hmn] at hm'
        rw [a6']
        exact hk m hm'
    · intro hf hc
      have hf0 : Filtered nm { s with basetime := some (s.basetime.getD (env.timestamp r)) } := hf
      refine ⟨a4 hf0, ?_⟩
      intro m l hl
      have hl' : dictGet? s2.formatted m = some l := hl
      rw [a2', dictGet?_set] at hl'
      have hraw : ∀ v, dictGet? (dictSet s.raw n r) m = some v →
          dictGet? ({ s2 with raw := dictSet s2.raw n r } : State R).raw m = some v := by
        intro v hv
        rw [← hv, ← a6']
      split at hl'
      · rename_i hmn
        subst hmn
        refine ⟨r, sigs, _, hraw r (by rw [dictGet?_set, if_pos rfl]), hi, a7, ?_⟩
        simp only [matching, a5']
        intro hne
        refine ⟨k, ?_⟩
        rw [← Option.some.inj hl', a3 hf0 hne]
      · rename_i hmn
        obtain ⟨r', sigs', b, x1, x2, x3, x4⟩ := hc m l hl'
        refine ⟨r', sigs', b, hraw r' (by rw [dictGet?_set, if_neg hmn, x1]), x2, ?_, ?_⟩
        · refine a7.trans ?_
          show some _ = some b
          rw [x3]; rfl
        · simp only [matching, a5']
          exact x4

/-- The frames that are kept after a list of frames. -/
def rawOf (env : Env R) (w : List (String × R)) (frames : List R) : List (String × R) :=
  frames.foldl (fun w r => match Spec.nameOf (env.interpret r) with | none => w | some n => dictSet w n r) w

theorem dictGet?_rawOf (frames : List R) (w : List (String × R)) (n : String) :
    dictGet? (rawOf env w frames) n = (Spec.latest env n frames).or (dictGet? w n) := by
  induction frames generalizing w with
  | nil => rfl
  | cons r rest ih =>
    show dictGet? (rawOf env (match Spec.nameOf (env.interpret r) with | none => w | some n => dictSet w n r) rest) n = _
    rw [ih]
    unfold Spec.latest
    rw [List.filter_cons]
    cases hn : Spec.nameOf (env.interpret r) with
    | none => simp
    | some m =>
      simp only [Option.some.injEq, dictGet?_set]
      by_cases hmn : m = n
      · simp only [hmn, if_true, decide_true, List.getLast?_cons]
        cases (List.filter (fun r => decide (Spec.nameOf (env.interpret r) = some n)) rest).getLast? <;> rfl
      · simp [hmn]

theorem rawOf_append (w : List (String × R)) (a b : List R) :
    rawOf env w (a ++ b) = rawOf env (rawOf env w a) b := by
  simp [rawOf, List.foldl_append]

theorem rawOf_nodup (frames : List R) (w : List (String × R)) (h : (w.map (·.1)).Nodup) :
    ((rawOf env w frames).map (·.1)).Nodup := by
  induction frames generalizing w with
  | nil => exact h
  | cons r rest ih =>
    refine ih _ ?_
    dsimp only
    split
    · exact h
    · exact dictSet_nodup _ _ h

theorem rawOf_mem {frames : List R} {p : String × R} (hp : p ∈ rawOf env [] frames) :
    Spec.nameOf (env.interpret p.2) = some p.1 ∧ p.2 ∈ frames ∧
      dictGet? (rawOf env [] frames) p.1 = some p.2 := by
  have h := dictGet?_of_mem (rawOf_nodup frames [] List.nodup_nil) hp
  have h' := h
  rw [dictGet?_rawOf, dictGet?_nil, Option.or_none] at h
  have hm := List.mem_of_getLast? h
  simp only [List.mem_filter, decide_eq_true_eq] at hm
  exact ⟨hm.2, hm.1, h'⟩

theorem dictSet_same {α : Type} {d : List (String × α)} {k : String} {v : α}
    (h : dictGet? d k = some v) : dictSet d k v = d := by
  induction d with
  | nil => cases h
  | cons p d ih =>
    rw [dictGet?_cons] at h
    unfold dictSet
    split at h
    · rename_i hk
      rw [if_pos hk]
      cases h
      rw [← hk]
    · rename_i hk
      rw [if_neg hk, ih h]

/-- One turn of the loop that formats all messages again. -/
def again (env : Env R) (t : State R) (r : R) : Except Err (State R) := do
  let (t', _) ← tryUpdateMessage env t r
  if t'.raw.map (·.1) = t.raw.map (·.1) then pure t' else .error .recursionError

theorem reformat_eq : reformat env s =
    (s.raw.map (·.2)).foldlM (again env) { s with names := [], signals := [], formatted := [] } := rfl

/-- The frames are kept under their names. -/
def Stored (env : Env R) (s : State R) (vs : List R) : Prop :=
  ∀ r ∈ vs, ∃ n, Spec.nameOf (env.interpret r) = some n ∧ dictGet? s.raw n = some r

theorem Stored.newRaw {r : R} {vs : List R} (h : Stored env s (r :: vs)) : newRaw env s r = s.raw := by
  obtain ⟨n, h1, h2⟩ := h r (List.mem_cons_self ..)
  unfold Monitor.newRaw
  rw [h1]
  exact dictSet_same h2

theorem again_spec {r : R} {vs : List R} (h : Good env s) (hv : Stored env s (r :: vs))
    (ho : again env s r = .ok s') : ∃ o, tryUpdateMessage env s r = .ok (s', o) ∧ s'.raw = s.raw := by
  unfold again at ho
  simp only [Except.bind_eq_ok] at ho
  obtain ⟨⟨t, o⟩, h1, h2⟩ := ho
  simp only at h2
  split at h2
  · cases h2
    obtain ⟨-, -, h3, -⟩ := tryUpdateMessage_spec h h1
    exact ⟨o, h1, h3.trans hv.newRaw⟩
  · cases h2

theorem again_ok (hsep : Spec.SeparateNames env) {r : R} {vs : List R} (h : Good env s)
    (hv : Stored env s (r :: vs)) : ∃ s', again env s r = .ok s' := by
  obtain ⟨t, o, h1⟩ := tryUpdateMessage_ok hsep h r
  obtain ⟨-, -, h3, -⟩ := tryUpdateMessage_spec h h1
  unfold again
  rw [h1]
  refine ⟨t, ?_⟩
  show (if t.raw.map (·.1) = s.raw.map (·.1) then (pure t : Except Err (State R)) else _) = _
  rw [if_pos (by rw [h3, hv.newRaw])]
  rfl

theorem agains_spec (vs : List R) (h : Good env s) (hv : Stored env s vs)
    (ho : vs.foldlM (again env) s = .ok s') :
    Good env s' ∧ s'.raw = s.raw ∧
      Grow { s with basetime := s.basetime.or (vs.head?.map env.timestamp) } s' ∧
      (∀ r ∈ vs, ∀ n, Spec.nameOf (env.interpret r) = some n → (dictGet? s'.formatted n).isSome = true) ∧
      (Spec.OnlyDecoded env nm → Plain nm s → Plain nm s' ∧ (Kept s → Kept s') ∧
        (Filtered nm s → Content env nm s → Filtered nm s' ∧ Content env nm s')) := by
  induction vs generalizing s with
  | nil =>
    simp only [List.foldlM_nil, Except.pure_eq_ok] at ho
    subst ho
    refine ⟨h, rfl, ?_, (fun _ h => nomatch h), fun _ hp => ⟨hp, id, fun a b => ⟨a, b⟩⟩⟩
    simp only [List.head?_nil, Option.map_none, Option.or_none]
    exact .refl _
  | cons r rest ih =>
    rw [List.foldlM_cons] at ho
    simp only [Except.bind_eq_ok] at ho
    obtain ⟨s1, h1, h2⟩ := ho
    obtain ⟨o, h3, h4⟩ := again_spec h hv h1
    obtain ⟨a, b, -, -, d⟩ := tryUpdateMessage_spec h h3
    obtain ⟨a', b', c', d', e'⟩ := ih a (fun x hx => by
      rw [h4]; exact hv x (List.mem_cons_of_mem _ hx)) h2
    have hbt : s1.basetime.or (rest.head?.map env.timestamp) =
        s.basetime.or ((r :: rest).head?.map env.timestamp) ∧
        s1.basetime.or (rest.head?.map env.timestamp) = s1.basetime := by
      obtain ⟨x1, x2, x3, x4, x5, x6, hx⟩ := b.rest
      rw [hx]
      cases s.basetime <;> exact ⟨rfl, rfl⟩
    have hbt2 : some (s.basetime.getD (env.timestamp r)) =
        s.basetime.or ((r :: rest).head?.map env.timestamp) := by
      cases s.basetime <;> rfl
    rw [hbt2] at b
    rw [hbt.2] at c'
    refine ⟨a', b'.trans h4, b.trans c', ?_, ?_⟩
    · intro x hx n hn
      rcases List.mem_cons.1 hx with rfl | hx
      · obtain ⟨l, hl⟩ := Option.isSome_iff_exists.1 (d n hn)
        obtain ⟨l', hl', -⟩ := c'.lines n l hl
        rw [hl']; rfl
      · exact d' x hx n hn
    · intro hd hp
      obtain ⟨p1, p2, p3⟩ := tryUpdateMessage_plain hd hp h.core.sorted h3
      obtain ⟨q1, q2, q3⟩ := e' hd p1
      exact ⟨q1, fun x => q2 (p2 x), fun hf hc => q3 (p3 hf hc).1 (p3 hf hc).2⟩

theorem agains_ok (hsep : Spec.SeparateNames env) (vs : List R) (h : Good env s)
    (hv : Stored env s vs) : ∃ s', vs.foldlM (again env) s = .ok s' := by
  induction vs generalizing s with
  | nil => exact ⟨s, rfl⟩
  | cons r rest ih =>
    obtain ⟨s1, h1⟩ := again_ok hsep h hv
    obtain ⟨o, h3, h4⟩ := again_spec h hv h1
    obtain ⟨a, -⟩ := tryUpdateMessage_spec h h3
    obtain ⟨s2, h2⟩ := ih a (fun x hx => by rw [h4]; exact hv x (List.mem_cons_of_mem _ hx))
    exact ⟨s2, by rw [List.foldlM_cons, h1]; exact h2⟩

/-- Frames, if all are decoded or unknown. -/
theorem updateMessages_plain (hd : Spec.OnlyDecoded env nm) (frames : List R) (h : Good env s)
    (hp : Plain nm s) (ho : updateMessages env frames s = .ok s') :
    Plain nm s' ∧ (Kept s → Kept s') ∧
      (Filtered nm s → Content env nm s → Filtered nm s' ∧ Content env nm s') := by
  induction frames generalizing s with
  | nil =>
    simp only [updateMessages, List.foldlM_nil, Except.pure_eq_ok] at ho
    subst ho
    exact ⟨hp, id, fun a b => ⟨a, b⟩⟩
  | cons r rest ih =>
    unfold updateMessages at ho
    rw [List.foldlM_cons] at ho
    simp only [Except.bind_eq_ok, Except.pure_eq_ok] at ho
    obtain ⟨s1, ⟨⟨s2, o⟩, h1, h2⟩, h3⟩ := ho
    simp only at h2
    obtain ⟨a, -⟩ := tryUpdateMessage_spec h h1
    obtain ⟨p1, p2, p3⟩ := tryUpdateMessage_plain hd hp h.core.sorted h1
    rw [count_eq] at h2
    have g1 : Good env s1 := by rw [← h2]; exact a.counters _ _ _
    have g2 : Plain nm s1 := by rw [← h2]; exact ⟨p1.noError, p1.signals, p1.names, p1.known⟩
    have g3 : Kept s2 → Kept s1 := by rw [← h2]; exact id
    have g4 : Filtered nm s2 → Filtered nm s1 := by rw [← h2]; exact id
    have g5 : Content env nm s2 → Content env nm s1 := by rw [← h2]; exact id
    obtain ⟨q1, q2, q3⟩ := ih g1 g2 h3
    exact ⟨q1, fun x => q2 (g3 (p2 x)), fun hf hc => q3 (g4 (p3 hf hc).1) (g5 (p3 hf hc).2)⟩

/-! ### All runs -/

/-- What holds in all runs of the monitor. -/
structure Inv (env : Env R) (l : Spec.Ledger R) (s : State R) : Prop where
  good : Good env s
  raw : s.raw = rawOf env [] l.ever
  editing : s.showFilter = l.editing
  playing : s.playing = l.playing
  queue : s.queue = l.waiting
  received : s.received = l.handled.length
  discarded : s.discarded = (l.handled.map env.interpret).countP Spec.isUnknown
  errors : s.errors = (l.ever.map env.interpret).countP Spec.isUndecodable
  cursor : s.showFilter = true → s.oldFilter.isSome = true ∧ s.cursor ≤ s.filter.length
  search : s.compiled = env.compile s.filter ∨ s.compiled = none ∧ s.filter = []
  listed : ∀ r ∈ l.handled, ∀ n, Spec.nameOf (env.interpret r) = some n →
    (dictGet? s.formatted n).isSome = true
  handled : ∀ r ∈ l.handled, r ∈ l.ever
  basetime : l.resets = 0 → s.basetime = l.ever.head?.map env.timestamp
  plain : ∀ nm, Spec.OnlyDecoded env nm → Plain nm s ∧ Kept s ∧
    (l.stale = false → Filtered nm s ∧ Content env nm s)

theorem Inv.init (filter : List Char) (nrows : Nat) : Inv env {} (State.init env filter nrows) := by
  refine ⟨⟨⟨List.Pairwise.nil, (fun _ h => nomatch h), (fun _ h => nomatch h)⟩, (fun _ h => nomatch h)⟩,
    rfl, rfl, rfl, rfl, rfl, rfl, rfl, (fun h => nomatch h), .inl rfl, (fun _ h => nomatch h),
    (fun _ h => nomatch h), fun _ => rfl, ?_⟩
  intro nm _
  exact ⟨⟨rfl, (fun _ _ h => nomatch h), (fun _ h => nomatch h), (fun _ h => nomatch h)⟩,
    (fun _ h => nomatch h), fun _ => ⟨(fun _ h => nomatch h), (fun _ _ h => nomatch h)⟩⟩

theorem Inv.frame {l : Spec.Ledger R} (h : Inv env l s) (r : R) :
    Inv env { l with waiting := l.waiting ++ [r] } { s with queue := s.queue ++ [r] } :=
  ⟨⟨⟨h.good.core.sorted, h.good.core.listed, h.good.core.shown⟩, h.good.recorded⟩, h.raw, h.editing,
    h.playing, by rw [← h.queue], h.received, h.discarded, h.errors, h.cursor, h.search, h.listed,
    h.handled, h.basetime, fun nm hd =>
      ⟨⟨(h.plain nm hd).1.noError, (h.plain nm hd).1.signals, (h.plain nm hd).1.names,
        (h.plain nm hd).1.known⟩, (h.plain nm hd).2.1, (h.plain nm hd).2.2⟩⟩

/-- The size, the first row and the marks for drawing do not matter. -/
theorem Inv.drawn {l : Spec.Ledger R} (h : Inv env l s) (m : Bool) (n : Nat) (f : Int) :
    Inv env l { s with modified := m, nrows := n, firstRow := f } :=
  ⟨⟨⟨h.good.core.sorted, h.good.core.listed, h.good.core.shown⟩, h.good.recorded⟩, h.raw, h.editing,
    h.playing, h.queue, h.received, h.discarded, h.errors, h.cursor, h.search, h.listed,
    h.handled, h.basetime, fun nm hd =>
      ⟨⟨(h.plain nm hd).1.noError, (h.plain nm hd).1.signals, (h.plain nm hd).1.names,
        (h.plain nm hd).1.known⟩, (h.plain nm hd).2.1, (h.plain nm hd).2.2⟩⟩

theorem redraw_spec {d : Screen} (h : redraw s = .ok (s', d)) : ∃ f, s' = { s with firstRow := f } := by
  unfold redraw at h
  simp only [Except.bind_eq_ok, Except.pure_eq_ok, Prod.mk.injEq] at h
  obtain ⟨ls, -, rfl, -⟩ := h
  exact ⟨_, rfl⟩

theorem Inv.messages {l : Spec.Ledger R} (h : Inv env l s)
    (ho : updateMessages env s.queue { s with queue := [] } = .ok s') :
    Inv env { l with waiting := [], handled := l.handled ++ l.waiting, ever := l.ever ++ l.waiting } s' := by
  have hg : Good env { s with queue := [] } :=
    ⟨⟨h.good.core.sorted, h.good.core.listed, h.good.core.shown⟩, h.good.recorded⟩
  obtain ⟨a1, t, a2, a3, a4, a5⟩ := updateMessages_spec s.queue hg ho
  obtain ⟨x1, x2, x3, x4, x5, x6, hx⟩ := a3.rest
  have hq := h.queue
  refine ⟨?_, ?_, ?_, ?_, ?_, ?_, ?_, ?_, ?_, ?_, ?_, ?_, ?_, ?_⟩
  · rw [a5]; exact a2.counters _ _ _
  · show s'.raw = rawOf env [] (l.ever ++ l.waiting)
    rw [a5, rawOf_append, ← h.raw, ← hq]
    exact a4
  · rw [a5, hx]; exact h.editing
  · rw [a5, hx]; exact h.playing
  · rw [a5, hx]
  · rw [a5]; simp only [h.received, List.length_append, hq]
  · rw [a5]; simp only [h.discarded, List.map_append, List.countP_append, hq]
  · rw [a5]; simp only [h.errors, List.map_append, List.countP_append, hq]
  · rw [a5, hx]; exact h.cursor
  · rw [a5, hx]; exact h.search
  · intro r hr n hn
    rcases List.mem_append.1 hr with hr | hr
    · obtain ⟨ls, hls⟩ := Option.isSome_iff_exists.1 (h.listed r hr n hn)
      obtain ⟨ls', hls', -⟩ := a3.lines n ls hls
      rw [a5]
      show (dictGet? t.formatted n).isSome = true
      rw [hls']; rfl
    · rw [← hq] at hr
      exact a1 r hr n hn
  · intro r hr
    rcases List.mem_append.1 hr with hr | hr
    · exact List.mem_append_left _ (h.handled r hr)
    · exact List.mem_append_right _ hr
  · intro h0
    rw [a5, hx]
    show s.basetime.or (s.queue.head?.map env.timestamp) = (l.ever ++ l.waiting).head?.map env.timestamp
    rw [h.basetime h0, hq]
    cases l.ever <;> rfl
  · intro nm hd
    obtain ⟨p1, p2, p3⟩ := h.plain nm hd
    obtain ⟨q1, q2, q3⟩ := updateMessages_plain hd s.queue hg
      ⟨p1.noError, p1.signals, p1.names, p1.known⟩ ho
    exact ⟨q1, q2 p2, fun hst => q3 (p3 hst).1 (p3 hst).2⟩

theorem Inv.tick {l : Spec.Ledger R} (h : Inv env l s) {resized : Option Nat} {d : Option Screen}
    (ho : tick env resized s = .ok (s', d)) : Inv env (l.next (.tick resized)) s' := by
  unfold Monitor.tick at ho
  simp only [Except.bind_eq_ok] at ho
  obtain ⟨s1, h1, h2⟩ := ho
  have hi : Inv env (l.next (.tick resized)) s1 := by
    show Inv env (if l.playing then _ else l) s1
    by_cases hp : s.playing = true
    · have hp' : l.playing = true := h.playing.symm.trans hp
      simp only [if_pos hp, if_pos hp'] at h1 ⊢
      exact h.messages h1
    · have hp' : ¬ l.playing = true := fun x => hp (h.playing.trans x)
      simp only [if_neg hp, if_neg hp', updateMessages, List.foldlM_nil, Except.pure_eq_ok] at h1 ⊢
      rw [← h1]
      exact h
  generalize (if s.playing = true then s.queue else []) = frames at h2
  split at h2
  · simp only [Except.bind_eq_ok, Except.pure_eq_ok, Prod.mk.injEq] at h2
    obtain ⟨⟨s3, d'⟩, h3, rfl, -⟩ := h2
    obtain ⟨f, rfl⟩ := redraw_spec h3
    exact hi.drawn _ _ _
  · simp only [Except.pure_eq_ok, Prod.mk.injEq] at h2
    obtain ⟨rfl, -⟩ := h2
    exact hi.drawn _ _ s1.firstRow

theorem editFilter_spec {k : Key} (h : editFilter s k = .ok s') :
    (∃ f c sh o md fr, s' = { s with filter := f, cursor := c, showFilter := sh, oldFilter := o
                                     modified := md, firstRow := fr }) ∧
      s'.showFilter = (if k = .enter ∨ k = .escape then false else s.showFilter) ∧
      (s.oldFilter.isSome = true → s.cursor ≤ s.filter.length → s'.showFilter = true →
        s'.oldFilter.isSome = true ∧ s'.cursor ≤ s'.filter.length) := by
  cases k <;> simp only [editFilter] at h
  case escape =>
    split at h
    · cases h
    · cases h
      exact ⟨⟨_, _, _, _, _, _, rfl⟩, rfl, fun _ _ h => nomatch h⟩
  all_goals simp only [Except.ok.injEq] at h
  all_goals subst h
  case enter => exact ⟨⟨_, _, _, _, _, _, rfl⟩, rfl, fun _ _ h => nomatch h⟩
  case backspace =>
    split
    · exact ⟨⟨_, _, _, _, _, _, rfl⟩, rfl, fun a b _ => ⟨a, by simp; omega⟩⟩
    · exact ⟨⟨_, _, _, _, _, _, rfl⟩, rfl, fun a b _ => ⟨a, b⟩⟩
  case delete =>
    split
    · exact ⟨⟨_, _, _, _, _, _, rfl⟩, rfl, fun a b _ => ⟨a, by simp; omega⟩⟩
    · exact ⟨⟨_, _, _, _, _, _, rfl⟩, rfl, fun a b _ => ⟨a, b⟩⟩
  case left =>
    split
    · exact ⟨⟨_, _, _, _, _, _, rfl⟩, rfl, fun a b _ => ⟨a, by show s.cursor - 1 ≤ s.filter.length; omega⟩⟩
    · exact ⟨⟨_, _, _, _, _, _, rfl⟩, rfl, fun a b _ => ⟨a, b⟩⟩
  case right =>
    split
    · exact ⟨⟨_, _, _, _, _, _, rfl⟩, rfl, fun a b _ => ⟨a, by show s.cursor + 1 ≤ s.filter.length; omega⟩⟩
    · exact ⟨⟨_, _, _, _, _, _, rfl⟩, rfl, fun a b _ => ⟨a, b⟩⟩
  case char c => exact ⟨⟨_, _, _, _, _, _, rfl⟩, rfl, fun a b _ => ⟨a, by simp; omega⟩⟩
  all_goals exact ⟨⟨_, _, _, _, _, _, rfl⟩, rfl, fun a b _ => ⟨a, b⟩⟩

/-- The state in which all messages are formatted again. -/
theorem Inv.cleared {l : Spec.Ledger R} (h : Inv env l s) {t : State R}
    (ht : ∃ f c sh o md fr, t = { s with filter := f, cursor := c, showFilter := sh, oldFilter := o
                                         modified := md, firstRow := fr }) :
    let c : State R := { compileFilter env t with names := [], signals := [], formatted := [] }
    Good env c ∧ Stored env c (s.raw.map (·.2)) ∧ c.raw = s.raw ∧
      (∀ nm, Spec.OnlyDecoded env nm → Plain nm c ∧ Kept c ∧ Filtered nm c ∧ Content env nm c) := by
  obtain ⟨f, c, sh, o, md, fr, rfl⟩ := ht
  refine ⟨⟨⟨List.Pairwise.nil, (fun _ h => nomatch h), (fun _ h => nomatch h)⟩, (fun _ h => nomatch h)⟩,
    ?_, rfl, ?_⟩
  · intro r hr
    obtain ⟨p, hp, rfl⟩ := List.mem_map.1 hr
    have hp' := hp
    rw [h.raw] at hp
    obtain ⟨a, -, b⟩ := rawOf_mem hp
    rw [← h.raw] at b
    exact ⟨p.1, a, b⟩
  · intro nm hd
    exact ⟨⟨(h.plain nm hd).1.noError, (fun _ _ h => nomatch h), (fun _ h => nomatch h),
      (fun _ h => nomatch h)⟩, (fun _ h => nomatch h), (fun _ h => nomatch h), (fun _ _ h => nomatch h)⟩

theorem Inv.filterKey {l : Spec.Ledger R} (h : Inv env l s) (he : s.showFilter = true) {k : Key}
    (ho : filterKey env s k = .ok s') : Inv env (l.next (.key k)) s' := by
  unfold Monitor.filterKey at ho
  simp only [Except.bind_eq_ok, Except.pure_eq_ok] at ho
  obtain ⟨t, h1, s2, h2, rfl⟩ := ho
  obtain ⟨e1, e2, e3⟩ := editFilter_spec h1
  obtain ⟨c1, c2, c3, c4⟩ := h.cleared e1
  rw [reformat_eq] at h2
  obtain ⟨ef, ec, es, eo, em, er, ht⟩ := e1
  have hraw : t.raw = s.raw := c3
  have h2' : (s.raw.map (·.2)).foldlM (again env)
      { compileFilter env t with names := [], signals := [], formatted := [] } = .ok s2 := by
    rw [← hraw]; exact h2
  obtain ⟨a1, a2, a3, a4, -⟩ := agains_spec (nm := fun _ => []) _ c1 c2 h2'
  have a5 := fun nm => (agains_spec (nm := nm) _ c1 c2 h2').2.2.2.2
  obtain ⟨x1, x2, x3, x4, x5, x6, hx⟩ := a3.rest
  have hl : l.next (.key k) = { l with editing := !(k = .enter ∨ k = .escape : Bool), stale := false } := by
    show (if l.editing then _ else _) = _
    rw [← h.editing, he, if_pos rfl]
  rw [hl]
  refine ⟨⟨⟨a1.core.sorted, a1.core.listed, a1.core.shown⟩, a1.recorded⟩, ?_, ?_, ?_, ?_, ?_, ?_, ?_, ?_,
    ?_, ?_, h.handled, ?_, ?_⟩
  · exact a2.trans (c3.trans h.raw)
  · rw [hx]
    show t.showFilter = _
    rw [e2, he]
    by_cases hk : k = .enter ∨ k = .escape <;> simp [hk]
  · rw [hx]; show t.playing = _; rw [ht]; exact h.playing
  · rw [hx]; show t.queue = _; rw [ht]; exact h.queue
  · rw [hx]; show t.received = _; rw [ht]; exact h.received
  · rw [hx]; show t.discarded = _; rw [ht]; exact h.discarded
  · rw [hx]; show t.errors = _; rw [ht]; exact h.errors
  · rw [hx]; show t.showFilter = true → t.oldFilter.isSome = true ∧ t.cursor ≤ t.filter.length
    exact e3 (h.cursor he).1 (h.cursor he).2
  · rw [hx]; exact .inl rfl
  · intro r hr n hn
    have hev := h.handled r hr
    have hl : (Spec.latest env n l.ever).isSome = true := by
      unfold Spec.latest
      rw [List.getLast?_isSome]
      intro hc
      have : r ∈ l.ever.filter fun r => decide (Spec.nameOf (env.interpret r) = some n) :=
        List.mem_filter.2 ⟨hev, by simpa using hn⟩
      rw [hc] at this
      cases this
    obtain ⟨r', hr'⟩ := Option.isSome_iff_exists.1 hl
    have hg : dictGet? s.raw n = some r' := by
      rw [h.raw, dictGet?_rawOf, hr']; rfl
    have hm := dictGet?_mem hg
    have hn' : Spec.nameOf (env.interpret r') = some n := by
      rw [h.raw] at hm
      exact (rawOf_mem hm).1
    exact a4 r' (List.mem_map.2 ⟨_, hm, rfl⟩) n hn'
  · intro h0
    have hb := h.basetime h0
    rw [hx]
    show t.basetime.or ((s.raw.map (·.2)).head?.map env.timestamp) = _
    rw [ht]
    show s.basetime.or _ = _
    cases hev : l.ever with
    | nil =>
      have hr := h.raw
      rw [hev] at hr hb
      rw [hb, hr]; rfl
    | cons r rest =>
      rw [hev] at hb
      rw [hb]; rfl
  · intro nm hd
    obtain ⟨p1, p2, p3, p4⟩ := c4 nm hd
    obtain ⟨q1, q2, q3⟩ := a5 nm hd p1
    exact ⟨⟨q1.noError, q1.signals, q1.names, q1.known⟩, q2 p2, fun _ => q3 p3 p4⟩

theorem Inv.menuKey {l : Spec.Ledger R} (h : Inv env l s) (he : s.showFilter = false) {k : Key}
    (ho : menuKey s k = some s') : Inv env (l.next (.key k)) s' := by
  have hle : l.editing = false := h.editing.symm.trans he
  have hl : l.next (.key k) =
      if k = .char 'p' then { l with playing := !l.playing }
      else if k = .char 'r' then
        { l with playing := true, waiting := [], handled := [], resets := l.resets + 1, stale := true }
      else if k = .char 'f' ∨ k = .char '/' then { l with editing := true }
      else l := by
    show (if l.editing then _ else _) = _
    rw [hle]
    rfl
  rw [hl]
  have hc : s.showFilter = true → s.oldFilter.isSome = true ∧ s.cursor ≤ s.filter.length := h.cursor
  cases k with
  | char c =>
    simp only [Monitor.menuKey] at ho
    simp only [Key.char.injEq]
    by_cases hq : c = 'q'
    · rw [if_pos hq] at ho; cases ho
    · rw [if_neg hq] at ho
      by_cases hp : c = 'p'
      · rw [if_pos hp] at ho ⊢
        cases ho
        exact ⟨⟨⟨h.good.core.sorted, h.good.core.listed, h.good.core.shown⟩, h.good.recorded⟩, h.raw,
          h.editing, by rw [← h.playing], h.queue, h.received, h.discarded, h.errors, h.cursor, h.search,
          h.listed, h.handled, h.basetime, fun nm hd =>
            ⟨⟨(h.plain nm hd).1.noError, (h.plain nm hd).1.signals, (h.plain nm hd).1.names,
              (h.plain nm hd).1.known⟩, (h.plain nm hd).2.1, (h.plain nm hd).2.2⟩⟩
      · rw [if_neg hp] at ho ⊢
        by_cases hr : c = 'r'
        · rw [if_pos hr] at ho ⊢
          cases ho
          exact ⟨⟨⟨List.Pairwise.nil, (fun _ h => nomatch h), (fun _ h => nomatch h)⟩, h.good.recorded⟩,
            h.raw, h.editing, rfl, rfl, rfl, rfl, h.errors,
            fun hx => absurd (he.symm.trans hx) Bool.false_ne_true, .inr ⟨rfl, rfl⟩,
            (fun _ h => nomatch h), (fun _ h => nomatch h), (fun h0 => absurd h0 (Nat.succ_ne_zero _)),
            fun nm hd => ⟨⟨(h.plain nm hd).1.noError, (h.plain nm hd).1.signals, (fun _ h => nomatch h),
              (fun _ h => nomatch h)⟩, (fun _ h => nomatch h), fun hst => nomatch hst⟩⟩
        · rw [if_neg hr] at ho ⊢
          by_cases hf : c = 'f' ∨ c = '/'
          · rw [if_pos hf] at ho ⊢
            cases ho
            exact ⟨⟨⟨h.good.core.sorted, h.good.core.listed, h.good.core.shown⟩, h.good.recorded⟩, h.raw,
              rfl, h.playing, h.queue, h.received, h.discarded, h.errors, fun _ => ⟨rfl, Nat.le_refl _⟩,
              h.search, h.listed, h.handled, h.basetime, fun nm hd =>
                ⟨⟨(h.plain nm hd).1.noError, (h.plain nm hd).1.signals, (h.plain nm hd).1.names,
                  (h.plain nm hd).1.known⟩, (h.plain nm hd).2.1, (h.plain nm hd).2.2⟩⟩
          · rw [if_neg hf] at ho ⊢
            cases ho
            exact h
  | up => cases ho; exact h.drawn true s.nrows _
  | down => cases ho; exact h.drawn true s.nrows _
  | pageUp => cases ho; exact h.drawn true s.nrows _
  | pageDown => cases ho; exact h.drawn true s.nrows _
  | _ => cases ho; exact h

theorem Inv.step {l : Spec.Ledger R} (h : Inv env l s) {e : Event R} {d : Option Screen}
    (ho : step env s e = .ok (some (s', d))) : Inv env (l.next e) s' := by
  cases e with
  | frame r => cases ho; exact h.frame r
  | tick resized =>
    simp only [Monitor.step, Except.map_eq_ok, Option.some.injEq] at ho
    obtain ⟨p, h1, rfl⟩ := ho
    exact h.tick h1
  | key k =>
    simp only [Monitor.step] at ho
    split at ho
    · rename_i he
      simp only [Except.map_eq_ok, Option.some.injEq, Prod.mk.injEq] at ho
      obtain ⟨p, h1, rfl, -⟩ := ho
      exact h.filterKey he h1
    · rename_i he
      simp only [Except.ok.injEq, Option.map_eq_some_iff, Prod.mk.injEq] at ho
      obtain ⟨p, h1, rfl, -⟩ := ho
      exact h.menuKey (by simpa using he) h1

/-- The invariant of all runs. -/
theorem run_inv {rows : Nat} {history : List (Event R)} {d : Option Screen}
    (h : Spec.MonitorRun env rows history s d) :
    Inv env (Spec.ledger history) s := by
  induction h with
  | start filter => exact Inv.init filter rows
  | step e _ h2 ih =>
    unfold Spec.ledger at ih ⊢
    rw [List.foldl_append]
    exact ih.step h2

/-- Drawing succeeds. -/
theorem redraw_ok (h : Core s) : ∃ p, redraw s = .ok p := by
  have hall : ∀ n ∈ s.names, ∃ v, dictGet s.formatted n = .ok v ∧ True := by
    intro n hn
    cases hx : dictGet? s.formatted n with
    | some v => exact ⟨v, dictGet_eq_ok.2 hx, trivial⟩
    | none => exact absurd ((h.listed n hn).resolve_left id) ((dictGet?_eq_none_iff _ _).1 hx)
  obtain ⟨ls, h1, -⟩ := Kcd.mapM_exists hall
  unfold redraw
  rw [h1]
  exact ⟨_, rfl⟩

/-- Nothing fails in a state of a run. -/
theorem Inv.step_ok (hsep : Spec.SeparateNames env) {l : Spec.Ledger R} (h : Inv env l s) (e : Event R) :
    ∃ r, Monitor.step env s e = .ok r := by
  cases e with
  | frame r => exact ⟨_, rfl⟩
  | tick resized =>
    have hg : ∀ q, Good env { s with queue := q } := fun q =>
      ⟨⟨h.good.core.sorted, h.good.core.listed, h.good.core.shown⟩, h.good.recorded⟩
    obtain ⟨s1, h1⟩ := updateMessages_ok hsep (if s.playing then s.queue else [])
      (hg (if s.playing then [] else s.queue))
    obtain ⟨-, t, a2, a3, -, a5⟩ := updateMessages_spec _ (hg (if s.playing then [] else s.queue)) h1
    have hgood : Good env s1 := by rw [a5]; exact a2.counters _ _ _
    obtain ⟨p, hp⟩ := redraw_ok (s := { s1 with modified := false, nrows := resized.getD s1.nrows })
      ⟨hgood.core.sorted, hgood.core.listed, hgood.core.shown⟩
    simp only [Monitor.step, Monitor.tick]
    rw [h1]
    simp only [Kcd.Except.ok_bind', hp]
    generalize (if s.playing = true then s.queue else []) = frames
    split
    · exact ⟨_, rfl⟩
    · exact ⟨_, rfl⟩
  | key k =>
    simp only [Monitor.step]
    split
    · rename_i he
      have h1 : ∃ t, editFilter s k = .ok t := by
        cases k <;> simp only [editFilter]
        case escape =>
          obtain ⟨f, hf⟩ := Option.isSome_iff_exists.1 (h.cursor he).1
          rw [hf]
          exact ⟨_, rfl⟩
        all_goals exact ⟨_, rfl⟩
      obtain ⟨t, h1⟩ := h1
      obtain ⟨e1, -, -⟩ := editFilter_spec h1
      obtain ⟨c1, c2, c3, -⟩ := h.cleared e1
      obtain ⟨s2, h2⟩ := agains_ok hsep _ c1 c2
      have hraw : t.raw = s.raw := c3
      have h2' : reformat env (compileFilter env t) = .ok s2 := by
        rw [reformat_eq]
        show (t.raw.map (·.2)).foldlM _ _ = _
        rw [hraw]
        exact h2
      unfold Monitor.filterKey
      rw [h1]
      simp only [Kcd.Except.ok_bind', h2']
      exact ⟨_, rfl⟩
    · exact ⟨_, rfl⟩

/-! ### The screen -/

/-- All lines of all messages. -/
def allLines (s : State R) : List String := s.names.flatMap fun n => (dictGet? s.formatted n).getD []

/-- Where the window on the lines begins. -/
def windowStart (s : State R) : Int :=
  let rows : Int := (s.nrows : Int) - 2 - 1
  if ((allLines s).length : Int) < s.firstRow + rows then max 0 ((allLines s).length - rows) else s.firstRow

theorem redraw_eq {d : Screen} (h : redraw s = .ok (s', d)) :
    s' = { s with firstRow := windowStart s } ∧
    d = { received := s.received, discarded := s.discarded, errors := s.errors, filter := s.filter
          lines := slice (allLines s) (windowStart s) (windowStart s + ((s.nrows : Int) - 2 - 1))
          editing := if s.showFilter then some (s.filter, s.cursor) else none } := by
  unfold redraw at h
  simp only [Except.bind_eq_ok, Except.pure_eq_ok, Prod.mk.injEq] at h
  obtain ⟨ls, h1, h2, h3⟩ := h
  have hl : ls.flatten = allLines s := by
    have : ∀ (names : List String) (ls : List (List String)),
        names.mapM (fun n => dictGet s.formatted n) = .ok ls →
        ls = names.map fun n => (dictGet? s.formatted n).getD [] := by
      intro names
      induction names with
      | nil => intro ls h; simp only [List.mapM_nil, Except.pure_eq_ok] at h; subst h; rfl
      | cons n r ih =>
        intro ls h
        simp only [List.mapM_cons, Except.bind_eq_ok, Except.pure_eq_ok, dictGet_eq_ok] at h
        obtain ⟨v, hv, vs, hvs, rfl⟩ := h
        rw [ih vs hvs, List.map_cons, hv]
        rfl
    rw [this _ _ h1, allLines, List.flatMap_def]
  rw [hl] at h2 h3
  exact ⟨h2.symm, h3.symm⟩

theorem windowStart_idem : windowStart { s with firstRow := windowStart s } = windowStart s := by
  have : allLines { s with firstRow := windowStart s } = allLines s := rfl
  show (if ((allLines s).length : Int) < windowStart s + ((s.nrows : Int) - 2 - 1) then
    max 0 (((allLines s).length : Int) - ((s.nrows : Int) - 2 - 1)) else windowStart s) = windowStart s
  unfold windowStart
  simp only
  split
  · split <;> omega
  · rfl

/-- Drawing again changes nothing. -/
theorem redraw_idem {d : Screen} (h : redraw s = .ok (s', d)) : redraw s' = .ok (s', d) := by
  obtain ⟨h1, h2⟩ := redraw_eq h
  have hok : ∃ p, redraw s' = .ok p := by
    unfold redraw at h ⊢
    simp only [Except.bind_eq_ok] at h
    obtain ⟨ls, h3, -⟩ := h
    have h3' : s'.names.mapM (fun n => dictGet s'.formatted n) = .ok ls := by rw [h1]; exact h3
    rw [h3']
    exact ⟨_, rfl⟩
  obtain ⟨⟨t, d'⟩, h3⟩ := hok
  obtain ⟨h4, h5⟩ := redraw_eq h3
  have hw : windowStart s' = windowStart s := by rw [h1]; exact windowStart_idem
  have hf : s'.firstRow = windowStart s := by rw [h1]
  rw [h3, h4, h5, hw, h2]
  have e1 : ({ s' with firstRow := windowStart s } : State R) = s' := by rw [h1]
  rw [e1, h1]
  rfl

/-- What is on the screen is current unless the state is marked as modified. -/
def Current (s : State R) (screen : Option Screen) : Prop :=
  s.modified = false → ∃ d, screen = some d ∧ redraw s = .ok (s, d)

/-- The parts of the state that are not drawn. -/
theorem redraw_congr {d : Screen} (h : redraw s = .ok (s, d)) (q : List R) (p : Bool) :
    redraw { s with queue := q, playing := p } = .ok ({ s with queue := q, playing := p }, d) := by
  obtain ⟨h1, h2⟩ := redraw_eq h
  have hok : ∃ x, redraw { s with queue := q, playing := p } = .ok x := by
    unfold redraw at h ⊢
    simp only [Except.bind_eq_ok] at h
    obtain ⟨ls, h3, -⟩ := h
    simp only [h3]
    exact ⟨_, rfl⟩
  obtain ⟨⟨t, d'⟩, h3⟩ := hok
  obtain ⟨h4, h5⟩ := redraw_eq h3
  have hw : windowStart { s with queue := q, playing := p } = windowStart s := rfl
  have hf : s.firstRow = windowStart s := by rw [h1]; exact windowStart_idem.symm
  rw [h3, h4, h5, h2, hw, ← hf]
  rfl

theorem tick_current {screen d : Option Screen} {resized : Option Nat} (h : Current s screen)
    (ho : tick env resized s = .ok (s', d)) :
    s'.modified = false ∧ Current s' (d.or screen) := by
  unfold tick at ho
  simp only [Except.bind_eq_ok] at ho
  obtain ⟨s1, h1, h2⟩ := ho
  generalize hfr : (if s.playing = true then s.queue else []) = frames at h1 h2
  split at h2
  · simp only [Except.bind_eq_ok, Except.pure_eq_ok, Prod.mk.injEq] at h2
    obtain ⟨⟨s3, d'⟩, h3, rfl, rfl⟩ := h2
    obtain ⟨f, rfl⟩ := redraw_spec h3
    exact ⟨rfl, fun _ => ⟨d', rfl, redraw_idem h3⟩⟩
  · rename_i hc
    simp only [Except.pure_eq_ok, Prod.mk.injEq] at h2
    obtain ⟨rfl, rfl⟩ := h2
    refine ⟨rfl, fun _ => ?_⟩
    have hc1 : frames = [] := Classical.byContradiction fun x => hc (.inl x)
    have hc2 : s1.modified = false := by
      cases hm : s1.modified with
      | false => rfl
      | true => exact absurd (.inr (.inl hm)) hc
    have hc3 : resized = none := by
      cases resized with
      | none => rfl
      | some v => exact absurd (.inr (.inr rfl)) hc
    subst hc1 hc3
    simp only [updateMessages, List.foldlM_nil, Except.pure_eq_ok] at h1
    subst h1
    obtain ⟨d', e1, e2⟩ := h hc2
    refine ⟨d', e1, ?_⟩
    have e3 := redraw_congr e2 (if s.playing = true then [] else s.queue) s.playing
    have e4 : ({ s with queue := if s.playing = true then [] else s.queue, playing := s.playing } : State R) =
        { s with queue := if s.playing = true then [] else s.queue, modified := false } := by
      rw [← (show s.modified = false from hc2)]
    rw [e4] at e3
    exact e3

theorem step_current {screen d : Option Screen} {e : Event R} (h : Current s screen)
    (ho : step env s e = .ok (some (s', d))) : Current s' (d.or screen) := by
  cases e with
  | frame r =>
    cases ho
    intro hm
    obtain ⟨d', e1, e2⟩ := h hm
    exact ⟨d', e1, redraw_congr e2 _ s.playing⟩
  | tick resized =>
    simp only [step, Except.map_eq_ok, Option.some.injEq] at ho
    obtain ⟨p, h1, rfl⟩ := ho
    exact (tick_current h h1).2
  | key k =>
    simp only [step] at ho
    split at ho
    · simp only [Except.map_eq_ok, Option.some.injEq, Prod.mk.injEq] at ho
      obtain ⟨p, h1, rfl, rfl⟩ := ho
      unfold filterKey at h1
      simp only [Except.bind_eq_ok, Except.pure_eq_ok] at h1
      obtain ⟨t, -, t', -, rfl⟩ := h1
      exact fun hm => nomatch hm
    · simp only [Except.ok.injEq, Option.map_eq_some_iff, Prod.mk.injEq] at ho
      obtain ⟨p, h1, rfl, rfl⟩ := ho
      cases k with
      | char c =>
        simp only [menuKey] at h1
        split at h1
        · cases h1
        · split at h1
          · cases h1
            intro hm
            obtain ⟨d', e1, e2⟩ := h hm
            exact ⟨d', e1, redraw_congr e2 s.queue _⟩
          · split at h1
            · cases h1; exact fun hm => nomatch hm
            · split at h1
              · cases h1; exact fun hm => nomatch hm
              · cases h1; exact h
      | up => cases h1; exact fun hm => nomatch hm
      | down => cases h1; exact fun hm => nomatch hm
      | pageUp => cases h1; exact fun hm => nomatch hm
      | pageDown => cases h1; exact fun hm => nomatch hm
      | _ => cases h1; exact h

theorem run_current {rows : Nat} {history : List (Event R)} {screen : Option Screen}
    (h : Spec.MonitorRun env rows history s screen) : Current s screen := by
  induction h with
  | start filter => exact fun hm => nomatch hm
  | step e _ h2 ih => exact step_current ih h2

/-- After a tick the screen is current. -/
theorem run_screen {rows : Nat} {history : List (Event R)} {resized : Option Nat} {screen : Option Screen}
    (h : Spec.MonitorRun env rows (history ++ [.tick resized]) s screen) :
    ∃ d, screen = some d ∧ redraw s = .ok (s, d) := by
  have hc := run_current h
  refine hc ?_
  generalize hh : history ++ [Event.tick resized] = hist at h
  cases h with
  | start filter => simp at hh
  | step e h1 h2 =>
    obtain ⟨-, he⟩ := List.append_inj' hh rfl
    simp only [List.cons.injEq, and_true] at he
    subst he
    simp only [step, Except.map_eq_ok, Option.some.injEq] at h2
    obtain ⟨p, h3, rfl⟩ := h2
    exact (tick_current (run_current h1) h3).1

/-! ### The window -/

theorem scroll_rows {k : Key} (h : 3 ≤ s.nrows) (hf : 0 ≤ s.firstRow) :
    (scroll s k).nrows = s.nrows ∧ 0 ≤ (scroll s k).firstRow := by
  refine ⟨rfl, ?_⟩
  unfold scroll
  cases k <;> simp only <;> omega

theorem windowStart_nonneg (hf : 0 ≤ s.firstRow) : 0 ≤ windowStart s := by
  unfold windowStart
  simp only
  split <;> omega

theorem editFilter_rows {k : Key} (h : 3 ≤ s.nrows) (hf : 0 ≤ s.firstRow)
    (ho : editFilter s k = .ok s') : s'.nrows = s.nrows ∧ 0 ≤ s'.firstRow := by
  cases k <;> simp only [editFilter] at ho
  case escape => split at ho <;> cases ho; exact ⟨rfl, hf⟩
  all_goals simp only [Except.ok.injEq] at ho
  all_goals subst ho
  case up => exact scroll_rows h hf
  case down => exact scroll_rows h hf
  case pageUp => exact scroll_rows h hf
  case pageDown => exact scroll_rows h hf
  all_goals first | exact ⟨rfl, hf⟩ | (split <;> exact ⟨rfl, hf⟩)

theorem step_rows {l : Spec.Ledger R} {e : Event R} {d : Option Screen} (hi : Inv env l s)
    (h : 3 ≤ s.nrows) (hf : 0 ≤ s.firstRow) (he : ∀ n, e = .tick (some n) → 3 ≤ n)
    (ho : step env s e = .ok (some (s', d))) : 3 ≤ s'.nrows ∧ 0 ≤ s'.firstRow := by
  cases e with
  | frame r => cases ho; exact ⟨h, hf⟩
  | tick resized =>
    simp only [step, Except.map_eq_ok, Option.some.injEq] at ho
    obtain ⟨p, h1, rfl⟩ := ho
    unfold tick at h1
    simp only [Except.bind_eq_ok] at h1
    obtain ⟨s1, h1, h2⟩ := h1
    have hg : ∀ q, Good env { s with queue := q } := fun q =>
      ⟨⟨hi.good.core.sorted, hi.good.core.listed, hi.good.core.shown⟩, hi.good.recorded⟩
    obtain ⟨-, t, -, a3, -, a5⟩ := updateMessages_spec _ (hg _) h1
    obtain ⟨x1, x2, x3, x4, x5, x6, hx⟩ := a3.rest
    have hr : s1.nrows = s.nrows ∧ s1.firstRow = s.firstRow := by
      rw [a5, hx]; exact ⟨rfl, rfl⟩
    have hn : 3 ≤ resized.getD s1.nrows := by
      cases resized with
      | none => show 3 ≤ s1.nrows; rw [hr.1]; exact h
      | some n => exact he n rfl
    generalize (if s.playing = true then s.queue else []) = frames at h2
    split at h2
    · simp only [Except.bind_eq_ok, Except.pure_eq_ok, Prod.mk.injEq] at h2
      obtain ⟨⟨s3, d'⟩, h3, rfl, -⟩ := h2
      obtain ⟨h4, -⟩ := redraw_eq h3
      rw [h4]
      refine ⟨hn, windowStart_nonneg ?_⟩
      show 0 ≤ s1.firstRow
      rw [hr.2]; exact hf
    · simp only [Except.pure_eq_ok, Prod.mk.injEq] at h2
      obtain ⟨rfl, -⟩ := h2
      refine ⟨hn, ?_⟩
      show 0 ≤ s1.firstRow
      rw [hr.2]; exact hf
  | key k =>
    simp only [step] at ho
    split at ho
    · simp only [Except.map_eq_ok, Option.some.injEq, Prod.mk.injEq] at ho
      obtain ⟨p, h1, rfl, rfl⟩ := ho
      unfold filterKey at h1
      simp only [Except.bind_eq_ok, Except.pure_eq_ok] at h1
      obtain ⟨t, h1, s2, h2, rfl⟩ := h1
      obtain ⟨e1, -, -⟩ := editFilter_spec h1
      obtain ⟨c1, c2, c3, -⟩ := hi.cleared e1
      have hraw : t.raw = s.raw := c3
      have h2' : (s.raw.map (·.2)).foldlM (again env)
          { compileFilter env t with names := [], signals := [], formatted := [] } = .ok s2 := by
        rw [← hraw]; exact h2
      obtain ⟨-, -, a3, -⟩ := agains_spec (nm := fun _ => []) _ c1 c2 h2'
      obtain ⟨x1, x2, x3, x4, x5, x6, hx⟩ := a3.rest
      obtain ⟨r1, r2⟩ := editFilter_rows h hf h1
      have hr : s2.nrows = t.nrows ∧ s2.firstRow = t.firstRow := by
        rw [hx]; exact ⟨rfl, rfl⟩
      exact ⟨by show 3 ≤ s2.nrows; rw [hr.1, r1]; exact h, by show 0 ≤ s2.firstRow; rw [hr.2]; exact r2⟩
    · simp only [Except.ok.injEq, Option.map_eq_some_iff, Prod.mk.injEq] at ho
      obtain ⟨p, h1, rfl, rfl⟩ := ho
      have hsc : ∀ k, 3 ≤ (scroll s k).nrows ∧ 0 ≤ (scroll s k).firstRow := fun k =>
        ⟨h, (scroll_rows h hf).2⟩
      cases k with
      | char c =>
        simp only [menuKey] at h1
        split at h1
        · cases h1
        · split at h1
          · cases h1; exact ⟨h, hf⟩
          · split at h1
            · cases h1; exact ⟨h, hf⟩
            · split at h1
              · cases h1; exact ⟨h, hf⟩
              · cases h1; exact ⟨h, hf⟩
      | up => cases h1; exact hsc _
      | down => cases h1; exact hsc _
      | pageUp => cases h1; exact hsc _
      | pageDown => cases h1; exact hsc _
      | _ => cases h1; exact ⟨h, hf⟩

theorem run_rows {rows : Nat} {history : List (Event R)} {screen : Option Screen}
    (h : Spec.MonitorRun env rows history s screen) (hr : 3 ≤ rows)
    (hh : ∀ n, .tick (some n) ∈ history → 3 ≤ n) : 3 ≤ s.nrows ∧ 0 ≤ s.firstRow := by
  induction h with
  | start filter => exact ⟨hr, Int.le_refl 0⟩
  | step e h1 h2 ih =>
    obtain ⟨i1, i2⟩ := ih fun n hn => hh n (List.mem_append_left _ hn)
    exact step_rows (run_inv h1) i1 i2 (fun n hn => hh n (by simp [hn])) h2

/-- The window on a list. -/
theorem window (h : 3 ≤ s.nrows) (hf : 0 ≤ s.firstRow) :
    let w := slice (allLines s) (windowStart s) (windowStart s + ((s.nrows : Int) - 2 - 1))
    w <:+: allLines s ∧ w.length = min (s.nrows - 3) (allLines s).length := by
  have hw := windowStart_nonneg hf
  have hlt : ¬ windowStart s < 0 := by omega
  have hlt' : ¬ windowStart s + ((s.nrows : Int) - 2 - 1) < 0 := by omega
  simp only [slice, if_neg hlt, if_neg hlt']
  constructor
  · exact (List.drop_suffix _ _).isInfix.trans (List.take_prefix _ _).isInfix
  · rw [List.length_drop, List.length_take]
    have : windowStart s = if ((allLines s).length : Int) < s.firstRow + ((s.nrows : Int) - 2 - 1) then
        max 0 ((allLines s).length - ((s.nrows : Int) - 2 - 1)) else s.firstRow := rfl
    split at this <;> omega

/-! ### Signals that are shown -/

theorem visible_map (search : Option (String → Bool)) (n : String) (sigs : List (String × String)) :
    (Spec.visible search n sigs).map (·.1) = signalsMatchingFilter search n (sigs.map (·.1)) := by
  unfold Spec.visible signalsMatchingFilter
  cases search with
  | none => simp
  | some f =>
    simp only
    cases hf : f n with
    | true => simp
    | false =>
      simp only [Bool.false_or, Bool.false_eq_true, if_false, List.filter_map]
      rfl

theorem visible_eq (search : Option (String → Bool)) (n : String) (sigs : List (String × String)) :
    (sigs.filter fun x => x.1 ∈ signalsMatchingFilter search n (sigs.map (·.1))) =
      Spec.visible search n sigs := by
  unfold Spec.visible
  refine List.filter_congr fun x hx => ?_
  have hm : x.1 ∈ sigs.map (·.1) := List.mem_map_of_mem hx
  rw [Bool.eq_iff_iff, decide_eq_true_iff]
  cases search with
  | none => exact ⟨fun _ => rfl, fun _ => hm⟩
  | some f =>
    simp only [signalsMatchingFilter]
    by_cases hf : f n = true
    · rw [if_pos hf, hf]
      exact ⟨fun _ => rfl, fun _ => hm⟩
    · rw [if_neg hf, List.mem_filter, Bool.or_eq_true]
      exact ⟨fun h => .inr h.2, fun h => ⟨hm, h.resolve_left hf⟩⟩

/-! ### Editing the filter -/

theorem filterKey_fields {l : Spec.Ledger R} (h : Inv env l s) {k : Key}
    (ho : filterKey env s k = .ok s') : ∃ t, editFilter s k = .ok t ∧ s'.filter = t.filter ∧
      s'.showFilter = t.showFilter ∧ s'.oldFilter = t.oldFilter ∧ s'.compiled = env.compile t.filter := by
  unfold filterKey at ho
  simp only [Except.bind_eq_ok, Except.pure_eq_ok] at ho
  obtain ⟨t, h1, s2, h2, rfl⟩ := ho
  obtain ⟨e1, -, -⟩ := editFilter_spec h1
  obtain ⟨c1, c2, c3, -⟩ := h.cleared e1
  have hraw : t.raw = s.raw := c3
  have h2' : (s.raw.map (·.2)).foldlM (again env)
      { compileFilter env t with names := [], signals := [], formatted := [] } = .ok s2 := by
    rw [← hraw]; exact h2
  obtain ⟨-, -, a3, -⟩ := agains_spec (nm := fun _ => []) _ c1 c2 h2'
  obtain ⟨x1, x2, x3, x4, x5, x6, hx⟩ := a3.rest
  refine ⟨t, h1, ?_⟩
  rw [hx]
  exact ⟨rfl, rfl, rfl, rfl⟩

theorem editFilter_old {k : Key} (h1 : k ≠ .enter) (h2 : k ≠ .escape) (ho : editFilter s k = .ok s') :
    s'.oldFilter = s.oldFilter ∧ s'.showFilter = s.showFilter := by
  cases k <;> simp only [editFilter] at ho
  case enter => exact absurd rfl h1
  case escape => exact absurd rfl h2
  all_goals simp only [Except.ok.injEq] at ho
  all_goals subst ho
  all_goals first | exact ⟨rfl, rfl⟩ | (split <;> exact ⟨rfl, rfl⟩)

theorem step_editing {l : Spec.Ledger R} (hi : Inv env l s) (he : s.showFilter = true) {e : Event R}
    (h1 : e ≠ .key .enter) (h2 : e ≠ .key .escape) {d : Option Screen}
    (ho : step env s e = .ok (some (s', d))) : s'.showFilter = true ∧ s'.oldFilter = s.oldFilter := by
  cases e with
  | frame r => cases ho; exact ⟨he, rfl⟩
  | tick resized =>
    simp only [step, Except.map_eq_ok, Option.some.injEq] at ho
    obtain ⟨p, h1, rfl⟩ := ho
    unfold tick at h1
    simp only [Except.bind_eq_ok] at h1
    obtain ⟨s1, h1, h2⟩ := h1
    have hg : ∀ q, Good env { s with queue := q } := fun q =>
      ⟨⟨hi.good.core.sorted, hi.good.core.listed, hi.good.core.shown⟩, hi.good.recorded⟩
    obtain ⟨-, t, -, a3, -, a5⟩ := updateMessages_spec _ (hg _) h1
    obtain ⟨x1, x2, x3, x4, x5, x6, hx⟩ := a3.rest
    have hr : s1.showFilter = s.showFilter ∧ s1.oldFilter = s.oldFilter := by
      rw [a5, hx]; exact ⟨rfl, rfl⟩
    generalize (if s.playing = true then s.queue else []) = frames at h2
    split at h2
    · simp only [Except.bind_eq_ok, Except.pure_eq_ok, Prod.mk.injEq] at h2
      obtain ⟨⟨s3, d'⟩, h3, rfl, -⟩ := h2
      obtain ⟨h4, -⟩ := redraw_eq h3
      rw [h4]
      exact ⟨hr.1.trans he, hr.2⟩
    · simp only [Except.pure_eq_ok, Prod.mk.injEq] at h2
      obtain ⟨rfl, -⟩ := h2
      exact ⟨hr.1.trans he, hr.2⟩
  | key k =>
    simp only [step, if_pos he, Except.map_eq_ok, Option.some.injEq, Prod.mk.injEq] at ho
    obtain ⟨p, h3, rfl, rfl⟩ := ho
    obtain ⟨t, h4, -, h5, h6, -⟩ := filterKey_fields hi h3
    obtain ⟨h7, h8⟩ := editFilter_old (fun x => h1 (by rw [x])) (fun x => h2 (by rw [x])) h4
    exact ⟨by rw [h5, h8, he], by rw [h6, h7]⟩

theorem escape_steps {rows : Nat} {history : List (Event R)} {screen : Option Screen}
    (h : Spec.MonitorRun env rows history s screen) (he : s.showFilter = true) {f : List Char}
    (hf : s.oldFilter = some f) {events : List (Event R)}
    (hev : .key .enter ∉ events ∧ .key .escape ∉ events)
    (hs : Spec.MonitorSteps env s (events ++ [.key .escape]) s') :
    s'.filter = f ∧ s'.showFilter = false ∧ s'.compiled = env.compile f := by
  induction events generalizing s history screen with
  | nil =>
    cases hs with
    | cons h1 h2 =>
      cases h2
      simp only [step, if_pos he, Except.map_eq_ok, Option.some.injEq, Prod.mk.injEq] at h1
      obtain ⟨p, h3, rfl, -⟩ := h1
      obtain ⟨t, h4, h5, h6, -, h7⟩ := filterKey_fields (run_inv h) h3
      simp only [editFilter, hf, Except.ok.injEq] at h4
      subst h4
      exact ⟨h5, h6, h7⟩
  | cons e r ih =>
    cases hs with
    | cons h1 h2 =>
      obtain ⟨i1, i2⟩ := step_editing (run_inv h) he
        (fun x => hev.1 (by rw [x]; exact List.mem_cons_self ..))
        (fun x => hev.2 (by rw [x]; exact List.mem_cons_self ..)) h1
      exact ih (h.step e h1) i1 (i2.trans hf)
        ⟨fun x => hev.1 (List.mem_cons_of_mem _ x), fun x => hev.2 (List.mem_cons_of_mem _ x)⟩ h2

end

end Cantools.Monitor
