import Verif.Lemmas.MonitorRun

/-
C43: the monitor.
-/

namespace Cantools
open Monitor Spec

section
variable {R : Type} {env : Env R} {rows : Nat} {history : List (Event R)} {s s' : State R}
  {screen : Option Screen} {resized : Option Nat}

/-- Without a reset every frame that arrived is handled or waits, once and in order. -/
theorem C43_each_frame_once (h : (ledger history).resets = 0) :
    (ledger history).handled ++ (ledger history).waiting = framesOf history ∧
      (ledger history).handled = (ledger history).ever := by
  have hmono : ∀ (l : Ledger R) (e : Event R), (l.next e).resets = 0 → l.resets = 0 := by
    intro l e he
    cases e with
    | frame r => exact he
    | tick z => simp only [Ledger.next] at he; split at he <;> exact he
    | key k =>
      simp only [Ledger.next] at he
      split at he
      · exact he
      · split at he
        · exact he
        · split at he
          · exact absurd he (Nat.succ_ne_zero _)
          · split at he <;> exact he
  have key : ∀ (es : List (Event R)) (l : Ledger R), (es.foldl Ledger.next l).resets = 0 →
      l.resets = 0 ∧ (l.handled = l.ever →
        (es.foldl Ledger.next l).handled ++ (es.foldl Ledger.next l).waiting =
          l.handled ++ l.waiting ++ framesOf es ∧
        (es.foldl Ledger.next l).handled = (es.foldl Ledger.next l).ever) := by
    intro es
    induction es with
    | nil => intro l hl; exact ⟨hl, fun he => ⟨by simp [framesOf], he⟩⟩
    | cons e r ih =>
      intro l hl
      rw [List.foldl_cons] at hl ⊢
      obtain ⟨i1, i2⟩ := ih _ hl
      have h0 := hmono l e i1
      refine ⟨h0, fun he => ?_⟩
      have hn : (l.next e).handled = (l.next e).ever ∧
          (l.next e).handled ++ (l.next e).waiting = l.handled ++ l.waiting ++ framesOf [e] := by
        cases e with
        | frame x => exact ⟨he, by simp [Ledger.next, framesOf]⟩
        | tick z =>
          unfold Ledger.next
          dsimp only
          split
          · exact ⟨by simp [he], by simp [framesOf]⟩
          · exact ⟨he, by simp [framesOf]⟩
        | key k =>
          unfold Ledger.next at i1 ⊢
          dsimp only at i1 ⊢
          split
          · exact ⟨he, by simp [framesOf]⟩
          · rename_i hed
            rw [if_neg hed] at i1
            split
            · exact ⟨he, by simp [framesOf]⟩
            · rename_i hp
              rw [if_neg hp] at i1
              split
              · rename_i hr
                rw [if_pos hr] at i1
                exact absurd i1 (Nat.succ_ne_zero _)
              · split <;> exact ⟨he, by simp [framesOf]⟩
      obtain ⟨j1, j2⟩ := i2 hn.1
      refine ⟨?_, j2⟩
      rw [j1, hn.2, List.append_assoc]
      congr 1
      simp [framesOf, List.filterMap_cons]
      cases e <;> rfl
  obtain ⟨-, k2⟩ := key history {} h
  obtain ⟨k3, k4⟩ := k2 rfl
  exact ⟨by simpa [ledger] using k3, k4⟩

/-- C43: after every tick the screen shows the number of frames handled since the last reset, how many
of them belong to no message, and the number of frames since the start that could not be decoded. -/
theorem C43_counters (h : MonitorRun env rows (history ++ [.tick resized]) s screen) :
    ∃ d, screen = some d ∧
      d.received = (ledger (history ++ [.tick resized])).handled.length ∧
      d.discarded = ((ledger (history ++ [.tick resized])).handled.map env.interpret).countP isUnknown ∧
      d.errors = ((ledger (history ++ [.tick resized])).ever.map env.interpret).countP isUndecodable := by
  obtain ⟨d, h1, h2⟩ := run_screen h
  obtain ⟨-, h3⟩ := redraw_eq h2
  have hi := run_inv h
  refine ⟨d, h1, ?_, ?_, ?_⟩
  · rw [h3]; exact hi.received
  · rw [h3]; exact hi.discarded
  · rw [h3]; exact hi.errors

/-- C43: as long as the monitor was not reset, discarded and errors together never exceed received. -/
theorem C43_bounded_partial (h : MonitorRun env rows (history ++ [.tick resized]) s screen)
    (hr : (ledger (history ++ [.tick resized])).resets = 0) :
    ∃ d, screen = some d ∧ d.discarded + d.errors ≤ d.received := by
  obtain ⟨d, h1, h2, h3, h4⟩ := C43_counters h
  refine ⟨d, h1, ?_⟩
  rw [h2, h3, h4, ← (C43_each_frame_once hr).2, ← List.length_map (f := env.interpret)]
  generalize (ledger (history ++ [.tick resized])).handled.map env.interpret = os
  induction os with
  | nil => simp
  | cons o r ih =>
    simp only [List.countP_cons, List.length_cons]
    cases o <;> simp [isUnknown, isUndecodable] <;> omega

/-- C43: the displayed names are sorted, and therefore without duplicates. -/
theorem C43_sorted (h : MonitorRun env rows history s screen) :
    s.names.Pairwise (· < ·) ∧ s.names.Nodup := by
  have hs := (run_inv h).good.core.sorted
  refine ⟨hs, List.Pairwise.imp (fun {a b} (hab : a < b) (he : a = b) => ?_) hs⟩
  subst he
  exact String.lt_irrefl _ hab

/-- C43: every message that has lines and an error, or passes the filter, is displayed, and every
displayed message has lines. -/
theorem C43_listed (h : MonitorRun env rows history s screen) :
    (∀ n ∈ s.names, ∃ lines, dictGet? s.formatted n = some lines) ∧
      ∀ n lines, dictGet? s.formatted n = some lines →
        (n ∈ s.withError ∨ ∀ all, dictGet? s.signals n = some all →
          all ≠ [] ∧ Passes s.compiled n all) → n ∈ s.names := by
  have hc := (run_inv h).good.core
  constructor
  · intro n hn
    cases hx : dictGet? s.formatted n with
    | some v => exact ⟨v, rfl⟩
    | none => exact absurd ((hc.listed n hn).resolve_left id) ((dictGet?_eq_none_iff _ _).1 hx)
  · intro n lines hl hd
    refine hc.shown n ?_ id (hd.imp_right ?_)
    · exact List.mem_map.2 ⟨_, dictGet?_mem hl, rfl⟩
    · intro h1 all hall
      obtain ⟨h2, h3⟩ := h1 all hall
      unfold signalsMatchingFilter
      cases hcm : s.compiled with
      | none => exact h2
      | some f =>
        simp only
        rcases h3 f hcm with h4 | ⟨x, h4, h5⟩
        · rw [if_pos h4]; exact h2
        · split
          · exact h2
          · intro he
            have : x ∈ all.filter f := List.mem_filter.2 ⟨h4, h5⟩
            rw [he] at this
            cases this

/-- C43: the screen shows a window on the lines of the displayed messages: consecutive lines, as many
as fit below the head of the screen. -/
theorem C43_window (h : MonitorRun env rows (history ++ [.tick resized]) s screen) (hr : 3 ≤ rows)
    (hz : ∀ n, .tick (some n) ∈ history ++ [.tick resized] → 3 ≤ n) :
    ∃ d, screen = some d ∧
      let all := s.names.flatMap fun n => (dictGet? s.formatted n).getD []
      d.lines <:+: all ∧ d.lines.length = min (s.nrows - 3) all.length := by
  obtain ⟨d, h1, h2⟩ := run_screen h
  obtain ⟨-, h3⟩ := redraw_eq h2
  obtain ⟨r1, r2⟩ := run_rows h hr hz
  refine ⟨d, h1, ?_⟩
  rw [h3]
  exact window r1 r2

/-- C43: if all frames are decoded or belong to no message, the screen shows the messages that pass the
filter, sorted by name, each with the visible signals of its latest frame.  Missing: frames that cannot
be decoded, containers, and the time between a reset and the next change of the filter. -/
theorem C43_display_partial {signals : String → List String} (hd : OnlyDecoded env signals)
    (h : MonitorRun env rows (history ++ [.tick resized]) s screen) (hr : 3 ≤ rows)
    (hz : ∀ n, .tick (some n) ∈ history ++ [.tick resized] → 3 ≤ n)
    (hst : (ledger (history ++ [.tick resized])).stale = false) :
    ∃ (d : Screen) (names : List String) (block : String → List String) (search : Option (String → Bool)),
      screen = some d ∧
      (search = env.compile d.filter ∨ search = none ∧ d.filter = []) ∧
      names.Pairwise (· < ·) ∧
      (∀ r ∈ (ledger (history ++ [.tick resized])).handled, ∀ n sigs, env.interpret r = .decoded n sigs →
        visible search n sigs ≠ [] → n ∈ names) ∧
      (∀ n ∈ names, ∃ r sigs base pad,
        latest env n (ledger (history ++ [.tick resized])).ever = some r ∧
        env.interpret r = .decoded n sigs ∧ visible search n sigs ≠ [] ∧
        ((ledger (history ++ [.tick resized])).resets = 0 →
          (ledger (history ++ [.tick resized])).ever.head?.map env.timestamp = some base) ∧
        block n = formatLines env (env.timestamp r - base) n ((visible search n sigs).map (·.2)) ++
          List.replicate pad "") ∧
      d.lines <:+: names.flatMap block ∧
      d.lines.length = min (s.nrows - 3) (names.flatMap block).length := by
  have hi := run_inv h
  generalize ledger (history ++ [.tick resized]) = l at hi hst
  obtain ⟨d, h1, h2⟩ := run_screen h
  obtain ⟨-, h3⟩ := redraw_eq h2
  obtain ⟨r1, r2⟩ := run_rows h hr hz
  obtain ⟨p1, p2, p3⟩ := hi.plain signals hd
  obtain ⟨p4, p5⟩ := p3 hst
  have hvis : ∀ n (sigs : List (String × String)), sigs.map (·.1) = signals n →
      (visible s.compiled n sigs ≠ [] ↔ matching signals s n ≠ []) := by
    intro n sigs hs
    unfold matching
    rw [← hs, ← visible_map]
    simp
  refine ⟨d, s.names, fun n => (dictGet? s.formatted n).getD [], s.compiled, h1, ?_, hi.good.core.sorted,
    ?_, ?_, ?_⟩
  · rw [h3]; exact hi.search
  · intro r hr n sigs hsig hne
    obtain ⟨lines, hl⟩ := Option.isSome_iff_exists.1 (hi.listed r hr n (by rw [hsig]; rfl))
    refine hi.good.core.shown n (List.mem_map.2 ⟨_, dictGet?_mem hl, rfl⟩) id (.inr ?_)
    intro all hall
    rw [p1.signals n all hall]
    rcases hd r with hu | ⟨n', sigs', hs1, hs2⟩
    · rw [hu] at hsig; cases hsig
    · rw [hs1] at hsig
      cases hsig
      exact (hvis n sigs hs2).1 hne
  · intro n hn
    have hne := (p1.names n hn).2
    obtain ⟨lines, hl⟩ := (C43_listed h).1 n hn
    obtain ⟨r, sigs, b, c1, c2, c3, c4⟩ := p5 n lines hl
    obtain ⟨k, c5⟩ := c4 hne
    have hsig : sigs.map (·.1) = signals n := by
      rcases hd r with hu | ⟨n', sigs', hs1, hs2⟩
      · rw [hu] at c2; cases c2
      · rw [hs1] at c2; cases c2; exact hs2
    refine ⟨r, sigs, b, k, ?_, c2, (hvis n sigs hsig).2 hne, ?_, ?_⟩
    · rw [hi.raw, dictGet?_rawOf, dictGet?_nil, Option.or_none] at c1
      exact c1
    · intro h0
      rw [← hi.basetime h0]
      exact c3
    · simp only [hl, Option.getD_some]
      rw [c5, ← visible_eq s.compiled n sigs]
      unfold matching
      rw [hsig]
  · rw [h3]
    exact window r1 r2

/-- C43: no event makes the monitor fail, if containers have other names than messages. -/
theorem C43_no_failure_partial (hsep : SeparateNames env) (h : MonitorRun env rows history s screen)
    (e : Event R) : ∃ r, Monitor.step env s e = .ok r :=
  (run_inv h).step_ok hsep e

/-- C43: escape ends the editing of the filter and restores it, whatever was typed and whatever
happened in between. -/
theorem C43_escape (h : MonitorRun env rows history s screen) (he : s.showFilter = false) {c : Char}
    (hc : c = 'f' ∨ c = '/') {events : List (Event R)}
    (hev : .key .enter ∉ events ∧ .key .escape ∉ events)
    (hs : MonitorSteps env s (.key (.char c) :: (events ++ [.key .escape])) s') :
    s'.filter = s.filter ∧ s'.showFilter = false ∧ s'.compiled = env.compile s.filter := by
  cases hs with
  | @cons _ s1 _ _ _ d h1 h2 =>
    have hr1 := h.step _ h1
    have he1 : s1.showFilter = true ∧ s1.oldFilter = some s.filter := by
      have h1' : (Except.ok ((menuKey s (.char c)).map fun t => (t, (none : Option Screen))) :
          Except Err (Option (State R × Option Screen))) = .ok (some (s1, d)) := by
        simpa only [Monitor.step, he, Bool.false_eq_true, if_false] using h1
      have hm : menuKey s (.char c) = some { s with
          oldFilter := some s.filter, showFilter := true, cursor := s.filter.length, modified := true } := by
        rcases hc with rfl | rfl <;> rfl
      rw [hm] at h1'
      cases h1'
      exact ⟨rfl, rfl⟩
    exact escape_steps hr1 he1.1 he1.2 hev h2

end

/-! ### Examples -/

namespace MonitorExample

/-- Frames of a small database: a message `M` with signals `A` and `B`, a message `N` with one signal,
a message `E` without signals, frames of `M` that are too short, and others. -/
inductive Frame where
  | m (t : Rat) (a b : String) | n (t : Rat) (x : String) | e | short | other | box
  deriving DecidableEq

/-- The environment; the filter is a word that is searched for exactly. -/
def env : Env Frame where
  timestamp
    | .m t _ _ => t
    | .n t _ => t
    | _ => 0
  interpret
    | .m _ a b => .decoded "M" [("A", "A: " ++ a), ("B", "B: " ++ b)]
    | .n _ x => .decoded "N" [("X", "X: " ++ x)]
    | .e => .decoded "E" []
    | .short => .undecodable "M" "too short"
    | .other => .unknown
    | .box => .container "N" [] []
  hex _ := "00"
  compile f := some fun x => f = [] || x.toList = f
  showTime _ := "t"
  singleLine := true

/-- The events of a string of keys. -/
def keys (t : String) : List (Event Frame) := t.toList.map fun c => .key (.char c)

/-- The state and the screen after some events. -/
def after {R : Type} (env : Env R) : List (Event R) → State R → Option Screen →
    Except Err (State R × Option Screen)
  | [], s, d => .ok (s, d)
  | e :: r, s, d => do
    match ← step env s e with
    | none => .error .valueError
    | some (s', d') => after env r s' (d'.or d)

/-- Running events is a run. -/
theorem after_run {R : Type} {env : Env R} {rows : Nat} (events : List (Event R)) {history : List (Event R)}
    {s s' : State R} {d d' : Option Screen} (h : MonitorRun env rows history s d)
    (ho : after env events s d = .ok (s', d')) : MonitorRun env rows (history ++ events) s' d' := by
  induction events generalizing history s d with
  | nil => cases ho; simpa using h
  | cons e r ih =>
    unfold after at ho
    simp only [Except.bind_eq_ok] at ho
    obtain ⟨x, h1, h2⟩ := ho
    cases x with
    | none => cases h2
    | some p => simpa using ih (h.step e h1) h2

/-- The screen after some events, on a terminal with ten rows. -/
def show_ {R : Type} (env : Env R) (events : List (Event R)) : Except Err (Option Screen) :=
  (after env events (State.init env [] 10) none).map (·.2)

/-- If the screen is known there is such a run. -/
theorem show_run {R : Type} {env : Env R} {events : List (Event R)} {d : Option Screen}
    (h : show_ env events = .ok d) : ∃ s, MonitorRun env 10 events s d := by
  unfold show_ at h
  simp only [Except.map_eq_ok] at h
  obtain ⟨⟨s, d'⟩, h1, rfl⟩ := h
  exact ⟨s, by simpa using after_run events (.start []) h1⟩

/-- Frames, a filter, more frames. -/
def session : List (Event Frame) :=
  [.frame (.m 1 "1" "2"), .frame (.n 2 "3"), .frame .other, .tick none] ++ keys "fB" ++
    [.key .enter, .frame (.m 5 "7" "8"), .tick none]

theorem session_screen : show_ env session = .ok (some
    { received := 4, discarded := 1, errors := 0, filter := ['B'], lines := ["t  M(B: 8)"]
      editing := none }) := by decide +kernel

example : ∃ d s, MonitorRun env 10 session s (some d) ∧ d.received = 4 := by
  obtain ⟨s, h⟩ := show_run session_screen
  exact ⟨_, s, h, rfl⟩

/-- The same environment without frames that cannot be decoded. -/
def plainEnv : Env (Rat × String × String) where
  timestamp r := r.1
  interpret r := .decoded "M" [("A", r.2.1), ("B", r.2.2)]
  hex _ := "00"
  compile f := some fun x => f = [] || x.toList = f
  showTime _ := "t"
  singleLine := true

example : OnlyDecoded plainEnv fun _ => ["A", "B"] := fun _ => .inr ⟨_, _, rfl, rfl⟩
example : SeparateNames plainEnv := fun r r' n c ps h => by cases h

/-- A run to which the theorems apply. -/
theorem plain_run : ∃ s d, MonitorRun plainEnv 10
    ([.frame (1, "1", "2"), .tick none, .key (.char 'f'), .key (.char 'A'), .frame (3, "5", "6")] ++ [.tick none])
    s (some d) ∧ d.lines = ["t  M(5)"] := by
  obtain ⟨s, h⟩ := show_run (env := plainEnv)
    (events := [.frame (1, "1", "2"), .tick none, .key (.char 'f'), .key (.char 'A'), .frame (3, "5", "6"), .tick none])
    (d := some { received := 2, discarded := 0, errors := 0, filter := ['A'], lines := ["t  M(5)"]
                 editing := some (['A'], 1) }) (by decide +kernel)
  exact ⟨s, _, h, rfl⟩

example : True := by
  obtain ⟨s, d, h, -⟩ := plain_run
  have := C43_display_partial (env := plainEnv) (signals := fun _ => ["A", "B"])
    (fun _ => .inr ⟨_, _, rfl, rfl⟩) h (by decide) (fun n hn => absurd hn (by simp)) rfl
  have := C43_bounded_partial h rfl
  have := C43_no_failure_partial (fun r r' n c ps h => by cases h) h (.key .escape)
  trivial
example : visible (some fun x => x = "A") "M" [("A", "a"), ("B", "b")] = [("A", "a")] := by decide +kernel
example : Passes (some fun x => x = "A") "M" ["A", "B"] := by
  intro f hf
  cases hf
  exact .inr ⟨"A", by decide, by decide⟩

example : ∃ s', MonitorSteps env (State.init env ['B'] 10)
    (.key (.char 'f') :: ([.key (.char 'A')] ++ [.key .escape])) s' ∧ s'.filter = ['B'] :=
  ⟨_, .cons rfl (.cons rfl (.cons rfl (.nil _))), rfl⟩

/-! ### What does not hold -/

/-- After a reset (`r`) the number of errors is kept: there can be more errors than received
frames. -/
theorem C43_errors_exceed_received :
    ∃ d s events, MonitorRun env 10 events s (some d) ∧ d.received < d.discarded + d.errors := by
  obtain ⟨s, h⟩ := show_run (env := env) (events := [.frame .short, .tick none] ++ keys "r" ++ [.tick none])
    (d := some { received := 0, discarded := 0, errors := 1, filter := [], lines := [], editing := none })
    (by decide +kernel)
  exact ⟨_, s, _, h, by decide⟩

/-- A message that was displayed because of an error stays on the screen after a good frame, although
the filter does not let it through. -/
theorem C43_error_outlives_filter :
    ∃ d s events, MonitorRun env 10 events s (some d) ∧ d.filter = ['Q'] ∧
      ¬ Passes (env.compile ['Q']) "M" ["A", "B"] ∧ d.lines = ["t  M(A: 1, B: 2)"] := by
  obtain ⟨s, h⟩ := show_run (env := env)
    (events := keys "fQ" ++ [.key .enter, .frame .short, .tick none, .frame (.m 1 "1" "2"), .tick none])
    (d := some { received := 2, discarded := 0, errors := 1, filter := ['Q']
                 lines := ["t  M(A: 1, B: 2)"], editing := none }) (by decide +kernel)
  refine ⟨_, s, _, h, rfl, ?_, rfl⟩
  intro hp
  rcases hp _ rfl with h1 | ⟨x, h1, h2⟩
  · exact absurd h1 (by decide)
  · revert h1 h2
    simp only [List.mem_cons, List.not_mem_nil, or_false]
    rintro (rfl | rfl) <;> decide

/-- A message without signals is never displayed, although there is no filter. -/
theorem C43_no_signals_not_displayed :
    ∃ d s events, MonitorRun env 10 events s (some d) ∧ d.received = 1 ∧ d.discarded = 0 ∧ d.errors = 0 ∧
      d.filter = [] ∧ d.lines = [] := by
  obtain ⟨s, h⟩ := show_run (env := env) (events := [.frame .e, .tick none])
    (d := some { received := 1, discarded := 0, errors := 0, filter := [], lines := [], editing := none })
    (by decide +kernel)
  exact ⟨_, s, _, h, rfl, rfl, rfl, rfl, rfl⟩

/-- After a reset the first frame of a message is displayed without the signals that the old filter
hid, although there is no filter any more. -/
theorem C43_reset_hides_signals :
    ∃ d s events, MonitorRun env 10 events s (some d) ∧ d.filter = [] ∧ d.lines = ["t  M(B: 4)"] := by
  obtain ⟨s, h⟩ := show_run (env := env)
    (events := keys "fB" ++ [.key .enter, .frame (.m 1 "1" "2"), .tick none] ++ keys "r" ++
      [.frame (.m 2 "3" "4"), .tick none])
    (d := some { received := 1, discarded := 0, errors := 0, filter := [], lines := ["t  M(B: 4)"]
                 editing := none }) (by decide +kernel)
  exact ⟨_, s, _, h, rfl, rfl⟩

/-- After a reset the messages from before it come back as soon as the filter is edited. -/
theorem C43_reset_forgets_nothing :
    ∃ d s events, MonitorRun env 10 events s (some d) ∧ d.received = 0 ∧ d.lines = ["t  M(A: 1, B: 2)"] := by
  obtain ⟨s, h⟩ := show_run (env := env)
    (events := [.frame (.m 1 "1" "2"), .tick none] ++ keys "rf" ++ [.key .enter, .tick none])
    (d := some { received := 0, discarded := 0, errors := 0, filter := [], lines := ["t  M(A: 1, B: 2)"]
                 editing := none }) (by decide +kernel)
  exact ⟨_, s, _, h, rfl, rfl⟩

/-- Editing the filter replaces an error on the screen by the last good frame before it. -/
theorem C43_filter_hides_error :
    ∃ d s events, MonitorRun env 10 events s (some d) ∧ d.errors = 1 ∧ d.lines = ["t  M(A: 1, B: 2)"] := by
  obtain ⟨s, h⟩ := show_run (env := env)
    (events := [.frame (.m 1 "1" "2"), .frame .short, .tick none] ++ keys "f" ++ [.key .enter, .tick none])
    (d := some { received := 2, discarded := 0, errors := 1, filter := [], lines := ["t  M(A: 1, B: 2)"]
                 editing := none }) (by decide +kernel)
  exact ⟨_, s, _, h, rfl, rfl⟩

/-- A message with the name of a container that was received and was empty makes the monitor fail. -/
theorem C43_same_name_fails :
    ∃ s d events, MonitorRun env 10 events s d ∧ step env s (.tick none) = .error .keyError := by
  refine ⟨_, _, _, ((MonitorRun.start []).step (.frame Frame.box) rfl).step (.frame (Frame.n 1 "2")) rfl, ?_⟩
  generalize hs : step env _ _ = x
  have hx : x.map (fun _ => ()) = .error .keyError := by
    rw [← hs]
    decide +kernel
  cases x with
  | error e => cases hx; rfl
  | ok v => cases hx

end MonitorExample

end Cantools
