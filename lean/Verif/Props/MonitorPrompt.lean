import Verif.Lemmas.MonitorPrompt
import Verif.Props.Monitor

/-
C43: the prompt for the filter of the monitor, containers, and frames that cannot be decoded.
-/

namespace Cantools
open Monitor Spec

section
variable {R : Type} {env : Env R} {rows : Nat} {history : List (Event R)} {s s' : State R}
  {screen d : Option Screen} {resized : Option Nat}

/-- C43: after every tick the screen shows the filter that was typed, and while it is edited the cursor
where it was put. -/
theorem C43_prompt {filter : List Char} (h : MonitorRun env rows (history ++ [.tick resized]) s screen)
    (hs : MonitorSteps env (State.init env filter rows) (history ++ [.tick resized]) s) :
    ∃ d, screen = some d ∧ d.filter = (prompt filter history).text ∧
      d.editing = if (prompt filter history).editing then
        some ((prompt filter history).text, (prompt filter history).before.length) else none := by
  have hp := steps_prompted hs (Inv.init filter rows) (p := { before := filter })
    ⟨(List.append_nil _).symm, rfl, fun h => nomatch h⟩
  have he : (history ++ [Event.tick resized]).foldl Prompt.next { before := filter } = prompt filter history := by
    rw [List.foldl_append]; rfl
  rw [he] at hp
  generalize prompt filter history = p at hp
  obtain ⟨d, h1, h2⟩ := run_screen h
  obtain ⟨-, h3⟩ := redraw_eq h2
  refine ⟨d, h1, ?_, ?_⟩
  · rw [h3]; exact hp.text
  · rw [h3]
    show (if s.showFilter = true then some (s.filter, s.cursor) else none) = _
    by_cases hsf : s.showFilter = true
    · rw [if_pos hsf, if_pos (hp.editing ▸ hsf), hp.text, (hp.cursor hsf).1]
    · rw [if_neg hsf, if_neg (hp.editing ▸ hsf)]

/-- C43: if the last frame that waits cannot be decoded, its message is displayed after the next tick,
whatever the filter is, with the error and the bytes. -/
theorem C43_undecodable (h : MonitorRun env rows history s screen) {frames : List R} {r : R}
    {name error : String} (hp : (ledger history).playing = true)
    (hw : (ledger history).waiting = frames ++ [r]) (hr : env.interpret r = .undecodable name error)
    (ho : Monitor.step env s (.tick resized) = .ok (some (s', d))) :
    name ∈ s'.names ∧ ∃ base pad, s'.basetime = some base ∧ dictGet? s'.formatted name =
      some (formatLines env (env.timestamp r - base) name
        ["undecoded, " ++ error ++ ": 0x" ++ env.hex r] true ++ List.replicate pad "") := by
  have hi := run_inv h
  simp only [Monitor.step, Except.map_eq_ok, Option.some.injEq] at ho
  obtain ⟨p, h1, rfl⟩ := ho
  obtain ⟨t, u, g, h2, e1, e2, e3⟩ := tick_last hi (hi.playing.trans hp) (hi.queue.trans hw) h1
  obtain ⟨base, a, b, pad, c⟩ := tryUpdateMessage_undecodable g hr h2
  exact ⟨e2 ▸ b, base, pad, e3.trans a, e1 ▸ c⟩

/-- C43: if the last frame that waits is a container, then after the next tick it has the block with
the names of the contained messages, and every part has its own block: that it is undecoded, or
signals of it.  Of parts with the same name the last one counts. -/
theorem C43_container (h : MonitorRun env rows history s screen) {frames : List R} {r : R}
    {name : String} {contained : List String} {parts : List Part} (hp : (ledger history).playing = true)
    (hw : (ledger history).waiting = frames ++ [r]) (hr : env.interpret r = .container name contained parts)
    (ho : Monitor.step env s (.tick resized) = .ok (some (s', d))) :
    ∃ base, s'.basetime = some base ∧
      ((∀ p ∈ parts, partName p ≠ name) → ∃ pad, dictGet? s'.formatted name =
        some (formatLines env (env.timestamp r - base) name contained ++ List.replicate pad "")) ∧
      ∀ before p after, parts = before ++ p :: after → (∀ q ∈ after, partName q ≠ partName p) →
        ∃ items pad, ShowsPart items p ∧ dictGet? s'.formatted (partName p) =
          some (formatLines env (env.timestamp r - base) (partName p) items ++ List.replicate pad "") := by
  have hi := run_inv h
  simp only [Monitor.step, Except.map_eq_ok, Option.some.injEq] at ho
  obtain ⟨p, h1, rfl⟩ := ho
  obtain ⟨t, u, g, h2, e1, e2, e3⟩ := tick_last hi (hi.playing.trans hp) (hi.queue.trans hw) h1
  obtain ⟨base, a, b, c⟩ := tryUpdateMessage_container g hr h2
  exact ⟨base, e3.trans a, e1 ▸ b, e1 ▸ c⟩

end

/-! ### Examples -/

namespace MonitorExample

/-- Two words, the cursor moved, a character deleted and one replaced. -/
def typing : List (Event Frame) :=
  keys "fABD" ++ [.key .left, .key (.char 'C'), .key .left, .key .left, .key .backspace, .key .delete]

example : (prompt [] typing).text = ['C', 'D'] ∧ (prompt [] typing).editing = true ∧
    (prompt [] typing).before = [] := by decide +kernel

/-- Running events is a sequence of steps. -/
theorem after_steps {R : Type} {env : Env R} (events : List (Event R)) {s s' : State R}
    {d d' : Option Screen} (ho : after env events s d = .ok (s', d')) : MonitorSteps env s events s' := by
  induction events generalizing s d with
  | nil => cases ho; exact .nil _
  | cons e r ih =>
    unfold after at ho
    simp only [Except.bind_eq_ok] at ho
    obtain ⟨x, h1, h2⟩ := ho
    cases x with
    | none => cases h2
    | some p => exact .cons h1 (ih h2)

example : ∃ s d, MonitorRun env 10 (typing ++ [.tick none]) s (some d) ∧
    MonitorSteps env (State.init env [] 10) (typing ++ [.tick none]) s ∧
    d.filter = ['C', 'D'] ∧ d.editing = some (['C', 'D'], 0) := by
  have h : (after env (typing ++ [.tick none]) (State.init env [] 10) none).map (·.2) = .ok (some
      { received := 0, discarded := 0, errors := 0, filter := ['C', 'D'], lines := []
        editing := some (['C', 'D'], 0) }) := by decide +kernel
  simp only [Except.map_eq_ok] at h
  obtain ⟨⟨s, d⟩, h1, h2⟩ := h
  have h2 : d = _ := h2
  subst h2
  exact ⟨s, _, by simpa using after_run _ (.start []) h1, after_steps _ h1, rfl, rfl⟩

/-- A container with a message that is not decoded and one that is. -/
def boxEnv : Env (Rat × Bool) where
  timestamp r := r.1
  interpret r := if r.2 then
      .container "C" ["P", "Q"] [.undecoded "C :: P" "0x01", .decoded "C :: Q" [("X", "X: 1")]]
    else .undecodable "M" "too short"
  hex _ := "00"
  compile f := some fun x => f = [] || x.toList = f
  showTime _ := "t"
  singleLine := true

example : ∃ d s, MonitorRun boxEnv 10 [.frame (1, false), .frame (2, true), .tick none] s (some d) ∧
    d.lines = ["t  C(P, Q)", "t  C :: P(undecoded: 0x01)", "t  C :: Q(X: 1)",
      "t  M(undecoded, too short: 0x00)"] := by
  obtain ⟨s, h⟩ := show_run (env := boxEnv) (events := [.frame (1, false), .frame (2, true), .tick none])
    (d := some { received := 2, discarded := 0, errors := 1, filter := []
                 lines := ["t  C(P, Q)", "t  C :: P(undecoded: 0x01)", "t  C :: Q(X: 1)",
                   "t  M(undecoded, too short: 0x00)"]
                 editing := none }) (by decide +kernel)
  exact ⟨_, s, h, rfl⟩

/-- A state to which the theorem on containers applies. -/
example : ∃ (s : State (Rat × Bool)) (history : List (Event (Rat × Bool))) (screen : Option Screen),
    MonitorRun boxEnv 10 history s screen ∧ (ledger history).playing = true ∧
    (ledger history).waiting = [(1, false)] ++ [(2, true)] :=
  ⟨_, _, _, ((MonitorRun.start []).step (.frame (1, false)) rfl).step (.frame (2, true)) rfl, rfl, rfl⟩

end MonitorExample

end Cantools
