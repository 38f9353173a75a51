import Verif.Model.Monitor

/-
Independent specification of the monitor: histories, the frames a user expects to be counted, and
what a filter lets through.
-/

namespace Cantools.Spec
open Cantools Monitor

variable {R : Type}

/-- All histories of a monitor on a terminal with a number of rows, with its state and what is on the
screen. -/
inductive MonitorRun (env : Env R) (rows : Nat) : List (Event R) → State R → Option Screen → Prop
  | start (filter : List Char) : MonitorRun env rows [] (State.init env filter rows) none
  | step {history : List (Event R)} {s s' : State R} {d d' : Option Screen} (e : Event R) :
      MonitorRun env rows history s d → Monitor.step env s e = .ok (some (s', d')) →
      MonitorRun env rows (history ++ [e]) s' (d'.or d)

/-- Some more events. -/
inductive MonitorSteps (env : Env R) : State R → List (Event R) → State R → Prop
  | nil (s : State R) : MonitorSteps env s [] s
  | cons {s s' s'' : State R} {e : Event R} {es : List (Event R)} {d : Option Screen} :
      Monitor.step env s e = .ok (some (s', d)) → MonitorSteps env s' es s'' →
      MonitorSteps env s (e :: es) s''

/-- The frames in a history. -/
def framesOf (history : List (Event R)) : List R :=
  history.filterMap fun e => match e with | .frame r => some r | _ => none

/-- What the history of events says: whether the filter is being edited, whether the monitor plays,
the frames that wait while it does not, the frames handled since the last reset and since the
start, the number of resets, and whether there was a reset after the last change of the filter. -/
structure Ledger (R : Type) where
  editing : Bool := false
  playing : Bool := true
  waiting : List R := []
  handled : List R := []
  ever : List R := []
  resets : Nat := 0
  stale : Bool := false

/-- What an event means. -/
def Ledger.next (l : Ledger R) : Event R → Ledger R
  | .frame r => { l with waiting := l.waiting ++ [r] }
  | .tick _ =>
    if l.playing then
      { l with waiting := [], handled := l.handled ++ l.waiting, ever := l.ever ++ l.waiting }
    else l
  | .key k =>
    if l.editing then { l with editing := !(k = .enter ∨ k = .escape : Bool), stale := false }
    else if k = .char 'p' then { l with playing := !l.playing }
    else if k = .char 'r' then
      { l with playing := true, waiting := [], handled := [], resets := l.resets + 1, stale := true }
    else if k = .char 'f' ∨ k = .char '/' then { l with editing := true }
    else l

/-- The ledger of a history. -/
def ledger (history : List (Event R)) : Ledger R := history.foldl Ledger.next {}

/-- The frame belongs to no message of the database. -/
def isUnknown : Outcome → Bool
  | .unknown => true
  | _ => false

/-- The frame belongs to a message but cannot be decoded. -/
def isUndecodable : Outcome → Bool
  | .undecodable _ _ => true
  | _ => false

/-- A filter lets a message through if its name or one of its signals matches. -/
def Passes (search : Option (String → Bool)) (name : String) (signals : List String) : Prop :=
  ∀ f, search = some f → f name = true ∨ ∃ x ∈ signals, f x = true

/-- The name under which a decoded frame is displayed. -/
def nameOf : Outcome → Option String
  | .decoded n _ => some n
  | .container n _ _ => some n
  | _ => none

/-- The last of the frames that is displayed under a name. -/
def latest (env : Env R) (n : String) (frames : List R) : Option R :=
  (frames.filter fun r => nameOf (env.interpret r) = some n).getLast?

/-- Every frame is of no message or can be decoded, and the signals of a displayed message are always
the same. -/
def OnlyDecoded (env : Env R) (signals : String → List String) : Prop :=
  ∀ r, env.interpret r = .unknown ∨
    ∃ n sigs, env.interpret r = .decoded n sigs ∧ sigs.map (·.1) = signals n

/-- The signals of a message that a filter lets through. -/
def visible (search : Option (String → Bool)) (name : String) (signals : List (String × String)) :
    List (String × String) :=
  signals.filter fun x => match search with
    | none => true
    | some f => f name || f x.1

/-- The names under which decoded messages are displayed. -/
def decodedNames : Outcome → List String
  | .decoded n _ => [n]
  | .container _ _ parts => parts.filterMap fun p =>
    match p with | .decoded n _ => some n | .undecoded _ _ => none
  | _ => []

/-- Containers have other names than messages with signals. -/
def SeparateNames (env : Env R) : Prop :=
  ∀ r r' n c ps, env.interpret r = .container n c ps → n ∉ decodedNames (env.interpret r')

/-- The prompt for the filter: the text before and after the cursor, the text before editing began,
and whether it is being edited. -/
structure Prompt where
  before : List Char
  after : List Char := []
  saved : List Char := []
  editing : Bool := false

/-- The text of the filter. -/
def Prompt.text (p : Prompt) : List Char := p.before ++ p.after

/-- What a key does while the filter is edited. -/
def Prompt.type (p : Prompt) : Key → Prompt
  | .enter => { p with editing := false }
  | .escape => { before := p.saved }
  | .backspace => { p with before := p.before.dropLast }
  | .delete => { p with after := p.after.tail }
  | .left =>
    match p.before.getLast? with
    | none => p
    | some c => { p with before := p.before.dropLast, after := c :: p.after }
  | .right =>
    match p.after with
    | [] => p
    | c :: r => { p with before := p.before ++ [c], after := r }
  | .char c => { p with before := p.before ++ [c] }
  | _ => p

/-- What an event does to the filter. -/
def Prompt.next (p : Prompt) : Event R → Prompt
  | .key k =>
    if p.editing then p.type k
    else if k = .char 'f' ∨ k = .char '/' then { before := p.text, saved := p.text, editing := true }
    else if k = .char 'r' then { before := [] }
    else p
  | _ => p

/-- The filter after a history of a monitor that was started with a filter. -/
def prompt (filter : List Char) (history : List (Event R)) : Prompt :=
  history.foldl Prompt.next { before := filter }

/-- The name of a part of a container. -/
def partName : Part → String
  | .undecoded n _ => n
  | .decoded n _ => n

/-- What may be displayed for a part of a container: that it is undecoded, or some of its signals in
their order. -/
def ShowsPart (items : List String) : Part → Prop
  | .undecoded _ text => items = ["undecoded: " ++ text]
  | .decoded _ signals => items.Sublist (signals.map (·.2))

end Cantools.Spec
