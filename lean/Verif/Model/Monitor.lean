import Verif.Model.Base

/-
subparsers/monitor.py: the state of the monitor, the keys, and what is drawn.

The terminal (curses) is reduced to the keys it delivers, its number of rows, and what is written on
it; the bus to the frames it delivers.  Looking up and decoding a frame (`get_message_by_frame_id`,
`decode`, `__utils__.py` `format_signals`, `format_multiplexed_name`) is a parameter, and so are
`re.compile`, `re.search` and the formatting of time stamps.
-/

namespace Cantools.Monitor
open Cantools

/-- What is inside a container message (monitor.py:400-415): a contained message that is not
decoded, or one with its signals. -/
inductive Part where
  | undecoded (name : String) (text : String)
  | decoded (name : String) (signals : List (String × String))
  deriving DecidableEq, Repr

/-- The result of looking up and decoding a frame, with the names that are displayed; signals come
with their formatted text (monitor.py:344-417). -/
inductive Outcome where
  /-- `get_message_by_frame_id` raises `KeyError`. -/
  | unknown
  /-- Fewer bytes than the message has, or `DecodeError`. -/
  | undecodable (name : String) (error : String)
  | decoded (name : String) (signals : List (String × String))
  | container (name : String) (contained : List String) (parts : List Part)
  deriving DecidableEq, Repr

/-- The parts of the environment the monitor depends on. -/
structure Env (R : Type) where
  timestamp : R → Rat
  interpret : R → Outcome
  /-- `data.hex()` -/
  hex : R → String
  /-- `re.compile(filter, re.IGNORECASE).search`, `none` if that is no regular expression. -/
  compile : List Char → Option (String → Bool)
  /-- `f'{timestamp:12.3f}'` -/
  showTime : Rat → String
  singleLine : Bool

/-- monitor.py:33-73: the attributes of a `Monitor`.  The sets are lists; `screen` is what was drawn
last. -/
structure State (R : Type) where
  /-- `_filtered_sorted_message_names` -/
  names : List String := []
  filter : List Char := []
  cursor : Nat := 0
  compiled : Option (String → Bool) := none
  formatted : List (String × List String) := []
  raw : List (String × R) := []
  signals : List (String × List String) := []
  filteredSignals : List (String × List String) := []
  withError : List String := []
  playing : Bool := true
  modified : Bool := true
  showFilter : Bool := false
  oldFilter : Option (List Char) := none
  queue : List R := []
  nrows : Nat
  received : Nat := 0
  discarded : Nat := 0
  errors : Nat := 0
  basetime : Option Rat := none
  firstRow : Int := 0

variable {R : Type}

/-- monitor.py:282-286 `compile_filter`. -/
def compileFilter (env : Env R) (s : State R) : State R := { s with compiled := env.compile s.filter }

/-- monitor.py:33-73 `__init__`. -/
def State.init (env : Env R) (filter : List Char) (nrows : Nat) : State R :=
  compileFilter env { filter, nrows }

/-! ### Lists of names -/

/-- The loop of python's `bisect.bisect_right`. -/
def bisectRight (a : List String) (x : String) (lo hi : Nat) : Nat :=
  if _h : lo < hi then
    let mid := (lo + hi) / 2
    if x < a.getD mid "" then bisectRight a x lo mid else bisectRight a x (mid + 1) hi
  else lo
termination_by hi - lo

/-- `bisect.insort(a, x)`. -/
def insort (a : List String) (x : String) : List String := a.insertIdx (bisectRight a x 0 a.length) x

/-- monitor.py:509-518 `_signals_matching_filter`, for the signals of the message. -/
def signalsMatchingFilter (compiled : Option (String → Bool)) (name : String) (all : List String) :
    List String :=
  match compiled with
  | none => all
  | some search => if search name then all else all.filter search

/-- monitor.py:520-528 `_message_matches_filter`. -/
def messageMatchesFilter (s : State R) (name : String) : Bool × State R :=
  match dictGet? s.signals name with
  | none => (true, s)
  | some all =>
    let matched := signalsMatchingFilter s.compiled name all
    if matched = [] then (false, s)
    else (true, { s with filteredSignals := dictSet s.filteredSignals name matched })

/-- monitor.py:530-536 `insort_filtered`. -/
def insortFiltered (s : State R) (name : String) : State R :=
  if name ∈ s.names then s
  else if name ∈ s.withError then { s with names := insort s.names name }
  else
    let r := messageMatchesFilter s name
    if r.1 then { r.2 with names := insort r.2.names name } else r.2

/-! ### Messages -/

/-- monitor.py:429-440 `_format_lines`. -/
def formatLines (env : Env R) (timestamp : Rat) (name : String) (items : List String)
    (singleLine : Bool := false) : List String :=
  let pre := env.showTime timestamp ++ "  " ++ name ++ "("
  if env.singleLine || singleLine then [pre ++ ", ".intercalate items ++ ")"]
  else [pre] ++
    (items.zipIdx.map fun p => "                  " ++ p.1 ++
      (if p.2 + 1 < items.length then "," else "")) ++
    ["              )"]

/-- monitor.py:442-447 `_filter_signals`. -/
def filterSignals (s : State R) (name : String) (signals : List (String × String)) :
    Except Err (State R × List (String × String)) := do
  let s :=
    if (dictGet? s.signals name).isSome then s
    else
      insortFiltered { s with
        signals := dictSet s.signals name (signals.map (·.1))
        filteredSignals := dictSet s.filteredSignals name (signals.map (·.1)) } name
  let shown ← dictGet s.filteredSignals name
  pure (s, signals.filter fun x => x.1 ∈ shown)

/-- monitor.py:449-465 `_update_formatted_message`. -/
def updateFormatted (s : State R) (name : String) (formatted : List String) (isError : Bool) :
    State R :=
  let old := (dictGet? s.formatted name).getD []
  let formatted := formatted ++ List.replicate (old.length - formatted.length) ""
  insortFiltered { s with
    formatted := dictSet s.formatted name formatted
    withError := if isError then (if name ∈ s.withError then s.withError else s.withError ++ [name])
      else s.withError.filter (· ≠ name) } name

/-- monitor.py:419-427 `_format_message` (the name is given), and the call of
`_update_formatted_message` after it (365-366, 416-417). -/
def updateDecoded (env : Env R) (s : State R) (timestamp : Rat) (name : String)
    (signals : List (String × String)) : Except Err (State R) := do
  let (s, shown) ← filterSignals s name signals
  pure (updateFormatted s name (formatLines env timestamp name (shown.map (·.2))) false)

/-- monitor.py:402-417: one part of a container. -/
def updatePart (env : Env R) (timestamp : Rat) (s : State R) : Part → Except Err (State R)
  | .undecoded name text =>
    .ok (updateFormatted s name (formatLines env timestamp name ["undecoded: " ++ text]) false)
  | .decoded name signals => updateDecoded env s timestamp name signals

/-- monitor.py:344-379 `try_update_message`, 381-417 `_try_update_container`. -/
def tryUpdateMessage (env : Env R) (s : State R) (r : R) : Except Err (State R × Outcome) := do
  let base := s.basetime.getD (env.timestamp r)
  let s := { s with basetime := some base }
  let timestamp := env.timestamp r - base
  let s ← (match env.interpret r with
    | .unknown => .ok s
    | .undecodable name error =>
      .ok (updateFormatted s name
        (formatLines env timestamp name ["undecoded, " ++ error ++ ": 0x" ++ env.hex r] true) true)
    | .decoded name signals => do
      let s ← updateDecoded env s timestamp name signals
      pure { s with raw := dictSet s.raw name r }
    | .container name contained parts => do
      let s := { s with signals := dictSet s.signals name contained }
      let s := updateFormatted s name (formatLines env timestamp name contained) false
      let s ← parts.foldlM (updatePart env timestamp) s
      pure { s with raw := dictSet s.raw name r } : Except Err (State R))
  pure (s, env.interpret r)

/-- monitor.py:476-491 `update_messages`: the counters after one frame. -/
def count (s : State R) : Outcome → State R
  | .unknown => { s with received := s.received + 1, discarded := s.discarded + 1 }
  | .undecodable _ _ => { s with received := s.received + 1, errors := s.errors + 1 }
  | _ => { s with received := s.received + 1 }

/-- monitor.py:476-491 `update_messages`: the loop over the frames that wait in the queue. -/
def updateMessages (env : Env R) (frames : List R) (s : State R) : Except Err (State R) :=
  frames.foldlM (fun s r => do
    let (s, o) ← tryUpdateMessage env s r
    pure (count s o)) s

/-! ### Drawing -/

/-- What is on the screen: the counters, the filter, the lines of messages, and the filter with the
cursor if it is being edited (monitor.py:92-185). -/
structure Screen where
  received : Nat
  discarded : Nat
  errors : Nat
  filter : List Char
  lines : List String
  editing : Option (List Char × Nat)
  deriving DecidableEq, Repr

/-- python `l[i:j]`. -/
def slice (l : List String) (i j : Int) : List String :=
  let index (k : Int) : Nat := (if k < 0 then k + l.length else k).toNat
  (l.take (index j)).drop (index i)

/-- monitor.py:92-125 `redraw`; it may change the first row.  `self._formatted_messages[name]` may
raise `KeyError`. -/
def redraw (s : State R) : Except Err (State R × Screen) := do
  let ls ← s.names.mapM fun n => dictGet s.formatted n
  let lines := ls.flatten
  let rows : Int := (s.nrows : Int) - 2 - 1
  let first := if (lines.length : Int) < s.firstRow + rows then max 0 (lines.length - rows) else s.firstRow
  pure ({ s with firstRow := first },
    { received := s.received, discarded := s.discarded, errors := s.errors, filter := s.filter
      lines := slice lines first (first + rows)
      editing := if s.showFilter then some (s.filter, s.cursor) else none })

/-- monitor.py:493-506 `update`, 84-88 of `tick`: what is drawn, if anything; `resized` is the new
number of rows, if the size of the terminal changed. -/
def tick (env : Env R) (resized : Option Nat) (s : State R) :
    Except Err (State R × Option Screen) := do
  let frames := if s.playing then s.queue else []
  let s1 ← updateMessages env frames { s with queue := if s.playing then [] else s.queue }
  let s2 := { s1 with modified := false, nrows := resized.getD s1.nrows }
  if frames ≠ [] ∨ s1.modified = true ∨ resized.isSome = true then do
    let (s3, d) ← redraw s2
    pure (s3, some d)
  else pure (s2, none)

/-! ### Keys -/

/-- The keys.  `char` are keys with one character, except for newline, escape and backspace. -/
inductive Key where
  | enter | escape | backspace | delete | left | right | up | down | pageUp | pageDown
  | char (c : Char)
  | other
  deriving DecidableEq, Repr

/-- monitor.py:248-253 `line_down`, 254-261 `line_up`, 263-272 `page_up`, 274-280 `page_down`. -/
def scroll (s : State R) (k : Key) : State R :=
  let rows : Int := (s.nrows : Int) - 2 - 1
  let first := match k with
    | .down => s.firstRow + 1
    | .up => if 0 < s.firstRow then s.firstRow - 1 else 0
    | .pageUp => if rows < s.firstRow then s.firstRow - rows else 0
    | .pageDown => s.firstRow + rows
    | _ => s.firstRow
  { s with firstRow := first, modified := true }

/-- monitor.py:214-246 `process_user_input_menu`; `none` is `QuitError`. -/
def menuKey (s : State R) : Key → Option (State R)
  | .char c =>
    if c = 'q' then none
    else if c = 'p' then some { s with playing := !s.playing }
    else if c = 'r' then
      some { s with
        playing := true
        names := []
        formatted := []
        received := 0
        discarded := 0
        basetime := none
        filter := []
        compiled := none
        modified := true
        queue := [] }
    else if c = 'f' ∨ c = '/' then
      some { s with oldFilter := some s.filter, showFilter := true, cursor := s.filter.length
                    modified := true }
    else some s
  | .up => some (scroll s .up)
  | .down => some (scroll s .down)
  | .pageUp => some (scroll s .pageUp)
  | .pageDown => some (scroll s .pageDown)
  | _ => some s

/-- monitor.py:288-330: how a key changes the filter that is edited.  Escape raises `AttributeError`
if there is no old filter (`typeError` here). -/
def editFilter (s : State R) : Key → Except Err (State R)
  | .enter => .ok { s with showFilter := false }
  | .escape =>
    match s.oldFilter with
    | none => .error .typeError
    | some f => .ok { s with showFilter := false, filter := f, oldFilter := none }
  | .backspace =>
    .ok (if 0 < s.cursor then
      { s with filter := s.filter.take (s.cursor - 1) ++ s.filter.drop s.cursor
               cursor := s.cursor - 1 } else s)
  | .delete =>
    .ok (if s.cursor < s.filter.length then
      { s with filter := s.filter.take s.cursor ++ s.filter.drop (s.cursor + 1) } else s)
  | .left => .ok (if 0 < s.cursor then { s with cursor := s.cursor - 1 } else s)
  | .right => .ok (if s.cursor < s.filter.length then { s with cursor := s.cursor + 1 } else s)
  | .up => .ok (scroll s .up)
  | .down => .ok (scroll s .down)
  | .pageUp => .ok (scroll s .pageUp)
  | .pageDown => .ok (scroll s .pageDown)
  | .char c =>
    .ok { s with filter := s.filter.take s.cursor ++ [c] ++ s.filter.drop s.cursor
                 cursor := s.cursor + 1 }
  | .other => .ok s

/-- monitor.py:334-340: format all messages again.  Assigning to `_raw_messages` while its values are
iterated over raises `RuntimeError` if a key is new (`recursionError` here). -/
def reformat (env : Env R) (s : State R) : Except Err (State R) :=
  (s.raw.map (·.2)).foldlM (fun t r => do
    let (t', _) ← tryUpdateMessage env t r
    if t'.raw.map (·.1) = t.raw.map (·.1) then pure t' else .error .recursionError)
    { s with names := [], signals := [], formatted := [] }

/-- monitor.py:288-342 `process_user_input_filter`. -/
def filterKey (env : Env R) (s : State R) (k : Key) : Except Err (State R) := do
  let s ← editFilter s k
  let s ← reformat env (compileFilter env s)
  pure { s with modified := true }

/-! ### Events -/

/-- What happens to a monitor. -/
inductive Event (R : Type) where
  /-- monitor.py:538-539 `on_message_received`. -/
  | frame (r : R)
  | tick (resized : Option Nat)
  | key (k : Key)

/-- monitor.py:201-212 `process_user_input` for one key, 84-90 `tick`, 538-539
`on_message_received`.  `none`: the program ends (`q`). -/
def step (env : Env R) (s : State R) : Event R → Except Err (Option (State R × Option Screen))
  | .frame r => .ok (some ({ s with queue := s.queue ++ [r] }, none))
  | .tick resized => (tick env resized s).map some
  | .key k =>
    if s.showFilter then (filterKey env s k).map fun t => some (t, none)
    else .ok ((menuKey s k).map fun t => (t, none))

end Cantools.Monitor
