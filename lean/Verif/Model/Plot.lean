import Verif.Model.Database
import Verif.Model.LogReader
import Mathlib.Data.List.Sort

/-!
subparsers/plot.py: the `plot` command, from the lines of the log to what is handed to matplotlib.

Left out: the options of subplots (title, labels, limits, colours) among the signals, styles, and
everything matplotlib does.
-/

namespace Cantools.Plot
open Regex
open LogReader (textOf groupOf unhexlifyText parseHex stripNewlines)

/-! ### Lines -/

/-- plot.py:89-94: the formats of lines. -/
inductive Format where
  | candump | candumpLog
  deriving DecidableEq, Repr

open Re in
/-- plot.py:90 and 94. -/
def Format.regex : Format → Re
  | .candump => all [star true s, opt (all [chr '(', group "time" (star false any), chr ')']), star true s, plus true S,
      plus true s, group "frameid" (plus true hex), star true s, chr '[', plus true d, chr ']', star true s,
      group "data" (star true (cls fun c => isUpperHex c || c == ' ')),
      opt (all [star true s, text "::".toList, star true any]), eos]
  | .candumpLog => all [chr '(', group "time" (all [plus true d, chr '.', plus true d]), chr ')', plus true s, plus true S,
      plus true s, group "frameid" (plus true hex), chr '#', group "data" (star true hex),
      opt (all [plus true s, cls fun c => c == 'R' || c == 'T']), eos]

open Re in
/-- plot.py:92 `RE_DECODE`. -/
def reDecode : Re :=
  alt (all [plus true w, chr '(']) (alt
    (all [plus true s, plus true w, chr ':', plus true s, plus true (cls fun c => isDigit c || c == '.' || c == '+' || c == '-'),
      opt (all [plus true s, star true any]), opt (chr ',')])
    (chr ')'))

/-- plot.py:97-108 `_mo_unpack`: time stamp, frame id and data.  `struct.error` is `packError` here. -/
def moUnpack (g : Groups) : Except Err (Option Chars × Nat × Bytes) := do
  let t := textOf g "frameid"
  let id ← unhexlifyText (List.replicate (8 - t.length) '0' ++ t)
  if id.length ≠ 4 then .error .packError
  else do
    let data ← unhexlifyText ((textOf g "data").filter (· ≠ ' '))
    pure (groupOf g "time", id.foldl (fun n b => n * 256 + b.toNat) 0, data)

/-! ### Time stamps -/

/-- What the model leaves open: how `datetime` and `float` read texts.  Points in time and times
after the start are numbers of seconds; `none` is a `ValueError`. -/
structure Clock where
  /-- plot.py:293-294: `strptime` with year, month, day, hour, minute and second. -/
  date : Chars → Option Rat
  /-- `float` -/
  float : Chars → Option Rat
  /-- plot.py:296-298: `fromtimestamp`. -/
  fromSeconds : Rat → Option Rat
  /-- plot.py:153-173 `parse_user_input_relative_time`. -/
  userRelative : Chars → Option Rat
  /-- plot.py:203-246 `parse_user_input_absolute_time`, with the first time stamp. -/
  userAbsolute : Chars → Rat → Option Rat
  /-- `int` -/
  int : Chars → Option Rat

/-- The methods for time stamps. -/
inductive Kind where
  | date | absoluteSeconds | seconds
  deriving DecidableEq, Repr

def require : Option Rat → Except Err Rat
  | some q => .ok q
  | none => .error .valueError

/-- plot.py:293-302. -/
def Kind.parse (clock : Clock) (k : Kind) (t : Option Chars) : Except Err Rat :=
  match t with
  | none => .error .typeError
  | some t =>
    match k with
    | .date => require (clock.date t)
    | .absoluteSeconds => require ((clock.float t).bind clock.fromSeconds)
    | .seconds => require (clock.float t)

/-- `args.start` and `args.stop`: the text of the option until the first line is read. -/
inductive Bound where
  | text (t : Chars)
  | at (x : Rat)
  deriving DecidableEq, Repr

/-- plot.py:130-135: the time stamp parser; `use` is `use_timestamp`. -/
structure Stamps where
  use : Option Bool := none
  kind : Option Kind := none
  start : Option Bound := none
  stop : Option Bound := none
  deriving DecidableEq, Repr

/-- plot.py:248-280 `first_parse_timestamp`. -/
def firstStamp (clock : Clock) (st : Stamps) (t : Option Chars) (line : Nat) : Rat × Stamps :=
  match t with
  | none => (line, { st with use := some false })
  | some t =>
    match clock.date t with
    | some x => (x, { st with use := some true, kind := some .date })
    | none =>
      match clock.float t with
      | none => (line, { st with use := some false })
      | some q =>
        if q > 60 * 60 * 24 * 7 then
          match clock.fromSeconds q with
          | some x => (x, { st with use := some true, kind := some .absoluteSeconds })
          | none => (line, { st with use := some false })
        else (q, { st with use := some true, kind := some .seconds })

/-- plot.py:138-144: how a bound is read. -/
def readBound (clock : Clock) (st : Stamps) (x0 : Rat) : Bound → Except Err Rat
  | .at x => .ok x
  | .text t =>
    if st.use = some true then
      if st.kind = some .seconds then require (clock.userRelative t) else require (clock.userAbsolute t x0)
    else require (clock.int t)

/-- plot.py:137-151 `init_start_stop`. -/
def initStartStop (clock : Clock) (st : Stamps) (x0 : Rat) : Except Err Stamps := do
  match st.start, st.stop with
  | none, none => pure st
  | some a, none => do pure { st with start := some (.at (← readBound clock st x0 a)) }
  | none, some b => do pure { st with stop := some (.at (← readBound clock st x0 b)) }
  | some a, some b => do
    let x ← readBound clock st x0 a
    pure { st with start := some (.at x), stop := some (.at (← readBound clock st x b)) }

/-- plot.py:282-291 `parse_timestamp`. -/
def parseStamp (clock : Clock) (st : Stamps) (t : Option Chars) (line : Nat) : Except Err (Rat × Stamps) :=
  match st.use with
  | none => do
    let (x, st) := firstStamp clock st t line
    let st ← initStartStop clock st x
    pure (x, st)
  | some true =>
    match st.kind with
    | some k => do pure (← k.parse clock t, st)
    | none => .error .typeError
  | some false => .ok (line, st)

/-- `timestamp < args.start`, `timestamp > args.stop`. -/
def compare (lt : Rat → Rat → Bool) (x : Rat) : Option Bound → Except Err Bool
  | none => .ok false
  | some (.at y) => .ok (lt x y)
  | some (.text _) => .error .typeError

/-! ### Signals -/

/-- The characters `re.escape` puts a backslash in front of. -/
def special : Chars := "()[]{}?*+-|^$\\.&~# \t\n\r\x0b\x0c".toList

/-- `re.escape`. -/
def escape (t : Chars) : Chars := t.flatMap fun c => if c ∈ special then ['\\', c] else [c]

/-- `text.replace(old, new)` for an `old` of two characters. -/
def replace2 (a b : Char) (new : Chars) : Chars → Chars
  | x :: y :: r => if x = a ∧ y = b then new ++ replace2 a b new r else x :: replace2 a b new (y :: r)
  | l => l

/-- `old in text` for an `old` of two characters. -/
def contains2 (a b : Char) : Chars → Bool
  | x :: y :: r => (x = a ∧ y = b) || contains2 a b (y :: r)
  | _ => false

/-- plot.py:762-788 `Signal`: what an argument stands for; `pattern` is the text of the regular
expression. -/
structure Sg where
  pattern : Chars
  caseSensitive : Bool
  subplot : Nat
  axis : Nat
  stem : Bool
  fmt : Chars
  deriving DecidableEq, Repr

/-- plot.py:578-587: name and format of an argument. -/
def splitFormat (arg : Chars) : Chars × Bool × Chars :=
  if ':' ∈ arg then
    let fmt := (arg.dropWhile (· ≠ ':')).drop 1
    if fmt.head? = some '|' then (arg.takeWhile (· ≠ ':'), true, fmt.drop 1)
    else (arg.takeWhile (· ≠ ':'), false, fmt)
  else (arg, false, [])

/-- plot.py:593-598: the text of the regular expression. -/
def patternText (name : Chars) : Chars :=
  let t := escape name
  let t := if contains2 '\\' '.' t then t else "\\*".toList ++ ("\\.".toList ++ t)
  let t := replace2 '\\' '*' ".*".toList t
  let t := replace2 '\\' '?' ".".toList t
  t ++ ['$']

/-- plot.py:577-602 `add_signal`. -/
def makeSg (caseSensitive : Bool) (subplot axis : Nat) (arg : Chars) : Sg :=
  let (name, stem, fmt) := splitFormat arg
  { pattern := patternText name, caseSensitive := caseSensitive, subplot := subplot, axis := axis, stem := stem, fmt := fmt }

/-- plot.py:527-560: the loop over the arguments.  `signals.index(…, i0)` finds the next separator. -/
def groupsOf (subplot axis : Nat) : List Chars → List (Chars × Nat × Nat) × Nat × Nat
  | [] => ([], subplot, axis)
  | a :: r =>
    if a = ['-'] then groupsOf (subplot + 1) 0 r
    else if a = [','] then groupsOf subplot (axis + 1) r
    else
      let (l, e) := groupsOf subplot axis r
      ((a, subplot, axis) :: l, e)

/-- plot.py:511-565 `Signals.__init__`. -/
def parseSignals (caseSensitive : Bool) (args : List Chars) : List Sg :=
  let (l, subplot, axis) := groupsOf 1 0 args
  let sgs := l.map fun (a, s, x) => makeSg caseSensitive s x a
  if sgs.isEmpty then [makeSg caseSensitive subplot axis ['*']] else sgs

/-- A character of a regular expression, with or without `re.IGNORECASE`.
Simplification: only ASCII letters have two cases. -/
def literal (caseSensitive : Bool) (c : Char) : Re :=
  if caseSensitive then .chr c else .cls fun x => x.toLower == c.toLower

/-- `re.compile` for the regular expressions that occur here: characters with and without backslash,
`.`, `.*`, `$` and `|`; `none` is `|`. -/
def compileItems (caseSensitive : Bool) : Chars → List (Option Re)
  | [] => []
  | '\\' :: c :: r => some (literal caseSensitive c) :: compileItems caseSensitive r
  | '.' :: '*' :: r => some (.star true .any) :: compileItems caseSensitive r
  | '.' :: r => some .any :: compileItems caseSensitive r
  | '$' :: r => some .eos :: compileItems caseSensitive r
  | '|' :: r => none :: compileItems caseSensitive r
  | c :: r => some (literal caseSensitive c) :: compileItems caseSensitive r

/-- The alternatives of a regular expression. -/
def alternatives (acc : List Re) : List (Option Re) → Re
  | [] => .all acc.reverse
  | some r :: l => alternatives (r :: acc) l
  | none :: l => .alt (.all acc.reverse) (alternatives [] l)

/-- `re.compile(text).match(name)`. -/
def reMatch (caseSensitive : Bool) (pattern name : Chars) : Bool :=
  ((alternatives [] (compileItems caseSensitive pattern)).match? name).isSome

/-- plot.py:792-793 `Signal.match`. -/
def Sg.match (s : Sg) (name : Chars) : Bool := reMatch s.caseSensitive s.pattern name

/-- `'|'.join(texts)`. -/
def joinBar : List Chars → Chars
  | [] => []
  | [t] => t
  | t :: r => t ++ ('|' :: joinBar r)

/-- plot.py:604-605, 628-629 `is_displayed_signal`. -/
def isDisplayed (sgs : List Sg) (name : Chars) : Bool := reMatch false (joinBar (sgs.map Sg.pattern)) name

/-! ### Values -/

/-- A point of a curve; no value interrupts the line. -/
abbrev Point := Rat × Option Value

/-- plot.py:609-626 `add_value`; a break time that is not positive means none (plot.py:567-569). -/
def addValue (sgs : List Sg) (breakTime : Rat) (graphs : List (Chars × List Point)) (signal : Chars) (x : Rat)
    (y : Value) : List (Chars × List Point) :=
  if isDisplayed sgs signal then
    match dictGet? graphs signal with
    | none => dictSet graphs signal [(x, some y)]
    | some g =>
      match g.getLast? with
      | none => dictSet graphs signal [(x, some y)]
      | some (last, _) =>
        if 0 < breakTime ∧ last + breakTime < x then
          dictSet graphs signal (g ++ [(last + breakTime / 2, none), (x, some y)])
        else dictSet graphs signal (g ++ [(x, some y)])
  else graphs

/-- The options of the command. -/
structure Options where
  decodeChoices : Bool := true
  breakTime : Rat := 100
  caseSensitive : Bool := false
  lineNumbers : Bool := false
  showSyntax : Bool := false
  showUnknown : Bool := false
  showInvalid : Bool := false
  ignoreSyntax : Bool := false
  ignoreUnknown : Bool := false
  ignoreInvalid : Bool := false
  showUnits : Bool := true
  start : Option Chars := none
  stop : Option Chars := none
  signals : List Chars := []

/-- What is printed. -/
inductive Note where
  | unknown (id : Nat)
  | invalid (id : Nat)
  | syntax (line : Chars)
  /-- plot.py:688-689 -/
  | notPlotted (pattern fmt : Chars)
  deriving DecidableEq, Repr

/-- plot.py:415-429 `Plotter`, and the dictionary of graphs of `Signals`. -/
structure Plotter where
  graphs : List (Chars × List Point) := []
  syntaxes : List Rat := []
  unknowns : List Rat := []
  invalids : List Rat := []
  printed : List Note := []
  deriving DecidableEq, Repr

/-- plot.py:455-456: named values are shown by their names. -/
def plotValue : Value → Value
  | .named v => .str v.name
  | v => v

/-- plot.py:444, message.py:1111-1127: containers cannot be decoded this way. -/
def decodeBody (fo : FloatOps) (o : Options) (m : DbMessage) (data : Bytes) : Except Err (List (String × Value)) :=
  match m.body with
  | .inl msg => decode fo msg data o.decodeChoices true false true
  | .inr _ => .error .decodeError

/-- plot.py:433-458 `add_msg`. -/
def addMsg (fo : FloatOps) (o : Options) (db : Db) (sgs : List Sg) (p : Plotter) (x : Rat) (id : Nat) (data : Bytes) :
    Plotter :=
  match db.getByFrameId id false with
  | .error _ =>
    { p with unknowns := if o.showUnknown then p.unknowns ++ [x] else p.unknowns
             printed := if o.ignoreUnknown then p.printed else p.printed ++ [.unknown id] }
  | .ok m =>
    match decodeBody fo o m data with
    | .error _ =>
      { p with invalids := if o.showInvalid then p.invalids ++ [x] else p.invalids
               printed := if o.ignoreInvalid then p.printed else p.printed ++ [.invalid id] }
    | .ok d =>
      { p with graphs := d.foldl (fun g e => addValue sgs o.breakTime g (m.name.toList ++ '.' :: e.1.toList) x (plotValue e.2))
                 p.graphs }

/-- plot.py:460-464 `failed_to_parse_line`. -/
def failedLine (o : Options) (p : Plotter) (line : Nat) (t : Chars) : Plotter :=
  { p with syntaxes := if o.showSyntax then p.syntaxes ++ [(line : Rat)] else p.syntaxes
           printed := if o.ignoreSyntax then p.printed else p.printed ++ [.syntax t] }

/-! ### The loop over the lines -/

/-- plot.py:347-360: what changes while the lines are read. -/
structure State where
  format : Option Format := none
  stamps : Stamps := {}
  line : Nat := 1
  plotter : Plotter := {}
  deriving DecidableEq, Repr

/-- plot.py:372-384: the format and the groups of a line. -/
def matchLine (f : Option Format) (line : Chars) : Option Format × Option Groups :=
  match f with
  | some f => (some f, f.regex.match? line)
  | none =>
    match Format.candump.regex.match? line with
    | some g => (some .candump, some g)
    | none =>
      match Format.candumpLog.regex.match? line with
      | some g => (some .candumpLog, some g)
      | none => (none, none)

/-- plot.py:386-394: a line that has been matched; the second part tells whether to go on. -/
def frameStep (fo : FloatOps) (o : Options) (db : Db) (clock : Clock) (sgs : List Sg) (st : State) (g : Groups) :
    Except Err (State × Bool) := do
  let (t, id, data) ← moUnpack g
  let (x, stamps) ← parseStamp clock st.stamps t st.line
  let st := { st with stamps := stamps }
  if ← compare (fun a b => a < b) x stamps.start then pure ({ st with line := st.line + 1 }, true)
  else if ← compare (fun a b => b < a) x stamps.stop then pure (st, false)
  else pure ({ st with plotter := addMsg fo o db sgs st.plotter x id data, line := st.line + 1 }, true)

/-- plot.py:362-400: one line. -/
def lineStep (fo : FloatOps) (o : Options) (db : Db) (clock : Clock) (sgs : List Sg) (st : State) (l : Chars) :
    Except Err (State × Bool) :=
  let line := stripNewlines l
  if line = [] then .ok (st, true)
  else
    let (f, g) := matchLine st.format line
    let st := { st with format := f }
    match g with
    | some g => frameStep fo o db clock sgs st g
    | none =>
      if (reDecode.match? line).isSome then .ok (st, true)
      else .ok ({ st with plotter := failedLine o st.plotter st.line line, line := st.line + 1 }, true)

/-- plot.py:361-400: the loop. -/
def loop (fo : FloatOps) (o : Options) (db : Db) (clock : Clock) (sgs : List Sg) (st : State) :
    List Chars → Except Err State
  | [] => .ok st
  | l :: r => do
    let (st, more) ← lineStep fo o db clock sgs st l
    if more then loop fo o db clock sgs st r else pure st

/-! ### Drawing -/

/-- plot.py:670-686: a call of `plot` or `stem`. -/
structure Curve where
  subplot : Nat
  axis : Nat
  stem : Bool
  fmt : Chars
  label : Chars
  points : List Point
  deriving DecidableEq, Repr

/-- plot.py:758-760 `get_signal_unit`, 678-680: the label.  `unit` is the text of the unit of a signal
(`None` if there is none). -/
def labelOf (o : Options) (db : Db) (unit : Signal → Chars) (name : Chars) : Except Err Chars :=
  if o.showUnits then
    if name.count '.' ≠ 1 then .error .valueError
    else do
      let m ← db.getByName (String.ofList (name.takeWhile (· ≠ '.')))
      match m.body with
      | .inl msg =>
        match msg.signals.find? (fun s => s.name.toList == (name.dropWhile (· ≠ '.')).drop 1) with
        | some s => pure (name ++ (" [".toList ++ (unit s ++ "]".toList)))
        | none => .error .keyError
      | .inr _ => .error .keyError
  else .ok name

/-- plot.py:749-756 `is_replotting_desired`. -/
def replot (current previous : Sg) : Bool := current.pattern = previous.pattern || '.' ∉ current.pattern

/-- plot.py:660-686: the loop over the names for one argument; `plotted` are the signals with which
graphs have been plotted. -/
def drawNames (o : Options) (db : Db) (unit : Signal → Chars) (graphs : List (Chars × List Point)) (sg : Sg) :
    List (Chars × Sg) → List Chars → Except Err (List (Chars × Sg) × List Curve)
  | plotted, [] => .ok (plotted, [])
  | plotted, n :: r =>
    if sg.match n then
      match dictGet? plotted n with
      | some p =>
        if replot sg p then do
          let label ← labelOf o db unit n
          let (plotted, l) ← drawNames o db unit graphs sg plotted r
          pure (plotted, ⟨sg.subplot, sg.axis, sg.stem, sg.fmt, label, (dictGet? graphs n).getD []⟩ :: l)
        else drawNames o db unit graphs sg plotted r
      | none => do
        let label ← labelOf o db unit n
        let (plotted, l) ← drawNames o db unit graphs sg (dictSet plotted n sg) r
        pure (plotted, ⟨sg.subplot, sg.axis, sg.stem, sg.fmt, label, (dictGet? graphs n).getD []⟩ :: l)
    else drawNames o db unit graphs sg plotted r

/-- plot.py:643-689: the loop over the arguments, and the warnings. -/
def drawAll (o : Options) (db : Db) (unit : Signal → Chars) (graphs : List (Chars × List Point)) (names : List Chars) :
    List (Chars × Sg) → List Sg → Except Err (List Curve × List Note)
  | _, [] => .ok ([], [])
  | plotted, sg :: r => do
    let (plotted, l) ← drawNames o db unit graphs sg plotted names
    let (l', w) ← drawAll o db unit graphs names plotted r
    pure (l ++ l', if l.isEmpty then .notPlotted sg.pattern sg.fmt :: w else w)

/-- `sorted(self.values.keys())`. -/
def sortedNames (graphs : List (Chars × List Point)) : List Chars :=
  (graphs.map (·.1)).insertionSort (· ≤ ·)

/-- What the command shows. -/
structure Picture where
  curves : List Curve
  syntaxes : List Rat
  unknowns : List Rat
  invalids : List Rat
  printed : List Note
  deriving DecidableEq, Repr

/-- plot.py:347-402 `_do_decode`, after the database has been loaded, and 634-694 `Signals.plot`. -/
def run (fo : FloatOps) (o : Options) (db : Db) (unit : Signal → Chars) (clock : Clock) (lines : List Chars) :
    Except Err Picture := do
  let sgs := parseSignals o.caseSensitive o.signals
  let stamps : Stamps :=
    { use := if o.showSyntax ∨ o.lineNumbers then some false else none
      start := o.start.map .text, stop := o.stop.map .text }
  let st ← loop fo o db clock sgs { stamps := stamps } lines
  let (curves, warnings) ← drawAll o db unit st.plotter.graphs (sortedNames st.plotter.graphs) [] sgs
  pure { curves := curves, syntaxes := st.plotter.syntaxes, unknowns := st.plotter.unknowns
         invalids := st.plotter.invalids, printed := st.plotter.printed ++ warnings }

end Cantools.Plot
