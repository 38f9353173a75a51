import Verif.Model.Plot
import Verif.Spec.LogReader
import Mathlib.Data.List.Forall2

/-!
What the `plot` command has to show (C55).
-/

namespace Cantools.Spec.Plot
open Regex
open Cantools.Plot (Clock Options Note Point Curve Picture)

/-! ### Which signals -/

/-- Equal characters; without case for ASCII letters, unless cases matter. -/
def Same (caseSensitive : Bool) (c x : Char) : Prop := if caseSensitive then c = x else c.toLower = x.toLower

/-- `*` stands for any text, `?` for any character. -/
inductive Glob (caseSensitive : Bool) : Chars → Chars → Prop
  | nil : Glob caseSensitive [] []
  | char {c x : Char} {p t : Chars} : c ≠ '*' → c ≠ '?' → Same caseSensitive c x → Glob caseSensitive p t →
      Glob caseSensitive (c :: p) (x :: t)
  | one {x : Char} {p t : Chars} : Glob caseSensitive p t → Glob caseSensitive ('?' :: p) (x :: t)
  | many {u p t : Chars} : Glob caseSensitive p t → Glob caseSensitive ('*' :: p) (u ++ t)

/-- `[bo.]sg`: if `bo` is omitted it defaults to `*`. -/
def full (p : Chars) : Chars := if '.' ∈ p then p else '*' :: '.' :: p

/-- The pattern stands for the signal `message.signal`. -/
def Selects (caseSensitive : Bool) (p name : Chars) : Prop := Glob caseSensitive (full p) name

/-- A signal argument of the command. -/
structure Argument where
  pattern : Chars
  stem : Bool
  fmt : Chars
  subplot : Nat
  axis : Nat

/-- The argument is written `[bo.]sg[:fmt]`; a format that starts with `|` asks for a stem plot. -/
def Written (text : Chars) (a : Argument) : Prop :=
  (':' ∉ text ∧ a.pattern = text ∧ a.stem = false ∧ a.fmt = []) ∨
  ∃ f, text = a.pattern ++ ':' :: f ∧ ':' ∉ a.pattern ∧
    (a.stem = true ∧ f = '|' :: a.fmt ∨ a.stem = false ∧ f = a.fmt ∧ ∀ r, f ≠ '|' :: r)

/-- Subplot and vertical axis after the arguments before: `-` starts the next subplot, `,` the next
vertical axis of the subplot. -/
def place (before : List Chars) : Nat × Nat :=
  (1 + before.count ['-'], (before.reverse.takeWhile (· ≠ ['-'])).count [','])

/-- The argument at place `i` is a signal. -/
def IsSignal (a : Chars) : Prop := a ≠ ['-'] ∧ a ≠ [',']

instance (a : Chars) : Decidable (IsSignal a) := inferInstanceAs (Decidable (_ ∧ _))

/-- The arguments mean the signals: all of them if there are none. -/
def Means (args : List Chars) (as : List Argument) : Prop :=
  if ∀ a ∈ args, ¬ IsSignal a then
    ∃ a, as = [a] ∧ Written ['*'] a ∧ (a.subplot, a.axis) = place args
  else List.Forall₂ (fun (e : Chars × Nat) a => Written e.1 a ∧ (a.subplot, a.axis) = place (args.take e.2))
    (args.zipIdx.filter fun e => IsSignal e.1) as

/-- The signal is drawn for this argument: it is the first argument that selects the signal, or the
same pattern is given again. -/
def Shown (caseSensitive : Bool) (as : List Argument) (a : Argument) (name : Chars) : Prop :=
  ∃ l b r, as = l ++ b :: r ∧ (∀ c ∈ l, ¬ Selects caseSensitive c.pattern name) ∧ Selects caseSensitive b.pattern name ∧
    full a.pattern = full b.pattern

/-! ### Which values -/

/-- What is left of a line of the log. -/
inductive Entry where
  /-- place on the horizontal axis, frame id and data -/
  | frame (x : Rat) (id : Nat) (data : Bytes)
  /-- a line that cannot be read, with its number -/
  | junk (n : Nat) (text : Chars)

/-- Named values are shown by their names. -/
def shownValue : Value → Value
  | .named v => .str v.name
  | v => v

/-- The names and values of the signals in a frame. -/
def valuesIn (fo : FloatOps) (o : Options) (db : Db) (id : Nat) (data : Bytes) : List (Chars × Value) :=
  match db.getByFrameId id false with
  | .error _ => []
  | .ok m =>
    match m.body with
    | .inr _ => []
    | .inl msg =>
      match decode fo msg data o.decodeChoices true false true with
      | .error _ => []
      | .ok d => d.map fun e => (m.name.toList ++ '.' :: e.1.toList, shownValue e.2)

/-- The values of a signal in the log. -/
def samples (fo : FloatOps) (o : Options) (db : Db) (entries : List Entry) (name : Chars) : List (Rat × Value) :=
  entries.flatMap fun e =>
    match e with
    | .frame x id data => ((valuesIn fo o db id data).filter fun p => p.1 = name).map fun p => (x, p.2)
    | .junk .. => []

/-- The line between two points is interrupted if they are further apart than the break time. -/
def interrupted (breakTime : Rat) : List (Rat × Value) → List Point
  | [] => []
  | [(x, y)] => [(x, some y)]
  | (x, y) :: (x', y') :: r =>
    (x, some y) :: ((if 0 < breakTime ∧ x + breakTime < x' then [(x + breakTime / 2, none)] else []) ++
      interrupted breakTime ((x', y') :: r))

/-- The id is not known. -/
def Unknown (db : Db) (id : Nat) : Prop := ∃ e, db.getByFrameId id false = .error e

/-- The id is known but the data cannot be decoded. -/
def Undecodable (fo : FloatOps) (o : Options) (db : Db) (id : Nat) (data : Bytes) : Prop :=
  ∃ m, db.getByFrameId id false = .ok m ∧
    match m.body with
    | .inr _ => True
    | .inl msg => ∃ e, decode fo msg data o.decodeChoices true false true = .error e

open Classical in
/-- What is printed for an entry. -/
noncomputable def notes (fo : FloatOps) (o : Options) (db : Db) : Entry → List Note
  | .frame _ id data =>
    if Unknown db id then if o.ignoreUnknown then [] else [.unknown id]
    else if Undecodable fo o db id data then if o.ignoreInvalid then [] else [.invalid id]
    else []
  | .junk _ t => if o.ignoreSyntax then [] else [.syntax t]

open Classical in
/-- The vertical lines for unknown frames. -/
noncomputable def unknowns (o : Options) (db : Db) (entries : List Entry) : List Rat :=
  if o.showUnknown then
    entries.filterMap fun e => match e with
      | .frame x id _ => if Unknown db id then some x else none
      | .junk .. => none
  else []

open Classical in
/-- The vertical lines for frames that cannot be decoded. -/
noncomputable def invalids (fo : FloatOps) (o : Options) (db : Db) (entries : List Entry) : List Rat :=
  if o.showInvalid then
    entries.filterMap fun e => match e with
      | .frame x id data => if Undecodable fo o db id data then some x else none
      | .junk .. => none
  else []

/-- The vertical lines for lines that cannot be read. -/
def syntaxes (o : Options) (entries : List Entry) : List Rat :=
  if o.showSyntax then
    entries.filterMap fun e => match e with
      | .frame .. => none
      | .junk n _ => some (n : Rat)
  else []

/-! ### Lines of the log -/

/-- What a line of the log is. -/
inductive Item where
  | skip
  /-- a frame with its time stamp, id and data -/
  | frame (stamp : Option Chars) (id : Nat) (data : Bytes)
  /-- a line that cannot be read -/
  | junk (text : Chars)

/-- Ends of lines. -/
def Eol (e : Chars) : Prop := ∀ c ∈ e, c = '\r' ∨ c = '\n'

/-- Text within a line. -/
def Inline (t : Chars) : Prop := '\r' ∉ t ∧ '\n' ∉ t

/-- `  (000.000000)  vcan0  1F0   [2]  00 1B :: message(…)` -/
structure CandumpLine where
  stamp : Option Chars
  channel : Chars
  ext : Bool
  id : Nat
  len : Chars
  /-- the bytes, each with the number of blanks after it -/
  data : List (UInt8 × Nat)
  /-- what `decode` has written after the frame -/
  note : Option Chars
  gaps : Nat → Nat

open Spec.LogReader in
def CandumpLine.stampText (l : CandumpLine) : Chars :=
  match l.stamp with
  | none => []
  | some t => '(' :: (t ++ (')' :: gap (l.gaps 1)))

def CandumpLine.noteText (l : CandumpLine) : Chars :=
  match l.note with
  | none => []
  | some t => ':' :: ':' :: t

open Spec.LogReader in
def CandumpLine.text (l : CandumpLine) : Chars :=
  blanks (l.gaps 0) ++ (l.stampText ++ (l.channel ++ (gap (l.gaps 2) ++ (idText l.ext l.id ++ (gap (l.gaps 3) ++
    ('[' :: (l.len ++ (']' :: (blanks (l.gaps 4) ++ (payloadText l.data ++ l.noteText))))))))))

open Spec.LogReader in
structure CandumpLine.Valid (l : CandumpLine) : Prop where
  stamp : ∀ t, l.stamp = some t → Inline t ∧ ')' ∉ t
  channel : Word l.channel ∧ ∀ r, l.channel ≠ '(' :: r
  id : ValidId l.ext l.id
  len : Digits l.len
  note : ∀ t, l.note = some t → Inline t

/-- `(1579857014.345944) can2 486#82967A6B006B07F8 R` -/
structure LogLine where
  seconds : Chars
  fraction : Chars
  channel : Chars
  ext : Bool
  id : Nat
  data : Bytes
  direction : Option (Nat × Bool)
  gaps : Nat → Nat

def LogLine.stamp (l : LogLine) : Chars := l.seconds ++ '.' :: l.fraction

open Spec.LogReader in
def LogLine.text (l : LogLine) : Chars :=
  '(' :: (l.stamp ++ (')' :: (gap (l.gaps 0) ++ (l.channel ++ (gap (l.gaps 1) ++ (idText l.ext l.id ++ ('#' ::
    (l.data.flatMap byteText ++ directionText l.direction))))))))

open Spec.LogReader in
structure LogLine.Valid (l : LogLine) : Prop where
  seconds : Digits l.seconds
  fraction : Digits l.fraction
  channel : Word l.channel ∧ '[' ∉ l.channel
  id : ValidId l.ext l.id

open Spec.LogReader in
/-- A line of a log in the format, and what it is. -/
inductive Reads : Cantools.Plot.Format → Chars → Item → Prop
  | blank {f : Cantools.Plot.Format} {e : Chars} : Eol e → Reads f e .skip
  | candump {l : CandumpLine} {e : Chars} : l.Valid → Eol e →
      Reads .candump (l.text ++ e) (.frame l.stamp l.id (l.data.map (·.1)))
  | log {l : LogLine} {e : Chars} : l.Valid → Eol e → Reads .candumpLog (l.text ++ e) (.frame (some l.stamp) l.id l.data)
  /-- `message(`: the output of `decode` -/
  | message {f : Cantools.Plot.Format} {name t e : Chars} : name ≠ [] → (∀ c ∈ name, isWord c = true) →
      Inline t → '[' ∉ t → '#' ∉ t → Eol e → Reads f (name ++ '(' :: t ++ e) .skip
  /-- `    signal: 12.5 km/h,` -/
  | signal {f : Cantools.Plot.Format} {m n : Nat} {name number t e : Chars} : name ≠ [] → (∀ c ∈ name, isWord c = true) →
      number ≠ [] → (∀ c ∈ number, isDigit c = true ∨ c = '.' ∨ c = '+' ∨ c = '-') →
      Inline t → '[' ∉ t → '#' ∉ t → Eol e → Reads f (gap m ++ (name ++ (':' :: (gap n ++ (number ++ t)))) ++ e) .skip
  /-- `)` -/
  | close {f : Cantools.Plot.Format} {t e : Chars} : Inline t → '[' ∉ t → '#' ∉ t → Eol e → Reads f (')' :: t ++ e) .skip
  | junk {f : Cantools.Plot.Format} {c : Char} {t e : Chars} : Inline (c :: t) → isSpace c = false → c ≠ ')' →
      '[' ∉ c :: t → '#' ∉ c :: t → '(' ∉ c :: t → Eol e → Reads f (c :: t ++ e) (.junk (c :: t))

/-! ### The horizontal axis -/

/-- What is shown on the horizontal axis. -/
inductive Axis where
  | lines | dates | epoch | seconds
  deriving DecidableEq

/-- The axis for the time stamp of the first frame: dates, seconds, seconds since 1970 if they are
more than a week, or else line numbers. -/
def axisOf (clock : Clock) : Option Chars → Axis
  | none => .lines
  | some t =>
    if (clock.date t).isSome then .dates
    else match clock.float t with
      | none => .lines
      | some q => if q ≤ 7 * 24 * 60 * 60 then .seconds else if (clock.fromSeconds q).isSome then .epoch else .lines

/-- The place of a frame in line `n`. -/
def Axis.at (clock : Clock) (x : Axis) (n : Nat) (t : Option Chars) : Option Rat :=
  match x with
  | .lines => some n
  | .dates => t.bind clock.date
  | .epoch => (t.bind clock.float).bind clock.fromSeconds
  | .seconds => t.bind clock.float

/-- The value of `--start` or `--stop`; dates may be relative to another. -/
def Axis.bound (clock : Clock) (x : Axis) (base : Rat) (t : Chars) : Option Rat :=
  match x with
  | .lines => clock.int t
  | .seconds => clock.userRelative t
  | .dates | .epoch => clock.userAbsolute t base

/-- The values of `--start` and `--stop`, where `first` is the first place: dates of `--stop` are
relative to `--start` if it is given. -/
def Limits (clock : Clock) (x : Axis) (first : Rat) (start stop : Option Chars) (a b : Option Rat) : Prop :=
  (match start with
    | none => a = none
    | some t => ∃ v, a = some v ∧ x.bound clock first t = some v) ∧
  (match stop with
    | none => b = none
    | some t => ∃ v, b = some v ∧ x.bound clock (a.getD first) t = some v)

/-- The entries of the items, from line `n` on; lines that are skipped are not counted. -/
def placed (clock : Clock) (x : Axis) (n : Nat) : List Item → List Entry
  | [] => []
  | .skip :: r => placed clock x n r
  | .junk t :: r => .junk n t :: placed clock x (n + 1) r
  | .frame t id data :: r =>
    match x.at clock n t with
    | some q => .frame q id data :: placed clock x (n + 1) r
    | none => placed clock x (n + 1) r

/-- A frame before the start. -/
def Early (a : Option Rat) : Entry → Prop
  | .frame x .. => ∃ s, a = some s ∧ x < s
  | .junk .. => False

/-- A frame after the stop. -/
def Late (b : Option Rat) : Entry → Prop
  | .frame x .. => ∃ s, b = some s ∧ s < x
  | .junk .. => False

open Classical in
/-- The entries from start to stop: reading ends with the first frame after the stop. -/
noncomputable def window (a b : Option Rat) (es : List Entry) : List Entry :=
  (es.takeWhile fun e => Early a e ∨ ¬ Late b e).filter fun e => ¬ Early a e

def Item.isFrame : Item → Bool
  | .frame .. => true
  | _ => false

/-- The time stamp of the first frame. -/
def firstStamp : List Item → Option (Option Chars)
  | [] => none
  | .frame t _ _ :: _ => some t
  | _ :: r => firstStamp r

/-- The place of the first frame. -/
def firstPlace : List Entry → Option Rat
  | [] => none
  | .frame x _ _ :: _ => some x
  | .junk .. :: r => firstPlace r

/-- The axis of the log. -/
def axisFor (o : Options) (clock : Clock) (items : List Item) : Axis :=
  if o.showSyntax ∨ o.lineNumbers then .lines
  else match firstStamp items with
    | some t => axisOf clock t
    | none => .lines

/-- The entries to be shown for the log. -/
def LogEntries (o : Options) (clock : Clock) (items : List Item) (entries : List Entry) : Prop :=
  let all := placed clock (axisFor o clock items) 1 items
  match firstPlace all with
  | none => entries = all
  | some x => ∃ a b, Limits clock (axisFor o clock items) x o.start o.stop a b ∧ entries = window a b all

/-! ### The picture -/

/-- The label: the name, and the unit between brackets. -/
def Label (o : Options) (db : Db) (unit : Signal → Chars) (name label : Chars) : Prop :=
  if o.showUnits then
    ∃ (b : String) (m : DbMessage) (msg : Message) (s : Signal), db.getByName b = .ok m ∧ m.body = .inl msg ∧
      s ∈ msg.signals ∧ name = b.toList ++ '.' :: s.name.toList ∧ label = name ++ (" [".toList ++ (unit s ++ "]".toList))
  else label = name

/-- The curve of a signal for an argument. -/
structure IsCurve (fo : FloatOps) (o : Options) (db : Db) (unit : Signal → Chars) (entries : List Entry)
    (e : Argument × Chars) (c : Curve) : Prop where
  subplot : c.subplot = e.1.subplot
  axis : c.axis = e.1.axis
  stem : c.stem = e.1.stem
  fmt : c.fmt = e.1.fmt
  points : c.points = interrupted o.breakTime (samples fo o db entries e.2)
  label : Label o db unit e.2 c.label

open Classical in
/-- The signals that are drawn, in the order of the arguments and then of the names. -/
noncomputable def drawn (caseSensitive : Bool) (as : List Argument) (names : List Chars) : List (Argument × Chars) :=
  as.flatMap fun a => (names.filter fun n => Shown caseSensitive as a n).map fun n => (a, n)

open Classical in
/-- The arguments for which nothing is drawn. -/
noncomputable def idle (caseSensitive : Bool) (as : List Argument) (names : List Chars) : List Argument :=
  as.filter fun a => ∀ n ∈ names, ¬ Shown caseSensitive as a n

/-- The picture shows the entries of the log. -/
structure Shows (fo : FloatOps) (o : Options) (db : Db) (unit : Signal → Chars) (entries : List Entry)
    (as : List Argument) (pic : Picture) : Prop where
  unknowns : pic.unknowns = unknowns o db entries
  invalids : pic.invalids = invalids fo o db entries
  syntaxes : pic.syntaxes = syntaxes o entries
  curves : ∃ names : List Chars, names.Pairwise (· < ·) ∧ (∀ n, n ∈ names ↔ samples fo o db entries n ≠ []) ∧
    List.Forall₂ (IsCurve fo o db unit entries) (drawn o.caseSensitive as names) pic.curves ∧
    ∃ w, pic.printed = entries.flatMap (notes fo o db) ++ w ∧
      List.Forall₂ (fun a n => ∃ p, n = .notPlotted p a.fmt) (idle o.caseSensitive as names) w

/-! ### Databases -/

/-- Names are in one line. -/
def PlainNames (db : Db) : Prop :=
  ∀ e ∈ db.byId, '\n' ∉ e.2.name.toList ∧ ∀ m, e.2.body = .inl m → ∀ s ∈ m.signals, '\n' ∉ s.name.toList

/-- Signals can be found by the name of the message and their own name. -/
def Findable (db : Db) : Prop :=
  ∀ e ∈ db.byId, '.' ∉ e.2.name.toList ∧ db.getByName e.2.name = .ok e.2 ∧
    ∀ m, e.2.body = .inl m → ∀ s ∈ m.signals, '.' ∉ s.name.toList

/-- All time stamps can be placed on the axis. -/
def Timed (clock : Clock) (x : Axis) (items : List Item) : Prop :=
  ∀ t id data, Item.frame t id data ∈ items → ∀ n, (x.at clock n t).isSome = true

/-- `--start` and `--stop` can be read; they are not given together with options for line numbers. -/
def Bounded (o : Options) (clock : Clock) (items : List Item) : Prop :=
  (o.showSyntax ∨ o.lineNumbers → o.start = none ∧ o.stop = none) ∧
  ∀ x, firstPlace (placed clock (axisFor o clock items) 1 items) = some x →
    ∃ a b, Limits clock (axisFor o clock items) x o.start o.stop a b

end Cantools.Spec.Plot
