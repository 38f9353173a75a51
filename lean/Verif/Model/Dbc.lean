import Verif.Model.Message

/-
Pieces of database/can/formats/dbc.py: frame ids, multiplexing, long names, strings.
-/

namespace Cantools

/-! ### Frame ids -/

/-- dbc.py:558-564 `get_dbc_frame_id`; `x | 0x80000000` for a python integer `x`. -/
def dbcFrameId (frameId : Int) (isExtended : Bool) : Int :=
  if isExtended then
    if (frameId / 2 ^ 31) % 2 = 1 then frameId else frameId + 2 ^ 31
  else frameId

/-- dbc.py:1911-1914: `frame_id_dbc & 0x7fffffff` and `bool(frame_id_dbc & 0x80000000)`. -/
def loadFrameId (number : Int) : Int × Bool :=
  (number % 2 ^ 31, (number / 2 ^ 31) % 2 = 1)

/-! ### Multiplexing -/

/-- python `sorted` of integers. -/
def sortInts : List Int → List Int
  | [] => []
  | a :: r => insertInt a (sortInts r)
where
  /-- insert into a sorted list -/
  insertInt (a : Int) : List Int → List Int
    | [] => [a]
    | b :: r => if a ≤ b then a :: b :: r else b :: insertInt a r

/-- dbc.py:1151-1162: the loop of `_create_mux_ranges`; `ranges` is in reverse order, the last range
first.  (`ranges[-1]` of an empty list raises `IndexError`.) -/
def muxRangesLoop : List Int → Int → List (Int × Int) → Except Err (List (Int × Int))
  | [], _, ranges => .ok ranges.reverse
  | value :: rest, prev, ranges =>
    if value = prev + 1 then
      match ranges with
      | [] => .error .indexError
      | (lo, _) :: more => muxRangesLoop rest value ((lo, value) :: more)
    else muxRangesLoop rest value ((value, value) :: ranges)

/-- dbc.py:1142-1164 `_create_mux_ranges`. -/
def createMuxRanges (ids : List Int) : Except Err (List (Int × Int)) :=
  match sortInts ids with
  | [] => .error .indexError
  | first :: rest => muxRangesLoop (first :: rest) first []

/-- python `list(range(lower, upper + 1))`. -/
def pyRange (lower upper : Int) : List Int :=
  (List.range (upper + 1 - lower).toNat).map fun k : Nat => lower + (k : Int)

/-- dbc.py:1505-1512: the ids of the ranges of an `SG_MUL_VAL_` entry. -/
def expandRanges (ranges : List (Int × Int)) : List Int :=
  ranges.flatMap fun r => pyRange r.1 r.2

/-- The multiplexer marker of an `SG_` line: nothing, `M`, or `m<id>`; `m<id>M` is only read. -/
inductive MuxMarker where
  | none
  | selector
  | multiplexed (id : Int)
  | both (id : Int)
  deriving DecidableEq, Repr

/-- dbc.py:618-624 `format_mux`. -/
def formatMux (s : Signal) : Except Err MuxMarker :=
  if s.isMultiplexer then .ok .selector
  else
    match s.multiplexerIds with
    | .none => .ok .none
    | some [] => .error .indexError
    | some (i :: _) => .ok (.multiplexed i)

/-- dbc.py:1119-1139 `_is_extended_mux_needed`. -/
def isExtendedMuxNeeded (messages : List (List Signal)) : Bool :=
  messages.any fun signals =>
    decide (1 < (signals.filter (·.isMultiplexer)).length) ||
      signals.any fun s => decide (1 < (s.multiplexerIds.getD []).length)

/-- An `SG_MUL_VAL_` entry of a message: signal, its multiplexer, ranges. -/
structure MuxEntry where
  signal : String
  multiplexer : String
  ranges : List (Int × Int)
  deriving DecidableEq, Repr

/-- `str(signal.multiplexer_signal)`: a signal with ids but without multiplexer is written with the
multiplexer `None`. -/
def muxName (s : Signal) : String := s.multiplexerSignal.getD "None"

/-- dbc.py:1178-1189, the entries of one message, `_dump_signal_mux_values`. -/
def dumpMuxEntries (signals : List Signal) : Except Err (List MuxEntry) :=
  (signals.filter fun s => !(s.multiplexerIds.getD []).isEmpty).mapM fun s =>
    (createMuxRanges (s.multiplexerIds.getD [])).map fun r =>
      { signal := s.name, multiplexer := muxName s, ranges := r }

/-- dbc.py:1493-1517 `_load_signal_multiplexer_values`, for one message: multiplexer name →
signal name → ids. -/
def loadMuxValues (entries : List MuxEntry) : List (String × List (String × List Int)) :=
  entries.foldl (fun acc e =>
    dictSet acc e.multiplexer
      (dictSet ((dictGet? acc e.multiplexer).getD []) e.signal (expandRanges e.ranges))) []

/-- dbc.py:1568-1576: `multiplexer_of_signal`. -/
def multiplexerOfSignal (values : List (String × List (String × List Int))) :
    List (String × String) :=
  values.foldl (fun acc m => m.2.foldl (fun acc e => dictSet acc e.1 m.1) acc) []

/-- What an `SG_` line says about multiplexing. -/
structure MuxField where
  name : String
  marker : MuxMarker
  deriving DecidableEq, Repr

/-- The marker ends with `M`. -/
def MuxMarker.isSelector : MuxMarker → Bool
  | .selector => true
  | .both _ => true
  | _ => false

/-- dbc.py:1932-1942: the only selector of the message, if there is exactly one. -/
def singleSelector (fields : List MuxField) : Option String :=
  match fields.filter (·.marker.isSelector) with
  | [f] => some f.name
  | _ => none

/-- python `list(set(ids))`; the order is that of first occurrence here. -/
def uniqueIds (ids : List Int) : List Int :=
  ids.foldl (fun acc i => if i ∈ acc then acc else acc ++ [i]) []

/-- dbc.py:1620-1647 `get_signal_multiplexer_ids`. -/
def loadMultiplexerIds (values : List (String × List (String × List Int))) (single : Option String)
    (f : MuxField) : Option (List Int) :=
  let ids : List Int :=
    match single, f.marker with
    | some _, .multiplexed i => [i]
    | _, _ => []
  match (match single with
         | some n => some n
         | none => dictGet? (multiplexerOfSignal values) f.name) with
  | none => none
  | some mux =>
    let ids := ids ++ ((dictGet? values mux).bind fun e => dictGet? e f.name).getD []
    if ids = [] then none else some (uniqueIds ids)

/-- dbc.py:1649-1662 `get_multiplexer_signal_name`. -/
def loadMultiplexerSignal (values : List (String × List (String × List Int)))
    (single : Option String) (f : MuxField) : Option String :=
  if f.marker = .none then none
  else
    match single with
    | none => dictGet? (multiplexerOfSignal values) f.name
    | some n => if f.name ≠ n then some n else none

/-- The multiplexing attributes of a loaded signal. -/
structure LoadedMux where
  name : String
  isMultiplexer : Bool
  multiplexerIds : Option (List Int)
  multiplexerSignal : Option String
  deriving DecidableEq, Repr

/-- dbc.py:1559-1762 `_load_signals`, the multiplexing attributes of all signals of a message. -/
def loadMux (fields : List MuxField) (entries : List MuxEntry) : List LoadedMux :=
  fields.map fun f =>
    { name := f.name
      isMultiplexer := f.marker.isSelector
      multiplexerIds := loadMultiplexerIds (loadMuxValues entries) (singleSelector fields) f
      multiplexerSignal := loadMultiplexerSignal (loadMuxValues entries) (singleSelector fields) f }

/-- dbc.py:638-667 and 1167-1191: what is written about the multiplexing of a message, `extended`
being the answer of `isExtendedMuxNeeded` for the whole database.  The `SG_` lines are sorted with
`sort`, the `SG_MUL_VAL_` entries are not. -/
def dumpMux (extended : Bool) (sort : List Signal → List Signal) (signals : List Signal) :
    Except Err (List MuxField × List MuxEntry) := do
  let fields ← (sort signals).mapM fun s => (formatMux s).map fun m => ({ name := s.name, marker := m } : MuxField)
  let entries ← (if extended then dumpMuxEntries signals else .ok [] : Except Err (List MuxEntry))
  return (fields, entries)

/-! ### Long names -/

/-- A python string as the list of its code points. -/
abbrev Chars := List Char

/-- dbc.py:547: the order given by `key=lambda s: (len(s), s)`. -/
def nameLe (a b : Chars) : Bool :=
  decide (a.length < b.length) || (decide (a.length = b.length) && decide (a ≤ b))

/-- python `sorted` with a given order. -/
def pySorted {α : Type} (le : α → α → Bool) : List α → List α
  | [] => []
  | a :: r => ins a (pySorted le r)
where
  /-- insert before the first element that is not smaller -/
  ins (a : α) : List α → List α
    | [] => [a]
    | b :: r => if le a b then a :: b :: r else b :: ins a r

/-- Decimal digits of a number, python `str(n)`. -/
def decimal (n : Nat) : Chars :=
  if n < 10 then [Char.ofNat (48 + n)] else decimal (n / 10) ++ [Char.ofNat (48 + n % 10)]

/-- python `f'{n:04d}'`. -/
def decimal4 (n : Nat) : Chars :=
  List.replicate (4 - (decimal n).length) '0' ++ decimal n

/-- dbc.py:549-552: the `while` loop; `none` if it did not end within `fuel` rounds.  `index` is the
next index to try. -/
def findShort (taken : List Chars) : Nat → Nat → Chars → Option Chars
  | 0, _, _ => none
  | fuel + 1, index, short =>
    if short ∈ taken then findShort taken fuel (index + 1) (short.take 27 ++ '_' :: decimal4 index)
    else some short

/-- dbc.py:547-555: the loop over the sorted names; gives `long_to_short` and `short_to_long`. -/
def convertNames : List Chars → List (Chars × Chars) → List (Chars × Chars) →
    Option (List (Chars × Chars) × List (Chars × Chars))
  | [], l2s, s2l => some (l2s, s2l)
  | long :: rest, l2s, s2l =>
    match findShort (s2l.map (·.1)) (s2l.length + 2) 0 (long.take 32) with
    | none => none
    | some short => convertNames rest (dictSet l2s long short) (dictSet s2l short long)

/-- dbc.py:541-555 `LongNamesConverter`: `long_to_short` and `short_to_long`. -/
def longNamesConverter (names : List Chars) :
    Option (List (Chars × Chars) × List (Chars × Chars)) :=
  convertNames (pySorted nameLe names) [] []

/-- dbc.py:2087-2208: the name written for an object and its `System…LongSymbol` attribute, with
`shorten_long_names=True`. -/
def dumpName (l2s : List (Chars × Chars)) (long : Chars) : Except Err (Chars × Option Chars) :=
  match dictGet? l2s long with
  | none => .error .keyError
  | some short => .ok (short, if long = short then none else some long)

/-- dbc.py:2159-2187 `make_signal_names_unique`: the signals of a message with their short names.
Only the name changes: `multiplexer_signal` keeps the long name. -/
def shortenSignals (l2s : List (Chars × Chars)) (signals : List Signal) :
    Except Err (List (Signal × Option Chars)) :=
  signals.mapM fun s =>
    (dumpName l2s s.name.toList).map fun r => ({ s with name := String.ofList r.1 }, r.2)

/-- dbc.py:576-586, 1693-1701, 1890-1896: the name of a loaded object. -/
def loadName (short : Chars) (longSymbol : Option Chars) : Chars := longSymbol.getD short

/-! ### Strings -/

/-- python `s.replace('"', '\\"')`, dbc.py:695. -/
def escapeQuotes : Chars → Chars
  | [] => []
  | c :: r => if c = '"' then '\\' :: '"' :: escapeQuotes r else c :: escapeQuotes r

/-- python `s.replace('\\"', '"')`, dbc.py:401. -/
def unescapeQuotes : Chars → Chars
  | [] => []
  | '\\' :: '"' :: r => '"' :: unescapeQuotes r
  | c :: r => c :: unescapeQuotes r

/-- dbc.py:379: the part of the regular expression `"(\\"|[^"])*?"` after the opening quote, as
python matches it: the repetition stops as early as possible, tries `\"` before a single character,
and goes back when there is no closing quote.  Gives the text between the quotes and what follows
the closing quote. -/
def matchString : Chars → Option (Chars × Chars)
  | [] => none
  | '"' :: r => some ([], r)
  | '\\' :: '"' :: r =>
    match matchString r with
    | some (c, rest) => some ('\\' :: '"' :: c, rest)
    | none => some (['\\'], r)
  | c :: r =>
    match matchString r with
    | some (t, rest) => some (c :: t, rest)
    | none => none

/-- dbc.py:400-402: a `STRING` token, from the character after the opening quote on. -/
def lexString (text : Chars) : Option (Chars × Chars) :=
  (matchString text).map fun r => (unescapeQuotes r.1, r.2)

/-- A `STRING` token at the start of a text. -/
def readString : Chars → Option (Chars × Chars)
  | '"' :: text => lexString text
  | _ => none

/-- dbc.py:683-723 `_dump_comments`: a comment between quotes (comments of buses are not
escaped, 687-688). -/
def dumpComment (comment : Chars) : Chars := '"' :: (escapeQuotes comment ++ ['"'])

/-- Strings written without escaping: comments of buses (dbc.py:688), units (648-663), names of
values (1085-1090), attribute values and attribute names (attribute.py `formatted_value`, 985-1038). -/
def dumpPlain (text : Chars) : Chars := '"' :: (text ++ ['"'])

end Cantools
