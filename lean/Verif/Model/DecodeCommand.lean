import Verif.Model.Database
import Verif.Model.LogReader
import Verif.Model.DbcFile

/-
subparsers/decode.py and subparsers/__utils__.py: the `decode` command, from the lines of the log to
the lines that are printed.
-/

namespace Cantools.DecodeCommand
open Cantools Dbc

/-- What the model leaves open: the text of numbers (integers and floating point numbers of python),
the units of signals, the texts of exceptions. -/
structure Texts where
  num : Signal → Rat → Chars
  unit : Signal → Option Chars
  /-- of a decoding error, for a message of that name and the data -/
  error : String → Bytes → Chars

/-- The options of the command. -/
structure Options where
  decodeChoices : Bool := true
  decodeContainers : Bool := true
  singleLine : Bool := false
  /-- `--no-strict`: decode.py:22-23 -/
  allowTruncated : Bool := false
  allowExcess : Bool := false

/-- `str(value)`. -/
def valueText (T : Texts) (s : Signal) : Value → Chars
  | .num q => T.num s q
  | .str t => t.toList
  | .named v => v.name.toList

/-- __utils__.py:30-39: the text of one signal. -/
def signalText (T : Texts) (s : Signal) (v : Value) : Chars :=
  match T.unit s, v with
  | some u, .num q => s.name.toList ++ (": ".toList ++ (T.num s q ++ (' ' :: u)))
  | _, v => s.name.toList ++ (": ".toList ++ valueText T s v)

/-- __utils__.py:21-42 `format_signals`. -/
def formatSignals (T : Texts) (m : Message) (decoded : List (String × Value)) : List Chars :=
  m.signals.filterMap fun s => (dictGet? decoded s.name).map (signalText T s)

/-- __utils__.py:45-48 `_format_message_single_line`. -/
def singleLine (name : String) (signals : List Chars) : Chars :=
  ' ' :: (name.toList ++ ('(' :: (joinC ", ".toList signals ++ [')'])))

/-- __utils__.py:14-18, 51-59 `_format_message_multi_line`. -/
def multiLine (name : String) (signals : List Chars) : Chars :=
  '\n' :: (name.toList ++ ("(\n".toList ++ (joinC ",\n".toList (signals.map ("    ".toList ++ ·)) ++ "\n)".toList)))

/-- `f'{n:x}'`. -/
def hexText (n : Nat) : Chars :=
  if n < 16 then [Nat.digitChar n] else hexText (n / 16) ++ [Nat.digitChar (n % 16)]

/-- `f'{n:06x}'`. -/
def hex6 (n : Nat) : Chars := List.replicate (6 - (hexText n).length) '0' ++ hexText n

/-- `f'{b:02x}'`. -/
def byteText (b : UInt8) : Chars := [Nat.digitChar (b.toNat / 16), Nat.digitChar (b.toNat % 16)]

/-- `bytes.hex()`. -/
def bytesText (b : Bytes) : Chars := b.flatMap byteText

/-- __utils__.py:66-79: one entry of a container on a single line; `data` are the bytes of
`unpacked_data[i][1]`. -/
def entrySingle (T : Texts) (e : DecodedEntry) (data : Bytes) : Chars :=
  match e with
  | (.inl m, .inl raw) =>
    m.msg.name.toList ++ (": Undecodable data: ".toList ++ joinC [' '] (raw.map byteText))
  | (.inl m, .inr d) => singleLine m.msg.name (formatSignals T m.msg d)
  | (.inr id, _) =>
    "(Unknown contained message: Header ID: 0x".toList ++ (hexText id ++ (", Data: ".toList ++ (bytesText data ++ [')'])))

/-- `text.replace('\n', '\n    ')`. -/
def indent (t : Chars) : Chars := t.flatMap fun c => if c = '\n' then "\n    ".toList else [c]

/-- `text.strip()`. -/
def strip (t : Chars) : Chars :=
  ((t.dropWhile Regex.isSpace).reverse.dropWhile Regex.isSpace).reverse

/-- __utils__.py:89-106: one entry of a container on several lines.  A header id that is not a number
cannot be formatted. -/
def entryMulti (T : Texts) (e : DecodedEntry) (data : Bytes) : Except Err Chars :=
  match e with
  | (.inl m, .inl raw) =>
    match m.headerId with
    | none => .error .typeError
    | some id => .ok ("    ".toList ++ (hex6 id ++ ("##".toList ++ (bytesText raw ++ (" ::\n    ".toList ++
        (m.msg.name.toList ++ ": Undecodable data".toList))))))
  | (.inl m, .inr d) =>
    match m.headerId with
    | none => .error .typeError
    | some id => .ok ("    ".toList ++ strip (indent (hex6 id ++ ("##".toList ++ (bytesText data ++ (" ::".toList ++
        multiLine m.msg.name (formatSignals T m.msg d)))))))
  | (.inr id, _) => .ok ("    ".toList ++ (hex6 id ++ ("##".toList ++ (bytesText data ++ " ::\n    Unknown contained message".toList))))

/-- __utils__.py:61-111: `decoded_data` with `unpacked_data[i]`: both have an entry for each
contained message. -/
def formatContainer (T : Texts) (o : Options) (name : String) (unpacked : List (Ref × Bytes))
    (decoded : List DecodedEntry) : Except Err Chars :=
  let entries := decoded.zip (unpacked.map (·.2))
  if o.singleLine then
    .ok (' ' :: (name.toList ++ ('(' :: (joinC ", ".toList (entries.map fun e => entrySingle T e.1 e.2) ++ [')']))))
  else do
    let l ← entries.mapM fun e => entryMulti T e.1 e.2
    return '\n' :: (name.toList ++ ("(\n".toList ++ (joinC ",\n".toList l ++ "\n)".toList)))

/-- __utils__.py:148-174 `format_container_message`. -/
def formatContainerMessage (fo : FloatOps) (T : Texts) (o : Options) (name : String) (c : Container) (data : Bytes) :
    Except Err Chars :=
  match (do
    let u ← unpackContainer c data o.allowTruncated
    let d ← decodeContainer fo c data o.decodeChoices true o.allowTruncated o.allowExcess
    return (u, d) : Except Err _) with
  | .ok (u, d) => formatContainer T o name u d
  | .error .decodeError => .ok (' ' :: T.error name data)
  | .error e => .error e

/-- __utils__.py:177-185 `format_message`. -/
def formatMessage (T : Texts) (o : Options) (m : Message) (decoded : List (String × Value)) : Chars :=
  if o.singleLine then singleLine m.name (formatSignals T m decoded)
  else multiLine m.name (formatSignals T m decoded)

/-- __utils__.py:113-146 `format_message_by_frame_id`. -/
def formatFrame (fo : FloatOps) (T : Texts) (o : Options) (db : Db) (id : Nat) (data : Bytes) : Except Err Chars :=
  match db.getByFrameId id false with
  | .error .keyError =>
    .ok (" Unknown frame id ".toList ++ (decimal id ++ (" (0x".toList ++ (hexText id ++ [')']))))
  | .error e => .error e
  | .ok m =>
    match m.body with
    | .inr c =>
      if o.decodeContainers then formatContainerMessage fo T o m.name c data
      else .ok (" Frame 0x".toList ++ (hexText id ++ " is a container message".toList))
    | .inl msg =>
      match decode fo msg data o.decodeChoices true o.allowTruncated o.allowExcess with
      | .ok d => .ok (formatMessage T o msg d)
      | .error .decodeError => .ok (' ' :: T.error m.name data)
      | .error e => .error e

/-- decode.py:25-37: the loop of `_do_decode` over what the parser gives; what has been printed, and
the exception that ended the command, if any. -/
def printLoop (fo : FloatOps) (T : Texts) (o : Options) (db : Db) (failure : Option Err) :
    List (Chars × Option LogReader.Frame) → List Chars × Option Err
  | [] => ([], failure)
  | (line, none) :: r => let (l, e) := printLoop fo T o db failure r; (line :: l, e)
  | (line, some f) :: r =>
    match formatFrame fo T o db f.frameId f.data with
    | .error e => ([], some e)
    | .ok text => let (l, e) := printLoop fo T o db failure r; ((line ++ (" ::".toList ++ text)) :: l, e)

/-- decode.py:12-37 `_do_decode`, after the database has been loaded. -/
def run (fo : FloatOps) (T : Texts) (o : Options) (db : Db) (clock : LogReader.Clock) (lines : List Chars) :
    List Chars × Option Err :=
  let r := LogReader.iterlines clock true none lines
  printLoop fo T o db r.2 r.1

end Cantools.DecodeCommand
