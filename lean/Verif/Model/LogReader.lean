import Verif.Model.Base
import Verif.Model.Regex

/-
logreader.py: parsing candump logs and PCAN traces.
-/

namespace Cantools.LogReader
open Cantools Cantools.Regex

/-- How the text of a timestamp is converted (the `parse_timestamp` methods and logreader.py:206-209). -/
inductive StampKind where
  /-- Seconds, relative or absolute depending on the size (logreader.py:136-148). -/
  | seconds
  /-- Seconds since the epoch (logreader.py:165-170). -/
  | epoch
  /-- Date and time (logreader.py:184-187). -/
  | date
  /-- Milliseconds since the start (logreader.py:206-208). -/
  | millis
  deriving DecidableEq, Repr

/-- A timestamp.  Simplification: the text is kept instead of the `datetime` or `timedelta` object
computed from it. -/
inductive Stamp where
  | missing
  | given (kind : StampKind) (text : Chars)
  deriving DecidableEq, Repr

/-- Can the text be converted by `float`, `datetime.fromtimestamp`, `strptime` and `timedelta`?
(`ValueError` if not.)  A parameter of the model. -/
abbrev Clock := StampKind → Chars → Bool

/-- logreader.py:25-49 `DataFrame`. -/
structure Frame where
  channel : Chars
  frameId : Nat
  isExtendedFrame : Bool
  data : Bytes
  isRemoteFrame : Bool
  timestamp : Stamp
  deriving DecidableEq, Repr

/-- The value of a hexadecimal digit. -/
def hexDigit? (c : Char) : Option Nat :=
  if isDigit c then some (c.toNat - 48)
  else if 'A' ≤ c ∧ c ≤ 'F' then some (c.toNat - 55)
  else if 'a' ≤ c ∧ c ≤ 'f' then some (c.toNat - 87)
  else none

/-- `int(text, 16)` for a non-empty text of hexadecimal digits. -/
def parseHex (text : Chars) : Nat := text.foldl (fun n c => n * 16 + (hexDigit? c).getD 0) 0

/-- `binascii.unhexlify`. -/
def unhexlifyText : Chars → Except Err Bytes
  | [] => .ok []
  | a :: b :: r =>
    match hexDigit? a, hexDigit? b with
    | some x, some y => (unhexlifyText r).map (UInt8.ofNat (x * 16 + y) :: ·)
    | _, _ => .error .valueError
  | [_] => .error .valueError

/-- `bytes.fromhex`: like `unhexlify`, but spaces before a byte are skipped. -/
def fromhex : Chars → Except Err Bytes
  | [] => .ok []
  | ' ' :: r => fromhex r
  | a :: b :: r =>
    match hexDigit? a, hexDigit? b with
    | some x, some y => (fromhex r).map (UInt8.ofNat (x * 16 + y) :: ·)
    | _, _ => .error .valueError
  | [_] => .error .valueError

/-- The classes of patterns, in the order in which they are tried. -/
inductive Pattern where
  | candumpDefault | candumpTimestamped | candumpDefaultLog | candumpAbsoluteLog
  | pcanV21 | pcanV20 | pcanV13 | pcanV12 | pcanV11 | pcanV10
  deriving DecidableEq, Repr

open Re

/-- `(?P<channel>\S+)\s+(?P<can_id>[0-9A-F]+)\s+\[\d+\]\s*(?P<can_data>remote request|`
`(?:[0-9A-F]{2} *)*)\s*(?P<error_frame>ERRORFRAME)?.*?$`, the common end of three patterns. -/
def candumpTail : List Re :=
  [group "channel" (plus true S), plus true s, group "can_id" (plus true hex), plus true s,
   chr '[', plus true d, chr ']', star true s,
   group "can_data" (alt (text "remote request".toList)
     (star true (all [hex, hex, star true (chr ' ')]))),
   star true s, opt (group "error_frame" (text "ERRORFRAME".toList)), star false any, eos]

/-- `(?P<can_data>RTR|[0-9A-F ]*)$` -/
def pcanData : List Re :=
  [group "can_data" (alt (text "RTR".toList) (star true (cls fun c => isUpperHex c || c == ' '))), eos]

/-- `(?P<timestamp>\d+.\d+)` -/
def pcanStamp : Re := group "timestamp" (all [plus true d, any, plus true d])

/-- `(\s+(?P<can_data>[0-9A-F ]*))?$` -/
def pcanOptData : List Re :=
  [opt (all [plus true s, group "can_data" (star true (cls fun c => isUpperHex c || c == ' '))]), eos]

/-- The regular expressions. -/
def Pattern.regex : Pattern → Re
  -- logreader.py:108-109
  | .candumpDefault => all (star false s :: candumpTail)
  -- logreader.py:125-126
  | .candumpTimestamped => all ([star false s, chr '(',
      group "timestamp" (plus true (cls fun c => isDigit c || c == '.')), chr ')', plus true s] ++
      candumpTail)
  -- logreader.py:154-155
  | .candumpDefaultLog => all [star false s, chr '(',
      group "timestamp" (plus false (cls fun c => isDigit c || c == '.')), chr ')', plus false s,
      group "channel" (plus true S), plus false s, group "can_id" (plus false hex), chr '#',
      opt (all [chr '#', hex]),
      group "can_data" (alt (chr 'R') (star true (all [cls isHex, cls isHex]))),
      opt (all [plus true s, cls fun c => c == 'R' || c == 'T']), eos]
  -- logreader.py:181-182
  | .candumpAbsoluteLog => all ([star false s, chr '(',
      group "timestamp" (all [times 4 d, chr '-', times 2 d, chr '-', times 2 d, chr ' ', times 2 d,
        chr ':', times 2 d, chr ':', times 2 d, chr '.', plus true d]),
      chr ')', plus true s] ++ candumpTail)
  -- logreader.py:302-303
  | .pcanV21 => all ([star false s, plus false d, star false s, pcanStamp, plus true s,
      group "type" (plus true w), plus true s, group "channel" d, plus true s,
      group "can_id" (plus true hex), plus true s, group "rxtx" (plus true any), plus true s,
      chr '-', plus true s, group "dlc" (plus true d)] ++ pcanOptData)
  -- logreader.py:279-280
  | .pcanV20 => all ([star false s, plus false d, star false s, pcanStamp, plus true s,
      group "type" (plus true w), plus true s, group "can_id" (plus true hex), plus true s,
      group "rxtx" (plus true w), plus true s, group "dlc" (plus true d)] ++ pcanOptData)
  -- logreader.py:268-269
  | .pcanV13 => all ([star false s, plus true d, chr ')', star false s, pcanStamp, plus true s,
      group "channel" d, plus true s, group "type" (plus true w), plus true s,
      group "can_id" (plus true hex), plus true s, chr '-', plus true s, group "dlc" d,
      plus true s] ++ pcanData)
  -- logreader.py:253-254
  | .pcanV12 => all ([star false s, plus true d, chr ')', star false s, pcanStamp, plus true s,
      group "channel" d, plus true s, group "type" (plus true w), plus true s,
      group "can_id" (plus true hex), plus true s, group "dlc" d, plus true s] ++ pcanData)
  -- logreader.py:236-237
  | .pcanV11 => all ([star false s, plus true d, chr ')', star false s, pcanStamp, plus true s,
      group "type" (plus true w), plus true s,
      group "can_id" (plus true hex), plus true s, group "dlc" d, plus true s] ++ pcanData)
  -- logreader.py:198-199
  | .pcanV10 => all ([star false s, plus true d, chr ')', star false s,
      group "timestamp" (plus true d), plus true s,
      group "can_id" (plus true hex), plus true s, group "dlc" d, plus true s] ++ pcanData)

/-- `match_object.group(name)`; `None` if the group did not take part. -/
def groupOf (g : Groups) (name : String) : Option Chars := dictGet? g name

/-- The text of a group that takes part in every match. -/
def textOf (g : Groups) (name : String) : Chars := (groupOf g name).getD []

/-- The conversion of a timestamp. -/
def stamp (clock : Clock) (kind : StampKind) (text : Chars) : Except Err Stamp :=
  if clock kind text then .ok (.given kind text) else .error .valueError

/-- logreader.py:74-93 `CandumpBasePattern.unpack`; `kind` is the kind of timestamp. -/
def unpackCandump (clock : Clock) (kind : Option StampKind) (g : Groups) :
    Except Err (Option Frame) :=
  if (textOf g "error_frame") ≠ [] then .ok none
  else do
    let canId := textOf g "can_id"
    let text := textOf g "can_data"
    let remote := decide (text = "remote request".toList ∨ text = "R".toList)
    let data ← (if remote then pure [] else unhexlifyText (text.filter (· != ' ')) :
      Except Err Bytes)
    let timestamp ← (match kind with
      | none => pure .missing
      | some k => stamp clock k (textOf g "timestamp") : Except Err Stamp)
    pure (some { channel := textOf g "channel", frameId := parseHex canId,
                 isExtendedFrame := decide (3 < canId.length), data, isRemoteFrame := remote,
                 timestamp })

/-- logreader.py:216-225 `PCANTracePatternV10.parse_data`; `bytes.fromhex(None)` raises
`TypeError`. -/
def pcanParseData (g : Groups) : Except Err (Bytes × Bool) :=
  match groupOf g "can_data" with
  | none => .error .typeError
  | some text => if text = "RTR".toList then .ok ([], true) else (fromhex text).map fun d => (d, false)

/-- logreader.py:285-291 `PCANTracePatternV20.parse_data`. -/
def pcanParseDataV2 (g : Groups) : Except Err (Bytes × Bool) :=
  if textOf g "type" = "RR".toList then .ok ([], true) else pcanParseData g

/-- logreader.py:201-211 `PCANTracePatternV10.unpack`. -/
def unpackPcan (clock : Clock) (channel : Chars) (parseData : Groups → Except Err (Bytes × Bool))
    (g : Groups) : Except Err (Option Frame) := do
  let canId := textOf g "can_id"
  let (data, remote) ← parseData g
  let timestamp ← stamp clock .millis (textOf g "timestamp")
  pure (some { channel, frameId := parseHex canId, isExtendedFrame := decide (4 < canId.length),
               data, isRemoteFrame := remote, timestamp })

/-- logreader.py:239-243 `PCANTracePatternV11.unpack`. -/
def unpackPcanTyped (clock : Clock) (channel : Chars)
    (parseData : Groups → Except Err (Bytes × Bool)) (g : Groups) : Except Err (Option Frame) :=
  if textOf g "type" = "Error".toList ∨ textOf g "type" = "Warng".toList then .ok none
  else unpackPcan clock channel parseData g

def pcanx : Chars := "pcanx".toList
def pcanChannel (g : Groups) : Chars := "pcan".toList ++ textOf g "channel"

/-- The `unpack` methods of the classes, with their `parse_channel` (logreader.py:213, 256, 282, 305)
and `parse_data`. -/
def Pattern.unpack (clock : Clock) : Pattern → Groups → Except Err (Option Frame)
  | .candumpDefault, g => unpackCandump clock none g
  | .candumpTimestamped, g => unpackCandump clock (some .seconds) g
  | .candumpDefaultLog, g => unpackCandump clock (some .epoch) g
  | .candumpAbsoluteLog, g => unpackCandump clock (some .date) g
  | .pcanV21, g => unpackPcanTyped clock (pcanChannel g) pcanParseDataV2 g
  | .pcanV20, g => unpackPcanTyped clock pcanx pcanParseDataV2 g
  | .pcanV13, g => unpackPcanTyped clock (pcanChannel g) pcanParseData g
  | .pcanV12, g => unpackPcanTyped clock (pcanChannel g) pcanParseData g
  | .pcanV11, g => unpackPcanTyped clock pcanx pcanParseData g
  | .pcanV10, g => unpackPcan clock pcanx pcanParseData g

/-- logreader.py:60-65 `BasePattern.match`. -/
def Pattern.matchLine (clock : Clock) (p : Pattern) (line : Chars) : Except Err (Option Frame) :=
  match p.regex.match? line with
  | some g => p.unpack clock g
  | none => .ok none

/-- logreader.py:337. -/
def patterns : List Pattern :=
  [.candumpDefault, .candumpTimestamped, .candumpDefaultLog, .candumpAbsoluteLog, .pcanV21, .pcanV20,
   .pcanV13, .pcanV12, .pcanV11, .pcanV10]

/-- logreader.py:336-342 `Parser.detect_pattern`. -/
def detectPattern (line : Chars) : Option Pattern :=
  patterns.find? fun p => (p.regex.match? line).isSome

/-- logreader.py:344-349 `Parser.parse`; the state is `self.pattern`. -/
def parse (clock : Clock) (st : Option Pattern) (line : Chars) :
    Option Pattern × Except Err (Option Frame) :=
  let st := st.orElse fun _ => detectPattern line
  (st, match st with
    | none => .ok none
    | some p => p.matchLine clock line)

/-- `nl.strip('\r\n')`. -/
def stripNewlines (l : Chars) : Chars :=
  let nl := fun c => c == '\r' || c == '\n'
  ((l.dropWhile nl).reverse.dropWhile nl).reverse

/-- logreader.py:359-378 `Parser.iterlines`: the pairs that are yielded for the lines of the stream,
and the exception that ends the iteration, if any. -/
def iterlines (clock : Clock) (keepUnknowns : Bool) (st : Option Pattern) :
    List Chars → List (Chars × Option Frame) × Option Err
  | [] => ([], none)
  | nl :: rest =>
    let line := stripNewlines nl
    let (st, r) := parse clock st line
    match r with
    | .error e => ([], some e)
    | .ok (some f) => let (ys, e) := iterlines clock keepUnknowns st rest; ((line, some f) :: ys, e)
    | .ok none =>
      let (ys, e) := iterlines clock keepUnknowns st rest
      (if keepUnknowns then (line, none) :: ys else ys, e)

/-- logreader.py:380-384 `Parser.__iter__`. -/
def frames (clock : Clock) (lines : List Chars) : List Frame × Option Err :=
  let (ys, e) := iterlines clock false none lines
  (ys.filterMap (·.2), e)

end Cantools.LogReader
