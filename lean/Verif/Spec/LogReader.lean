import Verif.Model.LogReader

/-
The lines that `candump` and PCAN tools write.  The numbers of blanks between the columns are
arbitrary (`gap n` are `n + 1` blanks).
-/

namespace Cantools.Spec.LogReader
open Cantools Cantools.LogReader Cantools.Regex

def blanks (n : Nat) : Chars := List.replicate n ' '
def gap (n : Nat) : Chars := blanks (n + 1)

/-- An upper case hexadecimal digit. -/
def hexDigit (n : Nat) : Char := "0123456789ABCDEF".toList.getD (n % 16) '0'

/-- `n` in hexadecimal with `width` digits. -/
def hexText : Nat → Nat → Chars
  | 0, _ => []
  | width + 1, n => hexText width (n / 16) ++ [hexDigit n]

/-- The two digits of a byte. -/
def byteText (b : UInt8) : Chars := hexText 2 b.toNat

/-- The bytes of a payload; every byte is followed by some blanks. -/
def payloadText (data : List (UInt8 × Nat)) : Chars :=
  data.flatMap fun d => byteText d.1 ++ blanks d.2

/-- Frame ids are written with three digits, extended ones with eight. -/
def idText (ext : Bool) (id : Nat) : Chars := hexText (if ext then 8 else 3) id

/-- In PCAN traces, with four digits and eight digits. -/
def pcanIdText (ext : Bool) (id : Nat) : Chars := hexText (if ext then 8 else 4) id

/-- The id fits the format. -/
def ValidId (ext : Bool) (id : Nat) : Prop := id < (if ext then 2 ^ 29 else 2 ^ 11)

/-- A word: not empty, without white space. -/
def Word (w : Chars) : Prop := w ≠ [] ∧ ∀ c ∈ w, isSpace c = false

/-- A number. -/
def Digits (w : Chars) : Prop := w ≠ [] ∧ ∀ c ∈ w, isDigit c = true

/-- What may follow the payload in the output of candump: nothing, or the payload as text between
apostrophes. -/
def Trailer (t : Chars) : Prop := '\n' ∉ t ∧ (t = [] ∨ ∃ r, t = '\'' :: r)

/-- A number of seconds: digits and points. -/
def Seconds (w : Chars) : Prop := w ≠ [] ∧ ∀ c ∈ w, isDigit c = true ∨ c = '.'

def DigitsOf (n : Nat) (w : Chars) : Prop := w.length = n ∧ ∀ c ∈ w, isDigit c = true

/-! ### candump -/

/-- What a line of candump shows. -/
inductive Content where
  /-- The bytes, each with the number of blanks after it. -/
  | data (bytes : List (UInt8 × Nat))
  /-- A remote frame, with some blanks at the end. -/
  | remote (n : Nat)
  | errorFrame (bytes : List (UInt8 × Nat))

def Content.text : Content → Chars
  | .data b => payloadText b
  | .remote n => "remote request".toList ++ blanks n
  | .errorFrame b => payloadText b ++ "ERRORFRAME".toList

/-- The timestamp in front. -/
inductive Prefix where
  | plain
  /-- `candump -tz`, `-ta`, `-td`: `(000.000000)` -/
  | seconds (text : Chars)
  /-- `candump -tA`: `(2020-12-19 12:04:45.485261)` -/
  | date (year month day hour minute second fraction : Chars)

/-- The text of the timestamp. -/
def Prefix.stampText : Prefix → Chars
  | .plain => []
  | .seconds t => t
  | .date y mo d h mi s f =>
    y ++ ('-' :: (mo ++ ('-' :: (d ++ (' ' :: (h ++ (':' :: (mi ++ (':' :: (s ++ ('.' :: f)))))))))))

def Prefix.Valid : Prefix → Prop
  | .plain => True
  | .seconds t => Seconds t
  | .date y mo d h mi s f => DigitsOf 4 y ∧ DigitsOf 2 mo ∧ DigitsOf 2 d ∧ DigitsOf 2 h ∧
      DigitsOf 2 mi ∧ DigitsOf 2 s ∧ Digits f

/-- The prefix of a line with `g` blanks between it and the channel. -/
def Prefix.text (g : Nat) : Prefix → Chars
  | .plain => []
  | p => '(' :: (p.stampText ++ (')' :: gap g))

def Prefix.kind : Prefix → Option StampKind
  | .plain => none
  | .seconds _ => some .seconds
  | .date .. => some .date

/-- The pattern that is meant for the line. -/
def Prefix.pattern : Prefix → Pattern
  | .plain => .candumpDefault
  | .seconds _ => .candumpTimestamped
  | .date .. => .candumpAbsoluteLog

/-- A line of candump. -/
structure CandumpLine where
  pre : Prefix
  channel : Chars
  ext : Bool
  id : Nat
  /-- The length between the brackets. -/
  len : Chars
  content : Content
  trailer : Chars
  /-- The numbers of blanks between the columns. -/
  gaps : Nat → Nat

/-- `  (000.000000)  vcan0  1F0   [2]  00 1B   '..'` -/
def CandumpLine.text (l : CandumpLine) : Chars :=
  blanks (l.gaps 0) ++ (l.pre.text (l.gaps 1) ++ (l.channel ++ (gap (l.gaps 2) ++
    (idText l.ext l.id ++ (gap (l.gaps 3) ++ ('[' :: (l.len ++ (']' :: (blanks (l.gaps 4) ++
    (l.content.text ++ l.trailer))))))))))

structure CandumpLine.Valid (l : CandumpLine) : Prop where
  pre : l.pre.Valid
  channel : Word l.channel
  id : ValidId l.ext l.id
  len : Digits l.len
  trailer : Trailer l.trailer

/-- The timestamp of the frame. -/
def stampOf (kind : Option StampKind) (text : Chars) : Stamp :=
  match kind with
  | none => .missing
  | some k => .given k text

/-- The frame a line stands for; none for error frames. -/
def CandumpLine.frame (l : CandumpLine) : Option Frame :=
  let f (data : Bytes) (remote : Bool) : Frame :=
    { channel := l.channel, frameId := l.id, isExtendedFrame := l.ext, data, isRemoteFrame := remote,
      timestamp := stampOf l.pre.kind l.pre.stampText }
  match l.content with
  | .data b => some (f (b.map (·.1)) false)
  | .remote _ => some (f [] true)
  | .errorFrame _ => none

/-- The timestamp can be converted. -/
def Readable (clock : Clock) (kind : Option StampKind) (text : Chars) : Prop :=
  match kind with
  | none => True
  | some k => clock k text = true

/-! ### candump -l -/

/-- `(1579857014.345944) can2 486#82967A6B006B07F8`; for CAN FD there is `##` and a digit of flags. -/
structure LogLine where
  stamp : Chars
  channel : Chars
  ext : Bool
  id : Nat
  /-- The flags of a CAN FD frame. -/
  fd : Option Nat
  /-- The bytes; none for a remote frame. -/
  data : Option Bytes
  /-- Direction `R` or `T` at the end, after some blanks. -/
  direction : Option (Nat × Bool)
  gaps : Nat → Nat

/-- The flags of CAN FD. -/
def fdText : Option Nat → Chars
  | none => []
  | some f => ['#', hexDigit f]

/-- The bytes, or `R`. -/
def logDataText : Option Bytes → Chars
  | none => ['R']
  | some d => d.flatMap byteText

def directionText : Option (Nat × Bool) → Chars
  | none => []
  | some (n, r) => gap n ++ [if r then 'R' else 'T']

def LogLine.text (l : LogLine) : Chars :=
  blanks (l.gaps 0) ++ ('(' :: (l.stamp ++ (')' :: (gap (l.gaps 1) ++ (l.channel ++
    (gap (l.gaps 2) ++ (idText l.ext l.id ++ ('#' ::
    (fdText l.fd ++ (logDataText l.data ++ directionText l.direction))))))))))

structure LogLine.Valid (l : LogLine) : Prop where
  stamp : Seconds l.stamp
  channel : Word l.channel
  id : ValidId l.ext l.id

def LogLine.frame (l : LogLine) : Frame :=
  { channel := l.channel, frameId := l.id, isExtendedFrame := l.ext, data := l.data.getD [],
    isRemoteFrame := l.data.isNone, timestamp := .given .epoch l.stamp }

/-! ### PCAN traces -/

/-- The versions of the format. -/
inductive Version where
  | v10 | v11 | v12 | v13 | v20 | v21

def Version.pattern : Version → Pattern
  | .v10 => .pcanV10
  | .v11 => .pcanV11
  | .v12 => .pcanV12
  | .v13 => .pcanV13
  | .v20 => .pcanV20
  | .v21 => .pcanV21

/-- A line of a PCAN trace. -/
structure PcanLine where
  number : Chars
  /-- The milliseconds before and after the point; there is no point in version 1.0. -/
  stamp : Chars
  fraction : Chars
  channel : Char
  type : Chars
  ext : Bool
  id : Nat
  direction : Chars
  dlc : Char
  /-- The bytes; none for remote frames. -/
  data : Option (List (UInt8 × Nat))
  gaps : Nat → Nat

def PcanLine.stampText (v : Version) (l : PcanLine) : Chars :=
  match v with
  | .v10 => l.stamp
  | _ => l.stamp ++ ('.' :: l.fraction)

/-- The last column: the bytes, or `RTR`. -/
def PcanLine.body (l : PcanLine) : Chars :=
  match l.data with
  | some d => payloadText d
  | none => "RTR".toList

/-- The columns from the id on in versions 1.0, 1.1 and 1.2. -/
def PcanLine.tail1 (l : PcanLine) : Chars :=
  pcanIdText l.ext l.id ++ (gap (l.gaps 5) ++ (l.dlc :: (gap (l.gaps 6) ++ l.body)))

/-- In version 1.3. -/
def PcanLine.tail13 (l : PcanLine) : Chars :=
  pcanIdText l.ext l.id ++ (gap (l.gaps 5) ++ ('-' :: (gap (l.gaps 8) ++
    (l.dlc :: (gap (l.gaps 6) ++ l.body)))))

/-- The columns from the length on in versions 2.0 and 2.1; remote frames have no data. -/
def PcanLine.tail2 (l : PcanLine) : Chars :=
  l.dlc :: (match l.data with
    | some d => gap (l.gaps 6) ++ payloadText d
    | none => [])

/-- The beginning of a line in version 1. -/
def PcanLine.head1 (v : Version) (l : PcanLine) (rest : Chars) : Chars :=
  blanks (l.gaps 0) ++ (l.number ++ (')' :: (gap (l.gaps 1) ++ (l.stampText v ++
    (gap (l.gaps 2) ++ rest)))))

/-- The beginning of a line in version 2. -/
def PcanLine.head2 (l : PcanLine) (rest : Chars) : Chars :=
  blanks (l.gaps 0) ++ (l.number ++ (gap (l.gaps 1) ++ (l.stamp ++ ('.' :: (l.fraction ++
    (gap (l.gaps 2) ++ (l.type ++ (gap (l.gaps 3) ++ rest))))))))

def PcanLine.text (v : Version) (l : PcanLine) : Chars :=
  match v with
  -- `1)      1841 0001  8 00 00 00 00 00 00 00 00`
  | .v10 => l.head1 v l.tail1
  -- `1)      6357.2  Rx        0401  8    00 00 00 00 00 00 00 00`
  | .v11 => l.head1 v (l.type ++ (gap (l.gaps 3) ++ l.tail1))
  -- `1)      6357.213 1  Rx        0401  8    00 00 00 00 00 00 00 00`
  | .v12 => l.head1 v (l.channel :: (gap (l.gaps 4) ++ (l.type ++ (gap (l.gaps 3) ++ l.tail1))))
  -- `1)      6357.213 1  Rx        0401 -  8    00 00 00 00 00 00 00 00`
  | .v13 => l.head1 v (l.channel :: (gap (l.gaps 4) ++ (l.type ++ (gap (l.gaps 3) ++ l.tail13))))
  -- `1      1059.900 DT     0300 Rx 7  00 00 00 00 04 00 00`
  | .v20 => l.head2 (pcanIdText l.ext l.id ++ (gap (l.gaps 5) ++ (l.direction ++ (gap (l.gaps 7) ++
      l.tail2))))
  -- `1      1059.900 DT 1     0300 Rx -  7    00 00 00 00 04 00 00`
  | .v21 => l.head2 (l.channel :: (gap (l.gaps 4) ++ (pcanIdText l.ext l.id ++ (gap (l.gaps 5) ++
      (l.direction ++ (gap (l.gaps 7) ++ ('-' :: (gap (l.gaps 8) ++ l.tail2))))))))

/-- Types of lines and directions consist of letters. -/
def Letters (w : Chars) : Prop := w ≠ [] ∧ ∀ c ∈ w, isWord c = true ∧ isDigit c = false

/-- Does the version have a column for the type? -/
def Version.typed : Version → Bool
  | .v10 => false
  | _ => true

/-- Does the version have a column for the channel? -/
def Version.channelled : Version → Bool
  | .v12 | .v13 | .v21 => true
  | _ => false

/-- Versions 2.0 and 2.1. -/
def Version.second : Version → Bool
  | .v20 | .v21 => true
  | _ => false

structure PcanLine.Valid (v : Version) (l : PcanLine) : Prop where
  number : Digits l.number
  stamp : Digits l.stamp
  fraction : Digits l.fraction
  channel : isDigit l.channel = true
  type : Letters l.type
  id : ValidId l.ext l.id
  direction : Letters l.direction
  dlc : isDigit l.dlc = true

/-- In version 2, remote frames are those of type `RR`. -/
def PcanLine.RemoteType (v : Version) (l : PcanLine) : Prop :=
  v.second = true → (l.data = none ↔ l.type = "RR".toList)

/-- The frame a line stands for; none for error and warning lines. -/
def PcanLine.frame (v : Version) (l : PcanLine) : Option Frame :=
  if v.typed = true ∧ (l.type = "Error".toList ∨ l.type = "Warng".toList) then none
  else some
    { channel := "pcan".toList ++ (if v.channelled then [l.channel] else ['x'])
      frameId := l.id, isExtendedFrame := l.ext,
      data := (l.data.getD []).map (·.1), isRemoteFrame := l.data.isNone,
      timestamp := .given .millis (l.stampText v) }

/-! ### Files -/

/-- A line of one of the formats. -/
inductive Line where
  | candump (l : CandumpLine)
  | log (l : LogLine)
  | pcan (v : Version) (l : PcanLine)

def Line.text : Line → Chars
  | .candump l => l.text
  | .log l => l.text
  | .pcan v l => l.text v

/-- The format of a line. -/
def Line.pattern : Line → Pattern
  | .candump l => l.pre.pattern
  | .log _ => .candumpDefaultLog
  | .pcan v _ => v.pattern

def Line.frame : Line → Option Frame
  | .candump l => l.frame
  | .log l => some l.frame
  | .pcan v l => l.frame v

/-- A valid line with a timestamp that can be converted. -/
def Line.Valid (clock : Clock) : Line → Prop
  | .candump l => l.Valid ∧ Readable clock l.pre.kind l.pre.stampText
  | .log l => l.Valid ∧ clock .epoch l.stamp = true
  | .pcan v l => l.Valid v ∧ l.RemoteType v ∧ clock .millis (l.stampText v) = true

end Cantools.Spec.LogReader
