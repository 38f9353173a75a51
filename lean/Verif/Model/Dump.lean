import Verif.Model.Message

/-
subparsers/dump/formatting.py `layout_string` (lines 97-361).  A text is its list of lines, a line
its list of characters.
-/

namespace Cantools.Dump
open Cantools

abbrev Line := List Char

/-- `n * ' '` -/
def blank (n : Nat) : Line := List.replicate n ' '

/-- `[l[i:i + n] for i in range(0, len(l), n)]` -/
def chunks {α : Type} (n : Nat) (l : List α) : List (List α) :=
  (List.range ((l.length + n - 1) / n)).map fun i => (l.drop (n * i)).take n

/-- formatting.py:136-147 `format_big`, the line of one signal. -/
def formatBig (s : Signal) : Line :=
  blank (3 * startBit s) ++ ('<' :: List.replicate (3 * s.length - 2) '-' ++ ['x'])

/-- formatting.py:149-169 `format_little`, the line of one signal. -/
def formatLittle (s : Signal) : Line :=
  let formatted := blank (3 * s.start) ++ ('x' :: List.replicate (3 * s.length - 2) '-' ++ ['<'])
  let stop := s.start + s.length
  let formatted := if stop % 8 ≠ 0 then formatted ++ blank (3 * (8 - stop % 8)) else formatted
  ((chunks 24 formatted).map List.reverse).flatten

/-- formatting.py:172-181: the lines of all signals, padded to whole bytes. -/
def signalLines (sigs : List Signal) : List Line :=
  let signals := (sigs.filter (·.byteOrder = .big)).map formatBig ++
    (sigs.filter (·.byteOrder = .little)).map formatLittle
  let length := (signals.map List.length).foldl max 0
  let length := if length % 24 ≠ 0 then length + (24 - length % 24) else length
  signals.map fun l => l ++ blank (length - l.length)

/-- formatting.py:187-200: one character of the union line. -/
def unionChar (chars : List Char) : Char :=
  let head := chars.count '<'
  let dash := chars.count '-'
  let tail := chars.count 'x'
  if 1 < head + dash + tail then 'X'
  else if head = 1 then '<'
  else if dash = 1 then '-'
  else if tail = 1 then 'x'
  else ' '

/-- python `zip(*lines, strict=False)`. -/
def columns (lines : List Line) : List (List Char) :=
  (List.range ((lines.map List.length).min?.getD 0)).map fun i => lines.map (·.getD i ' ')

/-- formatting.py:183-212: the union line split into byte lines, and blank lines for unused bytes. -/
def byteLines (length : Nat) (sigs : List Signal) : List Line :=
  let lines := chunks 24 ((columns (signalLines sigs)).map unionChar)
  lines ++ List.replicate (length - lines.length) (blank 24)

/-- formatting.py:224-234: the character before a bit that starts with `c`; `prev` is the last
character of the bit before, if there is one. -/
def separator (prev : Option Char) (c : Char) : Char :=
  if prev = none ∨ c ∈ [' ', '<', '>', 'x'] then '|'
  else if c = 'X' then
    if prev = some 'X' then 'X' else if prev = some '-' then '-' else '|'
  else '-'

/-- formatting.py:214-240: separators in front of each bit and at the end. -/
def insertSeparators (prev : Option Char) : Line → Line
  | a :: b :: c :: rest => separator prev a :: a :: b :: c :: insertSeparators (some c) rest
  | _ => ['|']

/-- `str(n)` -/
def decimal (n : Nat) : Line := Nat.toDigits 10 n

/-- formatting.py:243 `number_width`. -/
def numberWidth (count : Nat) : Nat := (decimal count).length + 4

/-- formatting.py:244-248: the numbered byte lines. -/
def numberedLine (width number : Nat) (line : Line) : Line :=
  let n := decimal number
  blank (width - 1 - n.length) ++ n ++ [' '] ++ line

/-- The horizontal rule of formatting.py:259, 269 and 326. -/
def rule (width : Nat) : Line := blank width ++ "+---+---+---+---+---+---+---+---+".toList

/-- formatting.py:252-261 `add_header_lines`. -/
def addHeaderLines (lines : List Line) (width : Nat) : List Line :=
  [blank width ++ "               Bit".toList, blank width ++ [],
    blank width ++ "  7   6   5   4   3   2   1   0".toList, rule width] ++ lines

/-- formatting.py:263-271 `add_horizontal_lines`. -/
def addHorizontalLines (lines : List Line) (width : Nat) : List Line :=
  lines.flatMap fun l => [l, rule width]

/-- formatting.py:273-279 `name_bit`, for signals with at least one bit. -/
def nameBit (s : Signal) : Nat :=
  let offset := startBit s + s.length - 1
  match s.byteOrder with
  | .big => 8 * (offset / 8) + (7 - offset % 8)
  | .little => offset

/-- formatting.py:286-290: the names below each byte; a byte that is not there raises
`IndexError`. -/
def signalsPerByte (count : Nat) (sigs : List Signal) : Except Err (List (List (Nat × Line))) :=
  sigs.foldlM (fun per s =>
    let byte := nameBit s / 8
    let bit := nameBit s % 8
    if byte < per.length then
      .ok (per.modify byte fun l => l ++ [(bit, "+-- ".toList ++ s.name.toList)])
    else .error .indexError) (List.replicate count [])

/-- python compares tuples, and text by code points. -/
def pairLe (a b : Nat × Line) : Bool := decide (a.1 < b.1 ∨ (a.1 = b.1 ∧ ¬ b.2 < a.2))

/-- One step of `sorted` (here: sorting by insertion). -/
def insertPair (x : Nat × Line) : List (Nat × Line) → List (Nat × Line)
  | [] => [x]
  | y :: l => if pairLe x y then x :: y :: l else y :: insertPair x l

/-- python `sorted`, on tuples of a number and a text. -/
def sortPairs (l : List (Nat × Line)) : List (Nat × Line) := l.foldr insertPair []

/-- formatting.py:299-312: the line with the name of `signal`, one of `signals`; assigning to a
character that is not there raises `IndexError`. -/
def nameLine (width : Nat) (signals : List (Nat × Line)) (signal : Nat × Line) : Except Err Line :=
  let line := blank width ++ "  ".toList ++ signal.2
  let line := blank (4 * (7 - signal.1)) ++ line
  signals.foldlM (fun chars other =>
    if signal.1 < other.1 then
      let i := width + 2 + 4 * (7 - other.1)
      if i < chars.length then .ok (chars.set i '|') else .error .indexError
    else .ok chars) line

/-- formatting.py:281-328 `add_signal_names`. -/
def addSignalNames (lines : List Line) (count width : Nat) (sigs : List Signal) :
    Except Err (List Line) := do
  let perByte ← signalsPerByte count sigs
  let named ← perByte.mapM fun signals =>
    let signals := sortPairs signals
    signals.mapM (nameLine width signals)
  pure ((List.range count).flatMap fun k =>
    let names := named.getD k []
    (lines.drop (2 * k)).take 2 ++ names ++
      (if names ≠ [] ∧ k + 1 < count then [rule width] else []))

/-- formatting.py:330-347 `add_y_axis_name`. -/
def addAxisName (lines : List Line) : List Line :=
  let matrix := lines.length - 3
  let lines := lines ++ List.replicate (5 - matrix) (blank 5)
  let start : Int := max (4 + (((matrix : Int) - 4) / 2 - 1)) 4
  let start := start.toNat
  let axis := List.replicate start (blank 2) ++ [" B".toList, " y".toList, " t".toList, " e".toList]
    ++ List.replicate (lines.length - start - 4) (blank 2)
  List.zipWith (· ++ ·) axis lines

/-- `line.rstrip()` -/
def rstrip (l : Line) : Line := (l.reverse.dropWhile Char.isWhitespace).reverse

/-- formatting.py:97-361 `layout_string`: the lines; `'\n'.join(lines)` is the result. -/
def layoutLines (m : Message) (signalNames : Bool := true) : Except Err (List Line) := do
  let bytes := byteLines m.length m.signals
  let count := bytes.length
  let width := numberWidth count
  let lines := bytes.zipIdx.map fun p => numberedLine width p.2 (insertSeparators none p.1)
  let lines := addHorizontalLines lines width
  let lines ← (if signalNames then addSignalNames lines count width m.signals else .ok lines :
    Except Err (List Line))
  pure ((addAxisName (addHeaderLines lines width)).map rstrip)

/-- formatting.py:361 -/
def layoutString (m : Message) (signalNames : Bool := true) : Except Err String :=
  (layoutLines m signalNames).map fun ls => "\n".intercalate (ls.map String.ofList)

end Cantools.Dump
