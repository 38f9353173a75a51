import Verif.Model.Load
import Verif.Model.Sym

/-
database/__init__.py and subparsers/convert.py: database files, with the encoding and the line ends of their
text, and the `convert` command.

Files are lists of bytes.  DBC and SYM files are modelled; KCD files are written by `xml.etree` and ARXML
files cannot be written.
-/

namespace Cantools.Files
open Cantools Dbc

/-! ### Text files -/

/-- What a codec of Python does with `errors='replace'`. -/
structure Codec where
  encode : Char → List UInt8
  decode : List UInt8 → Chars

/-- The bytes 0x80 to 0x9f of cp1252; five are not defined. -/
def cp1252High : List (Option Nat) :=
  [some 0x20ac, none, some 0x201a, some 0x0192, some 0x201e, some 0x2026, some 0x2020, some 0x2021,
   some 0x02c6, some 0x2030, some 0x0160, some 0x2039, some 0x0152, none, some 0x017d, none,
   none, some 0x2018, some 0x2019, some 0x201c, some 0x201d, some 0x2022, some 0x2013, some 0x2014,
   some 0x02dc, some 0x2122, some 0x0161, some 0x203a, some 0x0153, none, some 0x017e, some 0x0178]

/-- A byte of cp1252; bytes that are not defined are read as U+FFFD. -/
def cp1252Decode (b : UInt8) : Char :=
  if 0x80 ≤ b.toNat ∧ b.toNat < 0xa0 then
    match (cp1252High[b.toNat - 0x80]?).join with
    | some n => Char.ofNat n
    | none => Char.ofNat 0xfffd
  else Char.ofNat b.toNat

/-- A character in cp1252; characters it does not have are written as question marks. -/
def cp1252Encode (c : Char) : UInt8 :=
  if c.toNat < 0x80 ∨ (0xa0 ≤ c.toNat ∧ c.toNat < 0x100) then UInt8.ofNat c.toNat
  else if some c.toNat ∈ cp1252High then UInt8.ofNat (0x80 + cp1252High.idxOf (some c.toNat))
  else 0x3f

/-- The codec `cp1252`. -/
def cp1252 : Codec where
  encode c := [cp1252Encode c]
  decode bytes := bytes.map cp1252Decode

/-- `open(…)` for reading text: all line ends are read as `'\n'`. -/
def universal : Chars → Chars
  | [] => []
  | c :: r =>
    if c = '\r' then
      match r with
      | [] => ['\n']
      | d :: r' => if d = '\n' then '\n' :: universal r' else '\n' :: universal (d :: r')
    else c :: universal r

/-- `open(…, 'w')` for writing text: `'\n'` is written as `os.linesep`. -/
def translate (linesep : Chars) (text : Chars) : Chars := text.flatMap fun c => if c = '\n' then linesep else [c]

/-! ### Databases -/

variable {F : Type}

/-- database/__init__.py:30-45 `_resolve_database_format_and_encoding`, without the arguments
`database_format` and, if there is none, `encoding`. -/
def resolve (encoding : Option Codec) (filename : Chars) : Chars × Option Codec :=
  let format := Load.extension filename
  (format, encoding.orElse fun _ => if format = "dbc".toList ∨ format = "sym".toList then some cp1252 else none)

/-- utils.py:446-447 `sort_signals_by_start_bit_reversed`. -/
def sortReversed (T : FloatText F) (signals : List (DSignal F)) : List (DSignal F) :=
  (sortByStartBit T signals).reverse

/-- database/__init__.py:184-232 `dump_file`, for the default of `sort_signals` and a database that was not
loaded with `sort_signals=None`; can/database.py:445-469 `as_dbc_string`, 485-497 `as_sym_string` and
dbc.py:2238-2241, sym.py:980-981 for the functions that sort.  The bytes of the file. -/
def dumpFile (U : Unicode) (T : FloatText F) (linesep : Chars) (encoding : Option Codec) (filename : Chars)
    (db : DDatabase F) : Except Err (List UInt8) :=
  let (format, codec) := resolve encoding filename
  match codec with
  | none => .error .error
  | some codec =>
    if format = "dbc".toList then do
      let text ← Dbc.dumpString U T (sortReversed T) (sortReversed T) true db
      return text.flatMap codec.encode
    else if format = "sym".toList then do
      let text ← Sym.dumpString T (sortByStartBit T) db
      return (translate linesep text).flatMap codec.encode
    else .error .error

/-- database/__init__.py:48-182 `load_file`, without cache and with the defaults of `frame_id_mask` and
`sort_signals`; 235-267 `load`, 269-383 `load_string`: the exceptions of the parser are wrapped.  Files
of other formats are not modelled here. -/
def loadFile (T : FloatText F) (encoding : Option Codec) (strict : Bool) (filename : Chars) (bytes : List UInt8) :
    Except Err (DDatabase F) :=
  let (format, codec) := resolve encoding filename
  match codec with
  | none => .error .error
  | some codec =>
    let text := universal (codec.decode bytes)
    let read := if format = "dbc".toList then Dbc.loadString T strict text
      else if format = "sym".toList then Sym.loadString T strict text
      else .error .error
    match read with
    | .ok db => .ok db
    | .error _ => .error .error

/-- subparsers/convert.py:6-15 `_do_convert`, without `--prune`: the bytes of the output file. -/
def convert (U : Unicode) (T : FloatText F) (linesep : Chars) (encoding : Option Codec) (noStrict : Bool)
    (infile outfile : Chars) (bytes : List UInt8) : Except Err (List UInt8) := do
  let db ← loadFile T encoding (!noStrict) infile bytes
  dumpFile U T linesep encoding outfile db

end Cantools.Files
