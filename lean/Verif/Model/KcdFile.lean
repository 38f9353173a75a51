import Verif.Model.Files
import Verif.Model.KcdXml

/-
Databases that were read from DBC or SYM files, written to KCD files: database/__init__.py:184-232 and
subparsers/convert.py.
-/

namespace Cantools.Files
open Dbc
open Kcd (KSignal KMessage KDatabase NumText)

variable {F : Type}

/-- What kcd.py:267-369 uses of a signal. -/
def asKcdSignal (T : FloatText F) (s : DSignal F) : KSignal :=
  { core := s.core T
    unit := s.unit.map String.ofList
    comment := s.comment.map String.ofList
    receivers := s.receivers.map fun r => some (String.ofList r) }

/-- kcd.py:379-380: the cycle time.  Only integers are modelled; others are written and cannot be read. -/
def asKcdTime : Option (Num F) → Option Int
  | some (.int i) => some i
  | _ => none

/-- What kcd.py:371-419 `_dump_message` uses of a message.  Frame ids are not negative. -/
def asKcdMessage (T : FloatText F) (m : DMessage F) : KMessage :=
  { frameId := m.frameId.toNat
    isExtendedFrame := m.isExtendedFrame
    name := String.ofList m.name
    length := m.length
    unusedBitPattern := 0xff
    senders := m.senders.map fun s => some (String.ofList s)
    cycleTime := asKcdTime m.cycleTime
    comment := m.comment.map String.ofList
    signals := m.signals.map (asKcdSignal T) }

/-- can/database.py:471-483 `as_kcd_string`: what it hands over. -/
def asKcd (T : FloatText F) (db : DDatabase F) : KDatabase :=
  { version := db.version.map String.ofList
    nodes := db.nodes.map fun n => String.ofList n.name
    messages := db.messages.map (asKcdMessage T) }

/-- database/__init__.py:184-232 `dump_file` for a name with the extension "kcd", with the default of `sort_signals`;
30-45 for the encoding, which is UTF-8 by default.  Signals are written in the order of the message. -/
def dumpKcdFile (N : NumText) (T : FloatText F) (linesep : Chars) (utf8 : Codec) (encoding : Option Codec)
    (filename : Chars) (db : DDatabase F) : Except Err (List UInt8) :=
  if Load.extension filename = "kcd".toList then do
    let text ← Kcd.dumpString N id (asKcd T db)
    return (translate linesep text).flatMap (encoding.getD utf8).encode
  else .error .error

/-- database/__init__.py:48-182 `load_file` for a name with the extension "kcd", as in `loadFile`; the constructor of
`Message` (can/message.py:64-143) checks the messages. -/
def loadKcdFile (N : NumText) (utf8 : Codec) (encoding : Option Codec) (strict : Bool) (filename : Chars)
    (bytes : List UInt8) : Except Err KDatabase :=
  let read : Except Err KDatabase :=
    if Load.extension filename = "kcd".toList then do
      let db ← Kcd.loadString N (universal ((encoding.getD utf8).decode bytes))
      let _ ← db.messages.mapM fun m => m.create strict
      return db
    else .error .error
  match read with
  | .ok db => .ok db
  | .error _ => .error .error

/-- subparsers/convert.py:6-15 `_do_convert`, without `--prune`, for an output file with the extension "kcd". -/
def convertToKcd (N : NumText) (T : FloatText F) (linesep : Chars) (utf8 : Codec) (encoding : Option Codec)
    (noStrict : Bool) (infile outfile : Chars) (bytes : List UInt8) : Except Err (List UInt8) := do
  let db ← loadFile T encoding (!noStrict) infile bytes
  dumpKcdFile N T linesep utf8 encoding outfile db

end Cantools.Files
