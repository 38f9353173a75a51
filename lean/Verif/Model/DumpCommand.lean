import Verif.Model.Listing
import Verif.Model.Dump
import Verif.Model.J1939
import Verif.Model.Did

/-
subparsers/dump/__init__.py: the `dump` command, and `signal_choices_string` of formatting.py.

The output is the list of the lines that are printed, for names and texts without line separators.  Comments are not
shown (`--with-comments` is not modelled).  What is printed before an exception is not modelled.
-/

namespace Cantools.DumpCommand
open Dbc
open Listing (Line LSignal LMessage NamedValue hexText line signalTree)
open Dump (rstrip layoutLines)

variable {F : Type}

/-- can/message.py:64-143 `Message`: a message, whether its protocol is `j1939`, and the messages it can contain; these
have no protocol and contain no messages. -/
structure Dumped (F : Type) where
  message : LMessage F
  j1939 : Bool := false
  contained : List (LMessage F) := []
  deriving DecidableEq, Repr

/-- database/utils.py:49-56 `format_and`, of texts. -/
def formatAnd (items : List Chars) : Except Err Chars :=
  match items with
  | [] => .error .indexError
  | [t] => .ok t
  | _ => .ok (joinC ", ".toList items.dropLast ++ (" and ".toList ++ items.getLast?.getD []))

/-- `f'0x{n:0{width}x}'`, for numbers that are not negative. -/
def hexPadded (width n : Nat) : Chars :=
  "0x".toList ++ (List.replicate (width - (Nat.toDigits 16 n).length) '0' ++ Nat.toDigits 16 n)

/-- `('    ' + line).rstrip()` -/
def shown (l : Line) : Line := rstrip ("    ".toList ++ l)

/-- `'\n'.join(lines).splitlines()`: an empty last line is lost. -/
def splitJoined (lines : List Line) : List Line := if lines.getLast? = some [] then lines.dropLast else lines

/-- formatting.py:371-377: the named values of a signal. -/
def choiceLines (s : LSignal F) : List Line :=
  if s.choices.getD [] = [] then []
  else [] :: s.name ::
    (pySorted (fun a b => decide (a.1 ≤ b.1)) (s.choices.getD [])).map
      fun e => "    ".toList ++ (intText e.1 ++ (' ' :: e.2.name))

/-- formatting.py:364-379 `signal_choices_string`: the lines. -/
def signalChoices (signals : List (LSignal F)) : List Line := signals.flatMap choiceLines

/-- dump/__init__.py:14-35 `_print_j1939_frame_id`. -/
def j1939Lines (frameId : Int) : Except Err (List Line) := do
  let u ← frameIdUnpack frameId
  let pdu1 := decide (u.pduFormat < 240)
  let pgn ← pgnPack u.reserved u.dataPage u.pduFormat (if pdu1 then 0 else u.pduSpecific)
  return [line "      Priority:       " (decimal u.priority),
    line "      PGN:            " (hexPadded 5 pgn),
    line "      Source:         " (hexPadded 2 u.sourceAddress),
    line "      Destination:    " (if pdu1 then hexPadded 2 u.pduSpecific else "All".toList),
    line "      Format:         " (if pdu1 then "PDU 1".toList else "PDU 2".toList)]

/-- dump/__init__.py:42-43: the cycle time. -/
def cycleText (T : FloatText F) : Option (Num F) → Chars
  | none => "-".toList
  | some t => t.text T

/-- dump/__init__.py:45-46: the senders, after `'-'` was added if there are none. -/
def noted (senders : List Chars) : List Chars := if senders = [] then ["-".toList] else senders

/-- can/message.py:64-143: the message as the codec sees it. -/
def coreMessage (T : FloatText F) (m : LMessage F) : Except Err Message :=
  match createCodec (m.signals.map (·.core T)) (m.signals.length + 1) none none with
  | none => .error .recursionError
  | some codec => .ok
      { frameId := m.frameId, name := String.ofList m.name, length := m.length, signals := m.signals.map (·.core T),
        unusedBitPattern := 0, isExtendedFrame := m.isExtendedFrame, codec := codec }

/-- dump/__init__.py:48-66: what is said about the message itself. -/
def headLines (T : FloatText F) (namePrefix : Chars) (j1939 isContainer : Bool) (m : LMessage F) :
    Except Err (List Line) := do
  let protocol ← (if j1939 then j1939Lines m.frameId else .ok [] : Except Err (List Line))
  let senders ← formatAnd (noted m.senders)
  return [[]] ++ ([line "  Name:           " (namePrefix ++ m.name)] ++
    ((if namePrefix = [] then [line "  Id:             " (hexText m.frameId)] else []) ++
    ((match m.headerId with
      | some h => if namePrefix = [] then [] else [line "  Header id:      " (hexPadded 6 h.toNat)]
      | none => []) ++
    (protocol ++
    ([line (if isContainer then "  Maximum length: " else "  Length:         ") (decimal m.length ++ " bytes".toList)] ++
    ([line "  Cycle time:     " (cycleText T m.cycleTime ++ " ms".toList)] ++
    [line "  Senders:        " senders]))))))

/-- dump/__init__.py:67-72: the messages that can be contained. -/
def childLines (name : Chars) (children : List Chars) : List Line :=
  ["  Possibly contained children:".toList, []] ++
    (children.map (fun c => line "      " (name ++ (" :: ".toList ++ c))) ++ [[]])

/-- dump/__init__.py:74-95: layout, signal tree and named values. -/
def pictureLines (T : FloatText F) (m : LMessage F) : Except Err (List Line) := do
  let layout ← layoutLines (← coreMessage T m) true
  let tree ← signalTree T m.signals
  let choices := signalChoices m.signals
  return ["  Layout:".toList, []] ++ ((splitJoined layout).map shown ++ ([[]] ++ ("  Signal tree:".toList ::
    ([[]] ++ ((splitJoined tree).map shown ++ [[]] ++
      (if choices = [] then [] else "  Signal choices:".toList :: ((splitJoined choices).map shown ++ [[]])))))))

/-- dump/__init__.py:97 -/
def rule : Line := "  ".toList ++ List.replicate 72 '-'

/-- dump/__init__.py:38-97 `_dump_can_message`, without the messages that are contained in it. -/
def messageLines (T : FloatText F) (namePrefix : Chars) (j1939 : Bool) (children : List Chars) (m : LMessage F) :
    Except Err (List Line) := do
  let head ← headLines T namePrefix j1939 (!children.isEmpty) m
  let body ← (if children.isEmpty then pictureLines T m else .ok (childLines m.name children) : Except Err (List Line))
  return head ++ (body ++ [rule])

/-- dump/__init__.py:38-105 `_dump_can_message`, for a message of the database. -/
def entryLines (T : FloatText F) (d : Dumped F) : Except Err (List Line) := do
  let own ← messageLines T [] d.j1939 (d.contained.map (·.name)) d.message
  let contained ← d.contained.mapM (messageLines T (d.message.name ++ " :: ".toList) false [])
  return own ++ contained.flatten

/-- dump/__init__.py:115-117: what is printed first. -/
def title : List Line :=
  ["================================= Messages =================================".toList, [], rule]

/-- dump/__init__.py:108-122 `_dump_can_messages`. -/
def dumpMessages (T : FloatText F) (messages : List (Dumped F)) : Except Err (List Line) := do
  let blocks ← messages.mapM (entryLines T)
  return title ++ blocks.flatten

/-- can/database.py:499-504 `get_message_by_name`: the last message added under a name. -/
def messageNamed (messages : List (Dumped F)) (name : Chars) : Except Err (Dumped F) :=
  match messages.reverse.find? fun d => decide (d.message.name = name) with
  | some d => .ok d
  | none => .error .keyError

/-- dump/__init__.py:147-161 `_do_dump`, for a CAN database that was read. -/
def doDump (T : FloatText F) (messages : List (Dumped F)) : Option Chars → Except Err (List Line)
  | none => dumpMessages T messages
  | some name => do dumpMessages T [← messageNamed messages name]

/-- dump/__init__.py:45-46: a message after it was dumped: `message.senders.append('-')`. -/
def afterwards (d : Dumped F) : Dumped F :=
  { d with message := { d.message with senders := noted d.message.senders }
           contained := d.contained.map fun c => { c with senders := noted c.senders } }

/-! ### Diagnostics databases -/

/-- dump/__init__.py:137-141: a data of a DID. -/
def dataLines (d : Data) : List Line :=
  [line "    Name:      " d.name.toList, line "    Start bit: " (decimal d.start), line "    Length:    " (decimal d.length), []]

/-- dump/__init__.py:131-144: a DID. -/
def didLines (d : Did) : List Line :=
  [[], line "  Name:       " d.name.toList, line "  Length:     " (decimal d.length ++ " bytes".toList), "  Layout:".toList, []] ++
    (d.datas.flatMap dataLines ++ [[], rule])

/-- dump/__init__.py:125-144 `_dump_diagnostics_database`. -/
def dumpDids (dids : List Did) : List Line :=
  ["=================================== Dids ===================================".toList, [], rule] ++
    dids.flatMap didLines

end Cantools.DumpCommand
