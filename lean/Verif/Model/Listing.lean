import Verif.Model.DbcFile

/-
subparsers/list.py: the `list` command, and `signal_tree_string` of subparsers/dump/formatting.py.

The output is the list of the texts that are printed, each with a line end.  What is printed before an exception
is not modelled.  The command never uses a format specifier for values.
-/

namespace Cantools.Listing
open Cantools Dbc

variable {F : Type}

/-- What one call of `print` shows. -/
abbrev Line := Chars

/-! ### What is listed -/

/-- A dictionary of comments; the key `None` is the text `None`. -/
abbrev Comments := List (Chars × Chars)

/-- namedsignalvalue.py:1-61 `NamedSignalValue`, without its number; a plain text has no comments. -/
structure NamedValue where
  name : Chars
  comments : Comments := []
  deriving DecidableEq, Repr

/-- A value of a signal: a number or a name. -/
inductive Shown (F : Type) where
  | num (n : Num F)
  | name (t : Chars)
  deriving DecidableEq, Repr

/-- can/signal.py:46-154 `Signal`. -/
structure LSignal (F : Type) where
  name : Chars
  start : Nat
  length : Nat
  byteOrder : ByteOrder := .little
  isSigned : Bool := false
  scale : Num F := .int 1
  offset : Num F := .int 0
  isFloat : Bool := false
  minimum : Option (Num F) := none
  maximum : Option (Num F) := none
  unit : Option Chars := none
  receivers : List Chars := []
  comments : Option Comments := none
  choices : Option (List (Int × NamedValue)) := none
  isMultiplexer : Bool := false
  multiplexerIds : Option (List Int) := none
  multiplexerSignal : Option Chars := none
  initial : Option (Shown F) := none
  invalid : Option (Shown F) := none
  deriving DecidableEq, Repr

/-- The signal as the encoder sees it. -/
def LSignal.core (T : FloatText F) (s : LSignal F) : Signal :=
  { name := String.ofList s.name, start := s.start, length := s.length, byteOrder := s.byteOrder,
    isSigned := s.isSigned,
    conversion := .factory (s.scale.value T) (s.offset.value T)
      (s.choices.map fun cs => cs.map fun e =>
        (e.1, .named { value := e.1, name := String.ofList e.2.name,
                       comments := e.2.comments.map fun c => (String.ofList c.1, String.ofList c.2) }))
      s.isFloat,
    minimum := s.minimum.map (·.value T), maximum := s.maximum.map (·.value T),
    isMultiplexer := s.isMultiplexer, multiplexerIds := s.multiplexerIds,
    multiplexerSignal := s.multiplexerSignal.map String.ofList }

/-- arxml/end_to_end_properties.py:1-49 `AutosarEnd2EndProperties`. -/
structure EndToEnd where
  category : Option Chars := none
  dataIds : Option (List Int) := none
  payloadLength : Int := 0
  deriving DecidableEq, Repr

/-- arxml/secoc_properties.py:1-94 `AutosarSecOCProperties`. -/
structure SecOc where
  authAlgorithm : Option Chars := none
  freshnessAlgorithm : Option Chars := none
  payloadLength : Option Int := none
  dataId : Option Int := none
  authTxBits : Option Int := none
  freshnessBits : Option Int := none
  freshnessTxBits : Option Int := none
  deriving DecidableEq, Repr

/-- arxml/message_specifics.py:5-65 `AutosarMessageSpecifics`, what is listed of it. -/
structure Autosar where
  isNm : Bool := false
  secoc : Option SecOc := none
  e2e : Option EndToEnd := none
  deriving DecidableEq, Repr

/-- can/message.py:64-143 `Message`, without contained messages. -/
structure LMessage (F : Type) where
  frameId : Int
  name : Chars
  length : Nat
  signals : List (LSignal F) := []
  headerId : Option Int := none
  comments : Option Comments := none
  senders : List Chars := []
  cycleTime : Option (Num F) := none
  autosar : Option Autosar := none
  isExtendedFrame : Bool := false
  isFd : Bool := false
  busName : Option Chars := none
  deriving DecidableEq, Repr

/-- A message with the messages it can contain; these contain no messages. -/
structure Entry (F : Type) where
  message : LMessage F
  contained : List (LMessage F) := []
  deriving DecidableEq, Repr

/-- can/node.py:12-34 `Node`, what is listed of it. -/
structure LNode where
  name : Chars
  comments : Option Comments := none
  deriving DecidableEq, Repr

/-- can/bus.py:11-42 `Bus`. -/
structure LBus where
  name : Chars
  comments : Option Comments := none
  baudrate : Option Int := none
  fdBaudrate : Option Int := none
  deriving DecidableEq, Repr

structure LDatabase (F : Type) where
  messages : List (Entry F) := []
  nodes : List LNode := []
  buses : List LBus := []

/-! ### The signal tree -/

/-- Python `sorted` of texts. -/
def sortTexts (l : List Chars) : List Chars := pySorted (fun a b => decide (a ≤ b)) l

/-- can/message.py:1204-1205 `get_signal_by_name`, which looks it up in `_signal_dict` (1301). -/
def signalNamed (signals : List (LSignal F)) (name : Chars) : Except Err (LSignal F) :=
  match signals.reverse.find? fun s => s.name = name with
  | some s => .ok s
  | none => .error .keyError

/-- formatting.py:31-50 `format_signal_line`, without comments, for names without white space that are shorter than the
console (`textwrap.wrap` has nothing to do; it gives no line for an empty text). -/
def signalLine (name : Chars) : Line := if name = [] then [] else "+-- ".toList ++ name

/-- formatting.py:60-66: the description of a multiplexer id. -/
def idText (choices : List (Int × NamedValue)) (id : Int) : Chars :=
  match dictGet? choices id with
  | some c => c.name ++ (" (".toList ++ (intText id ++ [')']))
  | none => intText id

/-- formatting.py:22-26 `get_prefix`. -/
def treePrefix (isLast : Bool) : Chars := if isLast then "    ".toList else "|   ".toList

/-- formatting.py:56-70: the loop of `format_mux` over the sorted multiplexer ids with the lines of their signals. -/
def muxLines (choices : List (Int × NamedValue)) : List (Int × List Line) → List Line
  | [] => []
  | (id, lines) :: rest =>
    ("+-- ".toList ++ idText choices id) :: (lines.map (treePrefix rest.isEmpty ++ ·) ++ muxLines choices rest)

def SigTree.isNil : SigTree → Bool
  | .nil => true
  | _ => false

/-
formatting.py:52-89 `format_mux` and `format_level_lines`; `choices` gives the named values of a selector.
-/
mutual
def levelLines (choices : String → List (Int × NamedValue)) : SigTree → List Line
  | .nil => []
  | .leaf name rest => signalLine name.toList :: levelLines choices rest
  | .mux name branches rest =>
    signalLine name.toList ::
      ((muxLines (choices name) (pySorted (fun a b => decide (a.1 ≤ b.1)) (branchLines choices branches))).map
        (treePrefix (SigTree.isNil rest) ++ ·) ++ levelLines choices rest)
def branchLines (choices : String → List (Int × NamedValue)) : TreeBranches → List (Int × List Line)
  | .nil => []
  | .cons id tree rest => (id, levelLines choices tree) :: branchLines choices rest
end

/-- The named values of the signal of a name. -/
def choicesOf (signals : List (LSignal F)) (name : String) : List (Int × NamedValue) :=
  match signalNamed signals name.toList with
  | .ok s => s.choices.getD []
  | .error _ => []

/-- formatting.py:17-94 `signal_tree_string`: the lines. -/
def signalTree (T : FloatText F) (signals : List (LSignal F)) : Except Err (List Line) :=
  match createCodec (signals.map (·.core T)) (signals.length + 1) none none with
  | none => .error .recursionError
  | some codec =>
    .ok ("-- {root}".toList :: (levelLines (choicesOf signals) (treeOfCodec codec)).map ("   ".toList ++ ·))

/-! ### Messages -/

/-- `str(b)`. -/
def boolText (b : Bool) : Chars := if b then "True".toList else "False".toList

/-- `str(v)` of something that can be `None`. -/
def optionText {α : Type} (text : α → Chars) : Option α → Chars
  | none => "None".toList
  | some a => text a

/-- `f'0x{i:x}'`. -/
def hexText (i : Int) : Chars :=
  "0x".toList ++ ((if i < 0 then ['-'] else []) ++ Nat.toDigits 16 i.natAbs)

/-- `f'0x{i:x} ({i})'`. -/
def idsText (i : Int) : Chars := hexText i ++ (" (".toList ++ (intText i ++ [')']))

/-- `str(l)` of a list of integers. -/
def listText (l : List Int) : Chars := '[' :: (joinC ", ".toList (l.map intText) ++ [']'])

/-- list.py:12-30 `_format_val`; the texts of names are shown without unit. -/
def formatVal (T : FloatText F) (v : Shown F) (unit : Chars) : Chars :=
  match v with
  | .name t => t
  | .num n => if unit = [] then n.text T else n.text T ++ ' ' :: unit

/-- A label and what follows it. -/
def line (label : String) (value : Chars) : Line := label.toList ++ value

/-- The loops over comments: list.py:44-46, 129-131, 183-185, 190-192 and 197-199. -/
def commentLines (label : String) (comments : Comments) : List Line :=
  comments.map fun c => line label (c.1 ++ ("]: ".toList ++ c.2))

/-- list.py:68-88: what is specific to ARXML files. -/
def autosarLines (a : Autosar) : List Line :=
  [line "  Is network management frame: " (boolText a.isNm)] ++
  ((match a.e2e with
    | none => []
    | some e => ["  End-to-end properties:".toList, line "    Category: " (optionText id e.category),
        line "    Data IDs: " (optionText listText e.dataIds),
        line "    Protected size: " (intText e.payloadLength ++ " bytes".toList)]) ++
  ([line "  Is secured: " (boolText a.secoc.isSome)] ++
  (match a.secoc with
    | none => []
    | some s => ["  Security properties:".toList,
        line "    Authentication algorithm: " (optionText id s.authAlgorithm),
        line "    Freshness algorithm: " (optionText id s.freshnessAlgorithm),
        line "    Data ID: " (optionText intText s.dataId),
        line "    Authentication transmit bits: " (optionText intText s.authTxBits),
        line "    Freshness counter size: " (optionText intText s.freshnessBits ++ " bits".toList),
        line "    Freshness counter transmit size: " (optionText intText s.freshnessTxBits ++ " bits".toList),
        line "    Secured size: " (optionText intText s.payloadLength ++ " bytes".toList)])))

/-- list.py:48-49: the bus. -/
def busLine (m : LMessage F) : List Line := if m.busName.getD [] = [] then [] else [line "  Bus: " (m.busName.getD [])]

/-- list.py:51-52 and 132-133: names of nodes. -/
def namesLine (label : String) (names : List Chars) : List Line :=
  if names = [] then [] else [line label (joinC ", ".toList (sortTexts names))]

/-- list.py:54-64: identifier and size. -/
def idLines (isContainer : Bool) (m : LMessage F) : List Line :=
  match m.headerId with
  | none => [line "  Frame ID: " (idsText m.frameId),
      (if isContainer then line "  Maximum Size: " (decimal m.length ++ " bytes".toList)
        else line "  Size: " (decimal m.length ++ " bytes".toList)),
      line "  Is extended frame: " (boolText m.isExtendedFrame), line "  Is CAN-FD frame: " (boolText m.isFd)]
  | some h => [line "  Header ID: " (idsText h), line "  Size: " (decimal m.length ++ " bytes".toList)]

/-- list.py:66-67: the cycle time. -/
def cycleLine (T : FloatText F) (m : LMessage F) : List Line :=
  match m.cycleTime with
  | none => []
  | some t => [line "  Cycle time: " (formatVal T (.num t) "ms".toList)]

/-- list.py:69-88: what is specific to the format, if it is to be shown. -/
def specificLines (specifics : Bool) (m : LMessage F) : List Line :=
  match m.autosar with
  | some a => if specifics then autosarLines a else []
  | none => []

/-- list.py:42-88: the properties of the message itself. -/
def headLines (T : FloatText F) (specifics isContainer : Bool) (m : LMessage F) : List Line :=
  (m.name ++ [':']) :: (commentLines "  Comment[" (m.comments.getD []) ++ (busLine m ++
    (namesLine "  Sending ECUs: " m.senders ++ (idLines isContainer m ++ (cycleLine T m ++ specificLines specifics m)))))

/-- list.py:90-96: the signal tree. -/
def treeLines (T : FloatText F) (signals : List (LSignal F)) : Except Err (List Line) :=
  if signals = [] then .ok []
  else do
    let tree ← signalTree T signals
    return ["  Signal tree:".toList, []] ++ (tree.map ("    ".toList ++ ·) ++ [[]])

/-! ### Signals -/

/-- list.py:120-126 -/
def signalType (signals : List (LSignal F)) (s : LSignal F) : Chars :=
  if s.isFloat then "Float".toList
  else if s.isMultiplexer ∧ some s.name ∈ signals.map (·.multiplexerSignal) then "Multiplex Selector".toList
  else "Integer".toList

/-- list.py:142-146: a multiplexer id, or its name. -/
def selectorValue (selector : LSignal F) (id : Int) : Chars :=
  match dictGet? (selector.choices.getD []) id with
  | some c => c.name
  | none => intText id

/-- list.py:135-148: the selector and the values for which the signal is there. -/
def selectorLines (signals : List (LSignal F)) (s : LSignal F) : Except Err (List Line) :=
  match s.multiplexerSignal with
  | none => .ok []
  | some n => do
    let selector ← signalNamed signals n
    return [line "      Selector signal: " n,
      line "      Selector values: " (joinC ", ".toList ((s.multiplexerIds.getD []).map (selectorValue selector)))]

/-- `str(byte_order)` -/
def orderText : ByteOrder → Chars
  | .little => "little_endian".toList
  | .big => "big_endian".toList

/-- An optional value with its label. -/
def valueLine (T : FloatText F) (label : String) (unit : Chars) : Option (Shown F) → List Line
  | none => []
  | some v => [line label (formatVal T v unit)]

/-- list.py:168-172 `has_offset or has_scale`. -/
def scaled (T : FloatText F) (s : LSignal F) : Bool :=
  decide (s.offset.value T ≠ 0) ||
    (decide (1 + 1 / 10 ^ 10 < s.scale.value T) || decide (s.scale.value T < 1 - 1 / 10 ^ 10))

/-- list.py:182-185: a named value. -/
def choiceLines (e : Int × NamedValue) : List Line :=
  line "        " (intText e.1 ++ (": ".toList ++ e.2.name)) :: commentLines "          Comment[" e.2.comments

/-- list.py:150-152: where the signal is. -/
def placeLines (s : LSignal F) : List Line :=
  [line "      Start bit: " (decimal s.start), line "      Length: " (decimal s.length ++ " bits".toList),
    line "      Byte order: " (orderText s.byteOrder)]

/-- list.py:154-156: the unit. -/
def unitLine (s : LSignal F) : List Line := if s.unit.getD [] = [] then [] else [line "      Unit: " (s.unit.getD [])]

/-- list.py:172-177: offset and scaling factor. -/
def scalingLines (T : FloatText F) (s : LSignal F) : List Line :=
  if scaled T s then
    [line "      Offset: " (formatVal T (.num s.offset) (s.unit.getD [])),
      line "      Scaling factor: " (formatVal T (.num s.scale) (s.unit.getD []))]
  else []

/-- list.py:179-185: the named values. -/
def choicesLines (s : LSignal F) : List Line :=
  if s.choices.getD [] = [] then [] else "      Named values:".toList :: (s.choices.getD []).flatMap choiceLines

/-- list.py:120-185: one signal. -/
def signalLines (T : FloatText F) (signals : List (LSignal F)) (s : LSignal F) : Except Err (List Line) := do
  let selector ← selectorLines signals s
  return line "    " (s.name ++ [':']) ::
    (commentLines "      Comment[" (s.comments.getD []) ++ (namesLine "      Receiving ECUs: " s.receivers ++
    ([line "      Internal type: " (signalType signals s)] ++ (selector ++ (placeLines s ++ (unitLine s ++
    (valueLine T "      Initial value: " (s.unit.getD []) s.initial ++
    (valueLine T "      Invalid value: " (s.unit.getD []) s.invalid ++
    ([line "      Is signed: " (boolText s.isSigned)] ++
    (valueLine T "      Minimum: " (s.unit.getD []) (s.minimum.map .num) ++
    (valueLine T "      Maximum: " (s.unit.getD []) (s.maximum.map .num) ++
    (scalingLines T s ++ choicesLines s))))))))))))

/-- list.py:116-185: all signals. -/
def detailLines (T : FloatText F) (signals : List (LSignal F)) : Except Err (List Line) :=
  if signals = [] then .ok []
  else do
    let details ← signals.mapM (signalLines T signals)
    return "  Signal details:".toList :: details.flatten

/-- list.py:32-185 `_print_message`, for a message that contains no messages. -/
def messageLines (T : FloatText F) (specifics : Bool) (m : LMessage F) : Except Err (List Line) := do
  let tree ← treeLines T m.signals
  let details ← detailLines T m.signals
  return headLines T specifics false m ++ (tree ++ details)

/-- `print(f'{indent}…')`, and `print()`. -/
def indented (indent : String) (l : Line) : Line := if l = [] then [] else indent.toList ++ l

/-- list.py:103-108: a message that can be contained; `None` cannot be formatted as a number. -/
def containedLine (c : LMessage F) : Except Err Line :=
  match c.headerId with
  | none => .error .typeError
  | some h => .ok (line "    " (c.name ++ (" (".toList ++ (hexText h ++ [')']))))

/-- list.py:98-114: the messages that can be contained; they are listed with an indentation of four. -/
def containedLines (T : FloatText F) (specifics : Bool) (contained : List (LMessage F)) : Except Err (List Line) :=
  if contained = [] then .ok []
  else do
    let names ← contained.mapM containedLine
    let details ← contained.mapM (messageLines T specifics)
    return ["  Potentially contained messages:".toList, []] ++ (names ++
      ([[], "  Potentially contained message details:".toList] ++ details.flatten.map (indented "    ")))

/-- list.py:32-185 `_print_message`. -/
def entryLines (T : FloatText F) (specifics : Bool) (e : Entry F) : Except Err (List Line) := do
  let tree ← treeLines T e.message.signals
  let contained ← containedLines T specifics e.contained
  let details ← detailLines T e.message.signals
  return headLines T specifics (!e.contained.isEmpty) e.message ++ (tree ++ (contained ++ details))

/-! ### The command -/

/-- list.py:187-192 `_print_node`. -/
def nodeLines (n : LNode) : List Line := (n.name ++ [':']) :: commentLines "  Comment[" (n.comments.getD [])

/-- list.py:194-208 `_print_bus`. -/
def busLines (b : LBus) : List Line :=
  [b.name ++ [':']] ++
  (commentLines "  Comment[" (b.comments.getD []) ++
  ((match b.baudrate with
    | none => []
    | some r => [line "  Baudrate: " (intText r)]) ++
  (match b.fdBaudrate with
    | none => ["  CAN-FD enabled: False".toList]
    | some r => ["  CAN-FD enabled: True".toList, line "  FD Baudrate: " (intText r)])))

/-- The arguments of the command (list.py:307-377). -/
structure Args where
  items : List Chars := []
  excludeNormal : Bool := false
  excludeExtended : Bool := false
  skipSpecifics : Bool := false
  printAll : Bool := false
  printBuses : Bool := false
  printNodes : Bool := false

/-- list.py:265-270 and 278-284: the names of the messages that are not excluded. -/
def messageNames (db : LDatabase F) (args : Args) : List Chars :=
  (db.messages.filter fun e =>
    !(e.message.isExtendedFrame && args.excludeExtended) && !(!e.message.isExtendedFrame && args.excludeNormal)).map
      (·.message.name)

/-- can/database.py:499-504 `get_message_by_name`: a later message of the same name replaces the earlier one. -/
def messageNamed (db : LDatabase F) (name : Chars) : Option (Entry F) :=
  db.messages.reverse.find? fun e => e.message.name = name

/-- list.py:295-303: one of the given names. -/
def itemLines (T : FloatText F) (db : LDatabase F) (specifics : Bool) (name : Chars) : Except Err (List Line) :=
  match messageNamed db name with
  | none => .ok ["No message named \"".toList ++ (name ++ "\" has been found in input file.".toList)]
  | some e => entryLines T specifics e

/-- list.py:253-303 `_do_list_messages`. -/
def listMessages (T : FloatText F) (db : LDatabase F) (args : Args) : Except Err (List Line) :=
  let names := if args.printAll then sortTexts (args.items ++ messageNames db args) else args.items
  if names = [] then .ok (sortTexts (messageNames db args))
  else do
    let lines ← names.mapM (itemLines T db (!args.skipSpecifics))
    return lines.flatten

/-- list.py:233-241 `_do_list_buses`. -/
def listBuses (db : LDatabase F) (args : Args) : List Line :=
  (db.buses.filter fun b => !(!args.items.isEmpty && !args.items.contains b.name)).flatMap busLines

/-- list.py:243-251 `_do_list_nodes`. -/
def listNodes (db : LDatabase F) (args : Args) : List Line :=
  (db.nodes.filter fun n => !(!args.items.isEmpty && !args.items.contains n.name)).flatMap nodeLines

/-- list.py:210-231 `_do_list`, for the database that has been loaded (none: a diagnostics database). -/
def doList (T : FloatText F) (db : Option (LDatabase F)) (args : Args) : Except Err (List Line) :=
  match db with
  | none => .ok ["The \"list\" subcommand only works with non-diagnostic database files!".toList]
  | some db =>
    if args.printBuses then .ok (listBuses db args)
    else if args.printNodes then .ok (listNodes db args)
    else listMessages T db args

/-- What is written: each text with a line end. -/
def output (lines : List Line) : Chars := lines.flatMap (· ++ ['\n'])

end Cantools.Listing
