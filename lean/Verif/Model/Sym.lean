import Verif.Model.SymLex
import Verif.Model.InvertTree

/-
database/can/formats/sym.py: `dump_string` and `load_string`.

Databases are those of `Model/DbcFile.lean`.
-/

namespace Cantools.Sym
open Cantools Cantools.Dbc

variable {F : Type}

/-! ### Loading -/

/-- A dictionary of enumerations. -/
abbrev Enums := List (Chars × List (Int × Chars))

/-- sym.py:268-274 `_get_section_tokens` for `{ENUMS}`. -/
def Doc.enums (d : Doc) : List EnumLine :=
  d.sections.flatMap fun | .enums l => l.filterMap id | _ => []
/-- sym.py:268-274 `_get_section_tokens` for `{SIGNALS}`. -/
def Doc.signals (d : Doc) : List SigLine :=
  d.sections.flatMap fun | .signals l => l.filterMap id | _ => []
/-- sym.py:268-274 `_get_section_tokens` for `{SEND}`. -/
def Doc.send (d : Doc) : List Block :=
  d.sections.flatMap fun | .send l => l.filterMap id | _ => []
/-- sym.py:268-274 `_get_section_tokens` for `{RECEIVE}`. -/
def Doc.receive (d : Doc) : List Block :=
  d.sections.flatMap fun | .receive l => l.filterMap id | _ => []
/-- sym.py:268-274 `_get_section_tokens` for `{SENDRECEIVE}`. -/
def Doc.sendReceive (d : Doc) : List Block :=
  d.sections.flatMap fun | .sendReceive l => l.filterMap id | _ => []

/-- The lines of a message by their keyword. -/
def Block.ids (b : Block) : List IdLine := b.lines.filterMap fun | .id l => some l | _ => none
def Block.lens (b : Block) : List Chars := b.lines.filterMap fun | .len t => some t | _ => none
def Block.muxes (b : Block) : List MuxLine := b.lines.filterMap fun | .mux l => some l | _ => none
def Block.cycleTimes (b : Block) : List (Chars × Option Chars) :=
  b.lines.filterMap fun | .cycleTime t p => some (t, p) | _ => none
def Block.timeouts (b : Block) : List Chars := b.lines.filterMap fun | .timeout t => some t | _ => none
def Block.minIntervals (b : Block) : List Chars := b.lines.filterMap fun | .minInterval t => some t | _ => none
def Block.colors (b : Block) : List Chars := b.lines.filterMap fun | .color t => some t | _ => none
def Block.vars (b : Block) : List VarLine := b.lines.filterMap fun | .var l => some l | _ => none
def Block.sigs (b : Block) : List (Chars × Chars) := b.lines.filterMap fun | .sig n t => some (n, t) | _ => none
def Block.types (b : Block) : List Chars := b.lines.filterMap fun | .type t => some t | _ => none

/-- sym.py:610 `tokens == message_tokens`: the lines are dictionaries. -/
def Block.same (a b : Block) : Bool :=
  decide (a.name = b.name) && decide (a.ids = b.ids) && decide (a.lens = b.lens) && decide (a.muxes = b.muxes) &&
  decide (a.cycleTimes = b.cycleTimes) && decide (a.timeouts = b.timeouts) &&
  decide (a.minIntervals = b.minIntervals) && decide (a.colors = b.colors) && decide (a.vars = b.vars) &&
  decide (a.sigs = b.sigs) && decide (a.types = b.types)

/-- sym.py:277-278 `_load_comment`. -/
def loadComment (t : Chars) : Chars :=
  ((t.drop 3).reverse.dropWhile fun c => decide (c = '\r') || decide (c = '\n')).reverse

/-- sym.py:281-285 `_get_enum`. -/
def getEnum (enums : Enums) (name : Chars) : Except Err (List (Int × Chars)) :=
  match dictGet? enums name with
  | some e => .ok e
  | none => .error .error

/-- sym.py:288-304 `_load_enums`.  Numbers that are not integers are an error here. -/
def loadEnums (lines : List EnumLine) : Except Err Enums :=
  lines.foldlM (fun enums l => do
    let values ← l.values.foldlM (fun e v => do
      let i ← readInt v.1
      return dictSet e i v.2) []
    return dictSet enums l.name values) []

/-- What `_load_signal_type_and_length` gives. -/
structure TypeInfo (F : Type) where
  isSigned : Bool := false
  isFloat : Bool := false
  length : Int := 0
  enum : Option (List (Int × Chars)) := none
  minimum : Option (Num F) := none
  maximum : Option (Num F) := none

/-- `int(tokens[0])`. -/
def lengthOf : Option Chars → Except Err Int
  | none => .error .indexError
  | some t => readInt t

/-- sym.py:307-343 `_load_signal_type_and_length`. -/
def loadType (type : Chars) (length : Option Chars) (enums : Enums) : Except Err (TypeInfo F) :=
  if type = "signed".toList then (lengthOf length).map fun n => { isSigned := true, length := n }
  else if type = "unsigned".toList then (lengthOf length).map fun n => { length := n }
  else if type = "float".toList then .ok { isFloat := true, length := 32 }
  else if type = "double".toList then .ok { isFloat := true, length := 64 }
  else if type = "bit".toList then .ok { length := 1, minimum := some (.int 0), maximum := some (.int 1) }
  else if type = "char".toList then .ok { length := 8 }
  else if type = "string".toList ∨ type = "raw".toList then (lengthOf length).map fun n => { length := n }
  else do
    let n ← lengthOf length
    let e ← getEnum enums type
    return { length := n, enum := some e }

/-- What `_load_signal_attributes` gives. -/
structure OptionInfo (F : Type) where
  unit : Option Chars := none
  factor : Num F := .int 1
  offset : Num F := .int 0
  enum : Option (List (Int × Chars)) := none
  minimum : Option (Num F) := none
  maximum : Option (Num F) := none
  spn : Option Int := none

/-- sym.py:353-375: one option. -/
def loadOption (T : FloatText F) (enums : Enums) (st : OptionInfo F) : SigOption → Except Err (OptionInfo F)
  | .factor t => (num T t).map fun n => { st with factor := n }
  | .offset t => (num T t).map fun n => { st with offset := n }
  | .min t => (num T t).map fun n => { st with minimum := some n }
  | .max t => (num T t).map fun n => { st with maximum := some n }
  | .enum n => (getEnum enums n).map fun e => { st with enum := some e }
  | .spn t => (readInt t).map fun i => { st with spn := some i }
  | .ignored _ _ => .ok st
  | .unit t => .ok { st with unit := some (if t.take 4 = "/u:\"".toList then (t.drop 4).dropLast else t.drop 3) }

/-- sym.py:346-377 `_load_signal_attributes`. -/
def loadOptions (T : FloatText F) (enums : Enums) (info : TypeInfo F) (options : List SigOption) :
    Except Err (OptionInfo F) :=
  options.foldlM (loadOption T enums)
    { enum := info.enum, minimum := info.minimum, maximum := info.maximum }

/-- sym.py:414-433, 523-544: a signal from what was read.  Negative lengths and starts become 0 here. -/
def makeSignal (name : Chars) (start : Int) (motorola : Bool) (comment : Option Chars) (info : TypeInfo F)
    (o : OptionInfo F) : DSignal F :=
  { name := name, start := start.toNat, length := info.length.toNat
    byteOrder := if motorola then .big else .little, isSigned := info.isSigned, scale := o.factor
    offset := o.offset, isFloat := info.isFloat, minimum := o.minimum, maximum := o.maximum, unit := o.unit
    comment := comment, choices := o.enum, spn := o.spn.map fun i => .num (.int i) }

/-- sym.py:380-433 `_load_signal`.  The start bit, which python sets to the offset, is replaced when the
signal is used in a message. -/
def loadSignal (T : FloatText F) (enums : Enums) (l : SigLine) : Except Err (DSignal F) := do
  let info ← loadType l.type l.length enums
  let o ← loadOptions T enums info l.options
  return makeSignal l.name 0 l.motorola (l.comment.map loadComment) info o

/-- A dictionary of signals. -/
abbrev Library (F : Type) := List (Chars × DSignal F)

/-- sym.py:436-444 `_load_signals`. -/
def loadSignals (T : FloatText F) (enums : Enums) (lines : List SigLine) : Except Err (Library F) :=
  lines.foldlM (fun signals l => do
    let s ← loadSignal T enums l
    return dictSet signals s.name s) []

/-- sym.py:478-481 `_convert_start`. -/
def convertStart (start : Int) (order : ByteOrder) : Int :=
  match order with
  | .big => 8 * (start / 8) + (7 - start % 8)
  | .little => start

/-- sym.py:447-476 `_load_message_signal`. -/
def loadMessageSignal (signals : Library F) (mux : Option Chars) (ids : Option (List Int))
    (l : Chars × Chars) : Except Err (DSignal F) := do
  let s ← dictGet signals l.1
  let start ← readInt l.2
  return { s with start := (convertStart start s.byteOrder).toNat, multiplexerIds := ids, multiplexerSignal := mux }

/-- sym.py:483-544 `_load_message_variable`. -/
def loadVariable (T : FloatText F) (enums : Enums) (mux : Option Chars) (ids : Option (List Int))
    (l : VarLine) : Except Err (DSignal F) := do
  let start ← readInt l.start
  let info ← loadType l.type (some l.length) enums
  let motorola := decide ("-m".toList ∈ l.flags)
  let o ← loadOptions T enums info l.options
  return { makeSignal l.name (convertStart start (if motorola then .big else .little)) motorola
    (l.comment.map loadComment) info o with multiplexerIds := ids, multiplexerSignal := mux }

/-- sym.py:547-564 `_load_message_signals_inner`. -/
def loadInner (T : FloatText F) (signals : Library F) (enums : Enums) (mux : Option Chars)
    (ids : Option (List Int)) (b : Block) : Except Err (List (DSignal F)) := do
  let sigs ← b.sigs.mapM (loadMessageSignal signals mux ids)
  let vars ← b.vars.mapM (loadVariable T enums mux ids)
  return sigs ++ vars

/-- `int(text, 16)`, without white space, underscores, plus signs and a prefix. -/
def readHex (t : Chars) : Except Err Int :=
  let digits (l : Chars) : Except Err Nat :=
    if l = [] then .error .valueError
    else match Kcd.readDigits 16 Kcd.hex? l 0 with
      | some n => .ok n
      | none => .error .valueError
  match t with
  | '-' :: r => (digits r).map fun n : Nat => -(n : Int)
  | r => (digits r).map fun n : Nat => (n : Int)

/-- sym.py:571-578 `get_mutliplexer_ids`. -/
def loadMuxId (l : MuxLine) : Except Err Int :=
  if l.id.getLast? = some 'h' then readHex l.id.dropLast else readInt l.id

/-- `tokens[3]['Mux'][0]`. -/
def firstMux (b : Block) : Except Err MuxLine :=
  match b.muxes with
  | l :: _ => .ok l
  | [] => .error .keyError

/-- sym.py:580-601: the selector of a message. -/
def loadSelector (l : MuxLine) : Except Err (DSignal F) := do
  let order : ByteOrder := if "-m".toList ∈ l.flags then .big else .little
  let start ← readInt l.start
  let length ← readInt l.length
  return { name := l.name, start := (convertStart start order).toNat, length := length.toNat, byteOrder := order
           isMultiplexer := true, comment := l.comment.map loadComment }

/-- sym.py:567-619 `_load_muxed_message_signals`. -/
def loadMuxed (T : FloatText F) (signals : Library F) (enums : Enums) (blocks : List Block) (b : Block) :
    Except Err (List (DSignal F)) := do
  let l ← firstMux b
  let selector ← loadSelector l
  let id ← loadMuxId l
  let own ← loadInner T signals enums (some l.name) (some [id]) b
  let others ← (blocks.filter fun x => decide (x.name = b.name) && !x.same b).mapM fun x => do
    let lx ← firstMux x
    let id ← loadMuxId lx
    loadInner T signals enums (some l.name) (some [id]) x
  return [selector] ++ own ++ others.flatten

/-- sym.py:622-638 `_is_multiplexed`, `_load_message_signals`. -/
def loadMessageSignals (T : FloatText F) (signals : Library F) (enums : Enums) (blocks : List Block) (b : Block) :
    Except Err (List (DSignal F)) :=
  if b.muxes ≠ [] then loadMuxed T signals enums blocks b else loadInner T signals enums none none b

/-- sym.py:46 `SEND_MESSAGE_SENDER`. -/
def ecu : Chars := "ECU".toList
/-- sym.py:48 `RECEIVE_MESSAGE_SENDER`. -/
def peripherals : Chars := "Peripherals".toList

/-- `str.lower()` of ASCII letters. -/
def lower (t : Chars) : Chars :=
  t.map fun c => if 'A' ≤ c ∧ c ≤ 'Z' then Char.ofNat (c.toNat + 32) else c

/-- sym.py:705-729 `_parse_message_frame_ids`. -/
def loadFrameIds (b : Block) (l : IdLine) : Except Err (List Int × Bool) := do
  let first ← readHex l.first.dropLast
  let last ← (match l.last with
    | none => .ok first
    | some t => readHex (t.drop 1).dropLast : Except Err Int)
  let type := lower (b.types.head?.getD "Standard".toList)
  return (pyRange first last,
    decide (l.first.length = 9) || decide (type = "extended".toList) || decide (type = "fdextended".toList))

/-- sym.py:658-702 `_load_message`. -/
def loadMessage (T : FloatText F) (strict : Bool) (signals : Library F) (enums : Enums) (senders : List Chars)
    (blocks : List Block) (b : Block) (l : IdLine) (frameId : Int) (extended : Bool) :
    Except Err (DMessage F) := do
  let length ← (match b.lens with
    | [] => .ok 8
    | t :: _ => readInt t : Except Err Int)
  let cycleTime ← (match b.cycleTimes with
    | [] => .ok none
    | t :: _ => (num T t.1).map some : Except Err (Option (Num F)))
  let sigs ← loadMessageSignals T signals enums blocks b
  let _ ← Message.create frameId (String.ofList b.name) length.toNat (sigs.map (·.core T)) 0xff extended strict
  return { frameId := frameId, isExtendedFrame := extended, name := b.name, length := length.toNat
           senders := senders, cycleTime := cycleTime, comment := l.comment.map loadComment
           signals := sortByStartBit T sigs }

/-- sym.py:732-757 `_load_message_section`; sym.py:641-656 `_get_senders` gives the senders. -/
def loadSection (T : FloatText F) (strict : Bool) (signals : Library F) (enums : Enums) (senders : List Chars)
    (blocks : List Block) : Except Err (List (DMessage F)) := do
  let messages ← blocks.mapM fun b =>
    match b.ids with
    | [] => (.ok [] : Except Err (List (DMessage F)))
    | l :: _ => do
      let (ids, extended) ← loadFrameIds b l
      ids.mapM fun i => loadMessage T strict signals enums senders blocks b l i extended
  return messages.flatten

/-- sym.py:997: `re.search('^FormatVersion=6.0', string, re.MULTILINE)`, for a text at the start of a line;
`.` is any character but the end of the line. -/
def startsWithVersion (s : Chars) : Bool :=
  match stripPrefix "FormatVersion=6".toList s with
  | some (c :: '0' :: _) => decide (c ≠ '\n')
  | _ => false

/-- sym.py:997: the text has a line with the version. -/
def hasVersion (s : Chars) : Bool := startsWithVersion s || go s
where
  /-- after the end of a line -/
  go : Chars → Bool
    | [] => false
    | c :: r => (decide (c = '\n') && startsWithVersion r) || go r

/-- sym.py:1002-1010 `load_string`, after the text has been parsed; 760-765 `_load_messages`, 768-769
`_load_version`. -/
def loadDoc (T : FloatText F) (strict : Bool) (d : Doc) : Except Err (DDatabase F) := do
  let enums ← loadEnums d.enums
  let signals ← loadSignals T enums d.signals
  let send ← loadSection T strict signals enums [ecu] d.send
  let receive ← loadSection T strict signals enums [peripherals] d.receive
  let sendReceive ← loadSection T strict signals enums [ecu, peripherals] d.sendReceive
  return { messages := send ++ receive ++ sendReceive, version := some d.version }

/-- sym.py:992-1010 `load_string`. -/
def loadString (T : FloatText F) (strict : Bool) (text : Chars) : Except Err (DDatabase F) := do
  if !hasVersion text then throw .error
  let tokens ← tokenize text
  let d ← parse tokens
  loadDoc T strict d

/-! ### Dumping -/

/-- sym.py:772-773 `_get_signal_name`. -/
def signalName (s : DSignal F) : Chars := s.name.take 32

/-- sym.py:775-780 `_get_enum_name`. -/
def enumName (s : DSignal F) : Chars :=
  (((signalName s).map fun c => if c = ' ' ∨ c = '/' then '_' else c).take 31) ++ ['E']

/-- sym.py:789-794: the values of an enumeration, from the `k`-th on. -/
def choiceTexts (k : Nat) : List (Int × Chars) → Chars
  | [] => []
  | c :: r =>
    (if k % 10 = 0 ∧ k ≠ 0 then [',', '\n'] else if 0 < k then [',', ' '] else []) ++
      (intText c.1 ++ ('=' :: '"' :: (c.2 ++ '"' :: choiceTexts (k + 1) r)))

/-- sym.py:782-796 `_dump_choice`; nothing for a signal without names of values. -/
def dumpChoice (s : DSignal F) : Option Chars :=
  match s.choices with
  | none => none
  | some [] => none
  | some cs => some ("Enum=".toList ++ (enumName s ++ ('(' :: (choiceTexts 0 cs ++ [')']))))

/-- sym.py:801-805, 857-865: the first signal of every name. -/
def firstByName (generated : List Chars) : List (DSignal F) → List (DSignal F)
  | [] => []
  | s :: r => if s.name ∈ generated then firstByName generated r else s :: firstByName (s.name :: generated) r

/-- sym.py:798-813 `_dump_choices`. -/
def dumpChoices (db : DDatabase F) : Chars :=
  match (firstByName [] (db.messages.flatMap (·.signals))).filterMap dumpChoice with
  | [] => []
  | l => "{ENUMS}\n".toList ++ joinC ['\n'] l

/-- sym.py:815-827 `_get_signal_type`. -/
def signalType (T : FloatText F) (s : DSignal F) : Chars :=
  if s.isFloat then if s.length = 64 then "double".toList else "float".toList
  else if s.isSigned then "signed".toList
  else if s.length = 1 ∧ s.minimum.map (·.value T) = some 0 ∧ s.maximum.map (·.value T) = some 1 then "bit".toList
  else "unsigned".toList

/-- The truth value of an attribute. -/
def truthy (T : FloatText F) : AttrVal F → Bool
  | .num n => decide (n.value T ≠ 0)
  | .str t => !t.isEmpty

/-- sym.py:829-852 `_dump_signal`. -/
def dumpSignal (T : FloatText F) (s : DSignal F) : Chars :=
  "Sig=\"".toList ++ (signalName s ++ ("\" ".toList ++ (signalType T s ++ (' ' :: (decimal s.length ++
  ((if s.byteOrder = .big then " -m".toList else []) ++
  ((match s.unit with | none => [] | some [] => [] | some u => " /u:\"".toList ++ (u ++ ['"'])) ++
  ((if s.scale.value T ≠ 1 then " /f:".toList ++ s.scale.text T else []) ++
  ((if s.offset.value T ≠ 0 then " /o:".toList ++ s.offset.text T else []) ++
  ((match s.maximum with | none => [] | some n => " /max:".toList ++ n.text T) ++
  ((match s.minimum with | none => [] | some n => " /min:".toList ++ n.text T) ++
  ((match s.spn with | none => [] | some v => if truthy T v then " /spn:".toList ++ v.text T else []) ++
  ((match s.choices with | none => [] | some [] => [] | some _ => " /e:".toList ++ enumName s) ++
  (match s.comment with | none => [] | some [] => [] | some c => " // ".toList ++ c))))))))))))))

/-- sym.py:854-871 `_dump_signals`. -/
def dumpSignals (T : FloatText F) (sort : List (DSignal F) → List (DSignal F)) (db : DDatabase F) : Chars :=
  match (firstByName [] (db.messages.flatMap fun m => sort m.signals)).map (dumpSignal T) with
  | [] => []
  | l => "{SIGNALS}\n".toList ++ joinC ['\n'] l

/-- `f'{i:0{width}X}'`. -/
def hexText (width : Nat) (i : Int) : Chars :=
  if i < 0 then '-' :: (List.replicate (width - 1 - (Kcd.hexadecimal i.natAbs).length) '0' ++ Kcd.hexadecimal i.natAbs)
  else List.replicate (width - (Kcd.hexadecimal i.natAbs).length) '0' ++ Kcd.hexadecimal i.natAbs

/-- sym.py:888-901: the text of a frame id. -/
def idText (m : DMessage F) (i : Int) : Chars := hexText (if m.isExtendedFrame then 8 else 3) i ++ ['h']

/-- sym.py:905-913: the selector of a message; a selector without name is an error. -/
def dumpMux (id : Int) (s : DSignal F) : Except Err Chars :=
  if s.name = [] then .error .valueError
  else .ok ("Mux=\"".toList ++ (s.name ++ ("\" ".toList ++ (intText (convertStart s.start s.byteOrder) ++
    (',' :: (decimal s.length ++ (' ' :: (hexText 0 id ++ ('h' :: ' ' ::
    ((if s.byteOrder = .big then "-m".toList else []) ++ ['\n']))))))))))

/-- sym.py:873-916 `_dump_message`. -/
def dumpMessage (T : FloatText F) (m : DMessage F) (signals : List (DSignal F)) (first last : Option Int)
    (mux : Option (Int × DSignal F)) : Except Err Chars := do
  let muxText ← (match mux with
    | none => .ok []
    | some (id, s) => dumpMux id s : Except Err Chars)
  return "[\"".toList ++ (m.name ++ ("\"]\n".toList ++
    ((match first with | none => [] | some i => "ID=".toList ++ idText m i) ++
    ((match last with | none => [] | some i => '-' :: idText m i) ++
    ((match first, m.comment with | some _, some c => " // ".toList ++ c | _, _ => []) ++
    ((match first with | none => [] | some _ => ['\n']) ++
    ((if m.isExtendedFrame then "Type=Extended\n".toList else []) ++
    ("Len=".toList ++ (decimal m.length ++ ('\n' ::
    ((match m.cycleTime with
      | none => []
      | some n => if n.value T ≠ 0 then "CycleTime=".toList ++ (n.text T ++ ['\n']) else []) ++
    (muxText ++
    signals.flatMap fun s =>
      "Sig=\"".toList ++ (signalName s ++ ("\" ".toList ++ (intText (convertStart s.start s.byteOrder) ++ ['\n'])))))))))))))))

/-- message.py:1281-1311: the signal tree of the message. -/
def signalTree (T : FloatText F) (m : DMessage F) : Except Err SigTree :=
  match createCodec (m.signals.map (·.core T)) (m.signals.length + 1) none none with
  | none => .error .recursionError
  | some c => .ok (treeOfCodec c)

/-- message.py:1204-1205 `get_signal_by_name`. -/
def signalNamed (m : DMessage F) (name : String) : Except Err (DSignal F) :=
  match m.signals.reverse.find? fun s => s.name == name.toList with
  | some s => .ok s
  | none => .error .keyError

/-- sym.py:954: the signals of a branch; a selector among them is a dictionary, which is not
hashable. -/
def branchNames : SigTree → Except Err (List String)
  | .nil => .ok []
  | .leaf n r => (branchNames r).map (n :: ·)
  | .mux _ _ _ => .error .typeError

/-- sym.py:943-947: the names on the first level that are not selectors. -/
def plainNames : SigTree → List String
  | .nil => []
  | .leaf n r => n :: plainNames r
  | .mux _ _ r => plainNames r

/-- sym.py:953-956: the branches of a selector; only the first one is written with the frame id. -/
def dumpBranches (T : FloatText F) (m : DMessage F) (plain : List String) (selector : String) (last : Option Int) :
    Option Int → TreeBranches → Except Err (List Chars)
  | _, .nil => .ok []
  | first, .cons id tree rest => do
    let names ← branchNames tree
    let signals ← names.mapM (signalNamed m)
    let others ← plain.mapM (signalNamed m)
    let s ← signalNamed m selector
    let text ← dumpMessage T m (signals ++ others) first last (some (id, s))
    let more ← dumpBranches T m plain selector last none rest
    return text :: more

/-- sym.py:949-956: the selectors on the first level. -/
def dumpMuxes (T : FloatText F) (m : DMessage F) (plain : List String) (first : Int) (last : Option Int) :
    SigTree → Except Err (List Chars)
  | .nil => .ok []
  | .leaf _ r => dumpMuxes T m plain first last r
  | .mux name branches r => do
    let texts ← dumpBranches T m plain name last (some first) branches
    let more ← dumpMuxes T m plain first last r
    return texts ++ more

/-- message.py:1207-1222 `is_multiplexed`: there is a selector on the first level. -/
def hasMux : SigTree → Bool
  | .nil => false
  | .leaf _ r => hasMux r
  | .mux _ _ _ => true

/-- `itertools.groupby` by name. -/
def groupByName : List (DMessage F) → List (DMessage F × List (DMessage F))
  | [] => []
  | m :: r =>
    match groupByName r with
    | [] => [(m, [])]
    | (m', l) :: g => if m'.name = m.name then (m, m' :: l) :: g else (m, []) :: (m', l) :: g

/-- `min(…, key=lambda m: m.frame_id)` of a message and others. -/
def minMessage : DMessage F → List (DMessage F) → DMessage F
  | m, [] => m
  | m, m' :: r => minMessage (if m'.frameId < m.frameId then m' else m) r

/-- `max(…, key=lambda m: m.frame_id).frame_id`. -/
def maxFrameId : Int → List (DMessage F) → Int
  | i, [] => i
  | i, m :: r => maxFrameId (if i < m.frameId then m.frameId else i) r

/-- sym.py:926-965: the messages of one name: the senders, and the texts. -/
def dumpGroup (T : FloatText F) (g : DMessage F × List (DMessage F)) : Except Err (List Chars × List Chars) := do
  let m := minMessage g.1 g.2
  let last ← (if g.2 = [] then .ok none
    else
      let hi := maxFrameId g.1.frameId g.2
      if hi - m.frameId + 1 ≠ (g.2.length + 1 : Nat) then .error .valueError else .ok (some hi) :
      Except Err (Option Int))
  let tree ← signalTree T m
  let texts ← (if hasMux tree then dumpMuxes T m (plainNames tree) m.frameId last tree
    else (dumpMessage T m m.signals (some m.frameId) last none).map ([·]) : Except Err (List Chars))
  return (m.senders, texts)

/-- sym.py:968-973: one section. -/
def sectionText (header : String) : List Chars → Chars
  | [] => []
  | l => header.toList ++ (joinC ['\n'] l ++ ['\n'])

/-- sym.py:918-974 `_dump_messages`. -/
def dumpMessages (T : FloatText F) (db : DDatabase F) : Except Err Chars := do
  let groups ← (groupByName (pySorted (fun a b => decide (a.name ≤ b.name)) db.messages)).mapM (dumpGroup T)
  let send := (groups.filter fun g => decide (g.1 = [ecu])).flatMap (·.2)
  let receive := (groups.filter fun g => decide (g.1 = [peripherals])).flatMap (·.2)
  let others := (groups.filter fun g => !decide (g.1 = [ecu]) && !decide (g.1 = [peripherals])).flatMap (·.2)
  return sectionText "{SEND}\n" send ++ (sectionText "{RECEIVE}\n" receive ++ sectionText "{SENDRECEIVE}\n" others)

/-- sym.py:976-990 `dump_string`; `sort` is the identity for `sort_signals=None`. -/
def dumpString (T : FloatText F) (sort : List (DSignal F) → List (DSignal F)) (db : DDatabase F) :
    Except Err Chars := do
  let messages ← dumpMessages T db
  return "FormatVersion=6.0 // Do not edit this line!\nTitle=\"SYM Database\"\n\n".toList ++
    (dumpChoices db ++ ("\n\n".toList ++ (dumpSignals T sort db ++ ("\n\n".toList ++ messages))))

end Cantools.Sym
