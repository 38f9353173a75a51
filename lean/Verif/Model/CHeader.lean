import Mathlib.Data.List.Sort
import Verif.Model.CConvert
import Verif.Model.CNames

/-!
database/can/c_source.py: the interface of the generated C code: macros, structs, declarations and the prototypes of
the definitions, and the `…_init` functions.

Texts that are only comments are left out, and so are the include guard and the helper functions, which are `static`.
-/

namespace Cantools.C
open Cantools

abbrev Chars := List Char

/-- What the generator uses of a signal (database/can/signal.py:46-154): also the receivers and the raw initial value. -/
structure GenSignal where
  signal : Signal
  receivers : List String := []
  rawInitial : Option Rat := none
  deriving DecidableEq, Repr

/-- What the generator uses of a message (database/can/message.py:64-143). -/
structure GenMessage where
  name : String
  frameId : Nat
  length : Nat
  isExtended : Bool := false
  cycleTime : Option Nat := none
  senders : List String := []
  signals : List GenSignal := []
  deriving DecidableEq, Repr

/-- c_source.py:1757-1767: the parameters of `generate`. -/
structure Options where
  database : Chars
  floatingPoint : Bool := true
  bitFields : Bool := false
  useFloat : Bool := false
  node : Option String := none
  deriving DecidableEq, Repr

/-- Types in prototypes. -/
inductive Ty where
  | int
  | bool
  | size
  | value (t : CType)
  | bytes (const : Bool)
  | struct (const : Bool) (name : Chars)
  deriving DecidableEq, Repr

/-- A prototype. -/
structure Proto where
  name : Chars
  result : Ty
  params : List Ty
  deriving DecidableEq, Repr

def under (a b : Chars) : Chars := a ++ ('_' :: b)

/-- c_source.py:628-630: `snake_name`. -/
def GenSignal.snake (s : GenSignal) : Chars := camelToSnake s.signal.name.toList

/-- c_source.py:828-830: `snake_name`. -/
def GenMessage.snake (m : GenMessage) : Chars := camelToSnake m.name.toList

/-- `{database_name}_{message_name}`. -/
def Options.stem (o : Options) (m : GenMessage) : Chars := under o.database m.snake

/-- `struct {database_name}_{message_name}_t`. -/
def Options.structName (o : Options) (m : GenMessage) : Chars := under (o.stem m) ['t']

/-- c_source.py:1467-1468 `_is_sender`. -/
def isSender (o : Options) (m : GenMessage) : Bool :=
  match o.node with
  | none => true
  | some n => m.senders.contains n

/-- c_source.py:1471-1472 `_is_receiver`. -/
def isReceiver (o : Options) (s : GenSignal) : Bool :=
  match o.node with
  | none => true
  | some n => s.receivers.contains n

/-- c_source.py:1475-1478 `_is_sender_or_receiver`. -/
def isSenderOrReceiver (o : Options) (m : GenMessage) : Bool := isSender o m || m.signals.any (isReceiver o)

/-- c_source.py:1481-1482 `_get_floating_point_type`. -/
def fpTy (single : Bool) : Ty := .value (if single then .float else .double)

/-- c_source.py:362-377, 509-526, 578-589. -/
def packProto (o : Options) (m : GenMessage) : Proto :=
  ⟨under (o.stem m) "pack".toList, .int, [.bytes false, .struct true (o.structName m), .size]⟩

/-- c_source.py:379-394, 528-543, 591-602. -/
def unpackProto (o : Options) (m : GenMessage) : Proto :=
  ⟨under (o.stem m) "unpack".toList, .int, [.struct false (o.structName m), .bytes true, .size]⟩

/-- c_source.py:447-456, 458-467. -/
def initProto (o : Options) (m : GenMessage) : Proto :=
  ⟨under (o.stem m) "init".toList, .int, [.struct false (o.structName m)]⟩

/-- The name of a function of a signal. -/
def signalFunction (o : Options) (m : GenMessage) (s : GenSignal) (suffix : String) : Chars :=
  under (under (o.stem m) s.snake) suffix.toList

/-- c_source.py:396-406, 545-551. -/
def encodeProto (o : Options) (m : GenMessage) (single : Bool) (s : GenSignal) : Proto :=
  ⟨signalFunction o m s "encode", .value (typeName s.signal), [fpTy single]⟩

/-- c_source.py:408-418, 553-559. -/
def decodeProto (o : Options) (m : GenMessage) (single : Bool) (s : GenSignal) : Proto :=
  ⟨signalFunction o m s "decode", fpTy single, [.value (typeName s.signal)]⟩

/-- c_source.py:420-429, 561-567. -/
def inRangeProto (o : Options) (m : GenMessage) (s : GenSignal) : Proto :=
  ⟨signalFunction o m s "is_in_range", .bool, [.value (typeName s.signal)]⟩

/-- c_source.py:431-445, 569-576. -/
def inPhysRangeProto (o : Options) (m : GenMessage) (single : Bool) (s : GenSignal) : Proto :=
  ⟨signalFunction o m s "is_in_phys_range", .bool, [fpTy single]⟩

/-- c_source.py:1497-1532 and 1574-1632: the functions of a signal; both loops have the same conditions. -/
def signalProtos (o : Options) (m : GenMessage) (single : Bool) (s : GenSignal) : List Proto :=
  if isSender o m || isReceiver o s then
    (if o.floatingPoint then
      (if isSender o m then [encodeProto o m single s] else []) ++
      (if o.node.isNone || isReceiver o s then [decodeProto o m single s] else [])
    else []) ++ [inRangeProto o m s, inPhysRangeProto o m single s]
  else []

/-- c_source.py:1495, 1498-1499: `is_receiver`. -/
def receives (o : Options) (m : GenMessage) : Bool := o.node.isNone || m.signals.any (isReceiver o)

/-- The functions of a message. -/
def messageProtos (o : Options) (m : GenMessage) : List Proto :=
  (if isSender o m then [packProto o m] else []) ++ (if receives o m then [unpackProto o m] else []) ++
    (if isSender o m || receives o m then [initProto o m] else [])

/-- c_source.py:1485-1554 `_generate_declarations`. -/
def declarations (o : Options) (ms : List GenMessage) : List Proto :=
  ms.flatMap fun m => messageProtos o m ++ m.signals.flatMap (signalProtos o m o.useFloat)

/-- c_source.py:1557-1689 `_generate_definitions`: the prototypes. -/
def definitions (o : Options) (ms : List GenMessage) : List Proto :=
  ms.flatMap fun m =>
    (if 0 < m.length then messageProtos o m else [packProto o m, unpackProto o m]) ++
      m.signals.flatMap fun s => signalProtos o m (usesFloat s.signal o.useFloat) s

/-! ### Structs -/

/-- A member of a struct, with its length if it is a bit field. -/
structure Member where
  type : CType
  name : Chars
  bits : Option Nat
  deriving DecidableEq, Repr

/-- c_source.py:908-927 `_generate_signal`. -/
def member (bitFields : Bool) (s : GenSignal) : Member :=
  ⟨typeName s.signal, s.snake, if s.signal.conversion.isFloat || !bitFields then none else some s.signal.length⟩

/-- c_source.py:1206-1225 `_generate_struct`. -/
def members (bitFields : Bool) (m : GenMessage) : List Member :=
  if m.signals.isEmpty then [⟨.uint 8, "dummy".toList, none⟩] else m.signals.map (member bitFields)

/-- c_source.py:1448-1464 `_generate_structs`. -/
def structs (o : Options) (ms : List GenMessage) : List (Chars × List Member) :=
  (ms.filter (isSenderOrReceiver o)).map fun m => (o.structName m, members o.bitFields m)

/-! ### Macros -/

/-- The text of a macro. -/
inductive MacroValue where
  | hex (n : Nat)
  | unsigned (n : Int)
  | plain (n : Int)
  | string (s : String)
  deriving DecidableEq, Repr

def upper (l : Chars) : Chars := l.map Char.toUpper

/-- `{database_name.upper()}_{cg_message.snake_name.upper()}`. -/
def Options.upperStem (o : Options) (m : GenMessage) : Chars := under (upper o.database) (upper m.snake)

/-- c_source.py:1360-1366 `_generate_frame_id_defines`. -/
def frameIdMacros (o : Options) (ms : List GenMessage) : List (Chars × MacroValue) :=
  (ms.filter (isSenderOrReceiver o)).map fun m => (under (o.upperStem m) "FRAME_ID".toList, .hex m.frameId)

/-- c_source.py:1369-1377 `_generate_frame_length_defines`. -/
def lengthMacros (o : Options) (ms : List GenMessage) : List (Chars × MacroValue) :=
  (ms.filter (isSenderOrReceiver o)).map fun m => (under (o.upperStem m) "LENGTH".toList, .unsigned m.length)

/-- c_source.py:1380-1389 `_generate_frame_cycle_time_defines`. -/
def cycleTimeMacros (o : Options) (ms : List GenMessage) : List (Chars × MacroValue) :=
  (ms.filter (isSenderOrReceiver o)).flatMap fun m =>
    match m.cycleTime with
    | some t => [(under (o.upperStem m) "CYCLE_TIME_MS".toList, .unsigned t)]
    | none => []

/-- c_source.py:1392-1400 `_generate_is_extended_frame_defines`. -/
def extendedMacros (o : Options) (ms : List GenMessage) : List (Chars × MacroValue) :=
  (ms.filter (isSenderOrReceiver o)).map fun m =>
    (under (o.upperStem m) "IS_EXTENDED".toList, .plain (if m.isExtended then 1 else 0))

/-- c_source.py:1228-1241 `_format_choices`. -/
def choiceMacros (o : Options) (m : GenMessage) (s : GenSignal) : List (Chars × MacroValue) :=
  match s.signal.conversion.choices with
  | none => []
  | some cs => ((uniqueChoices cs).insertionSort fun a b => a.1 ≤ b.1).map fun e =>
      (under (o.upperStem m) (under (under (upper s.snake) e.2) "CHOICE".toList),
        if s.signal.isSigned then .plain e.1 else .unsigned e.1)

/-- c_source.py:1403-1423 `_generate_choices_defines`. -/
def choicesMacros (o : Options) (ms : List GenMessage) : List (Chars × MacroValue) :=
  ms.flatMap fun m => m.signals.flatMap fun s =>
    if isSender o m || isReceiver o s then choiceMacros o m s else []

/-- c_source.py:1426-1434 `_generate_frame_name_macros`. -/
def nameMacros (o : Options) (ms : List GenMessage) : List (Chars × MacroValue) :=
  (ms.filter (isSenderOrReceiver o)).map fun m => (under (o.upperStem m) "NAME".toList, .string m.name)

/-- c_source.py:1437-1445 `_generate_signal_name_macros`. -/
def signalNameMacros (o : Options) (ms : List GenMessage) : List (Chars × MacroValue) :=
  (ms.filter (isSenderOrReceiver o)).flatMap fun m => m.signals.map fun s =>
    (under (o.upperStem m) (under (upper s.snake) "NAME".toList), .string s.signal.name)

/-- c_source.py:1805-1820, in the order of the header (lines 70-89). -/
def macros (o : Options) (ms : List GenMessage) : List (Chars × MacroValue) :=
  frameIdMacros o ms ++ lengthMacros o ms ++ extendedMacros o ms ++ cycleTimeMacros o ms ++ choicesMacros o ms ++
    nameMacros o ms ++ signalNameMacros o ms

/-! ### Initial values -/

/-- The truth value of a value in python. -/
def truthy : Value → Bool
  | .num q => decide (q ≠ 0)
  | .str s => decide (s ≠ "")
  | .named _ => true

/-- database/can/signal.py:101-103: `initial`. -/
def GenSignal.initial (s : GenSignal) : Option Value := s.rawInitial.map fun r => s.signal.conversion.rawToScaled r true

/-- c_source.py:1635-1637: the assignments in `…_init`. -/
def initBody (m : GenMessage) : List (GenSignal × Rat) :=
  m.signals.flatMap fun s =>
    match s.initial, s.rawInitial with
    | some v, some r => if truthy v then [(s, r)] else []
    | _, _ => []

/-- One assignment; a number that does not fit into the type of the member is treated as undefined. -/
def assign (st : List (Chars × Rat)) (a : GenSignal × Rat) : Except CErr (List (Chars × Rat)) := do
  pure (dictSet st a.1.snake (← toType (typeName a.1.signal) a.2))

/-- c_source.py:458-467: the function `…_init`; the members after it. -/
def init (m : GenMessage) : Except CErr (List (Chars × Rat)) :=
  (initBody m).foldlM assign ((members false m).map fun x => (x.name, 0))

end Cantools.C
