import Verif.Model.DbcLex
import Verif.Model.Kcd

/-
database/can/formats/dbc.py: `dump_string` and `load_string`.

Relation attributes (`BA_DEF_REL_`, `BA_DEF_DEF_REL_`, `BA_REL_`) are read by the grammar but dropped here; they
are treated in `Verif/Model/DbcRelations.lean`.  Not modelled: the options `sort_attributes` and `sort_choices`.
-/

namespace Cantools.Dbc
open Cantools

/-! ### Numbers -/

/-- A python number. -/
inductive Num (F : Type) where
  | int (i : Int)
  | float (f : F)
  deriving DecidableEq, Repr

/-- Finite floating point numbers as text: `str(f)`, `float(text)`, `float(i)` of an integer, and
the value. -/
structure FloatText (F : Type) where
  show_ : F → Chars
  read : Chars → Except Err F
  ofInt : Int → F
  value : F → Rat

variable {F : Type}

/-- `str(i)`. -/
def intText (i : Int) : Chars := if i < 0 then '-' :: decimal i.natAbs else decimal i.natAbs

/-- `str(n)`. -/
def Num.text (T : FloatText F) : Num F → Chars
  | .int i => intText i
  | .float f => T.show_ f

def Num.value (T : FloatText F) : Num F → Rat
  | .int i => i
  | .float f => T.value f

/-- `float(n)`. -/
def Num.toFloat (T : FloatText F) : Num F → F
  | .int i => T.ofInt i
  | .float f => f

/-- `int(text)`, without white space and underscores. -/
def readInt : Chars → Except Err Int
  | '+' :: '-' :: _ => .error .valueError
  | '+' :: r => Kcd.readInt (String.ofList r)
  | r => Kcd.readInt (String.ofList r)

/-- `int(text, 0)` for the text of a `NUMBER`: leading zeros are not allowed. -/
def readIntBase0 (t : Chars) : Except Err Int :=
  match (takeSign t).2 with
  | '0' :: d :: r => if (d :: r).all (· = '0') then readInt t else .error .valueError
  | _ => readInt t

/-- can/formats/utils.py:3-13 `num`. -/
def num (T : FloatText F) (t : Chars) : Except Err (Num F) :=
  match readInt t with
  | .ok i => .ok (.int i)
  | .error _ => (T.read t).map .float

/-- The number that is written with some decimal digits. -/
def digitsValue (d : Chars) : Nat := d.foldl (fun n c => 10 * n + (c.toNat - 48)) 0

/-- `Decimal(text)`, for digits with sign, decimal point and exponent; anything else is an error
here. -/
def readDecimal (t : Chars) : Except Err Rat :=
  let (sign, r) := takeSign t
  let (d, r1) := r.span isDigit
  if d = [] then .error .error
  else
    let (_, r2) := takePoint r1
    let (frac, r3) := r2.span isDigit
    let (exp, r4) := takeExponent r3
    if r4 ≠ [] then .error .error
    else
      let (esign, e) := takeSign exp.tail
      let mantissa : Rat := (digitsValue (d ++ frac) : Rat) / 10 ^ frac.length
      let value := if esign = ['-'] then mantissa / 10 ^ digitsValue e else mantissa * 10 ^ digitsValue e
      .ok (if sign = ['-'] then -value else value)

/-- dbc.py:311-314 `to_int` of a text: `int(Decimal(text))`. -/
def toInt (t : Chars) : Except Err Int := (readDecimal t).map pyInt

/-- dbc.py:316-319 `to_float` of a text: `float(Decimal(text))`. -/
def toFloat (T : FloatText F) (t : Chars) : Except Err F := T.read t

/-! ### Databases -/

/-- The value of an attribute. -/
inductive AttrVal (F : Type) where
  | num (n : Num F)
  | str (s : Chars)
  deriving DecidableEq, Repr

/-- `str(value)`. -/
def AttrVal.text (T : FloatText F) : AttrVal F → Chars
  | .num n => n.text T
  | .str s => s

/-- can/attribute_definition.py:6-26 `AttributeDefinition`. -/
structure AttrDef (F : Type) where
  name : Chars
  default : Option (AttrVal F) := none
  kind : Option String := none
  typeName : Option String := none
  minimum : Option (Num F) := none
  maximum : Option (Num F) := none
  choices : List Chars := []
  deriving DecidableEq, Repr

/-- can/attribute.py:6-15 `Attribute`. -/
structure Attr (F : Type) where
  value : AttrVal F
  definition : AttrDef F
  deriving DecidableEq, Repr

/-- A dictionary of attributes. -/
abbrev Attrs (F : Type) := List (Chars × Attr F)

/-- A dictionary of attribute definitions. -/
abbrev Defs (F : Type) := List (Chars × AttrDef F)

/-- A signal.  Names of values are only their text. -/
structure DSignal (F : Type) where
  name : Chars
  start : Nat
  length : Nat
  byteOrder : ByteOrder := .little
  isSigned : Bool := false
  scale : Num F := .int 1
  offset : Num F := .int 0
  isFloat : Bool := false
  minimum : Option (Num F) := none
  maximum : Option (Num F) := none
  unit : Option Chars := none
  receivers : List Chars := []
  comment : Option Chars := none
  choices : Option (List (Int × Chars)) := none
  isMultiplexer : Bool := false
  multiplexerIds : Option (List Int) := none
  multiplexerSignal : Option Chars := none
  rawInitial : Option (Num F) := none
  spn : Option (AttrVal F) := none
  attributes : Attrs F := []
  deriving DecidableEq, Repr

/-- The signal as the encoder sees it. -/
def DSignal.core (T : FloatText F) (s : DSignal F) : Signal :=
  { name := String.ofList s.name, start := s.start, length := s.length, byteOrder := s.byteOrder,
    isSigned := s.isSigned,
    conversion := .factory (s.scale.value T) (s.offset.value T)
      (s.choices.map fun cs => cs.map fun e => (e.1, .named { value := e.1, name := String.ofList e.2 }))
      s.isFloat,
    minimum := s.minimum.map (·.value T), maximum := s.maximum.map (·.value T),
    isMultiplexer := s.isMultiplexer, multiplexerIds := s.multiplexerIds,
    multiplexerSignal := s.multiplexerSignal.map String.ofList }

/-- can/signal_group.py:4-17 `SignalGroup`. -/
structure DGroup where
  name : Chars
  repetitions : Int := 1
  signalNames : List Chars := []
  deriving DecidableEq, Repr

/-- A message.  A message without DBC specifics has no attributes here. -/
structure DMessage (F : Type) where
  frameId : Int
  isExtendedFrame : Bool := false
  name : Chars
  length : Nat
  senders : List Chars := []
  sendType : Option Chars := none
  cycleTime : Option (Num F) := none
  comment : Option Chars := none
  protocol : Option Chars := none
  busName : Option Chars := none
  isFd : Bool := false
  signals : List (DSignal F) := []
  signalGroups : Option (List DGroup) := none
  attributes : Attrs F := []
  deriving DecidableEq, Repr

/-- can/node.py:12-34 `Node`. -/
structure DNode (F : Type) where
  name : Chars
  comment : Option Chars := none
  attributes : Attrs F := []
  deriving DecidableEq, Repr

/-- can/bus.py:11-31 `Bus`; `fd_baudrate` is never written. -/
structure DBus where
  name : Chars
  baudrate : Option Int := none
  comment : Option Chars := none
  deriving DecidableEq, Repr

/-- can/environment_variable.py:7-34 `EnvironmentVariable`. -/
structure DEnvvar (F : Type) where
  name : Chars
  envType : Int
  minimum : Num F
  maximum : Num F
  unit : Chars
  initialValue : Num F
  envId : Int
  accessType : Chars
  accessNode : Chars
  comment : Option Chars := none
  attributes : Attrs F := []
  deriving DecidableEq, Repr

/-- can/internal_database.py:11-28 `InternalDatabase` with its DBC specifics. -/
structure DDatabase (F : Type) where
  messages : List (DMessage F) := []
  nodes : List (DNode F) := []
  buses : List DBus := []
  version : Option Chars := none
  attributes : Attrs F := []
  definitions : Defs F := []
  envvars : List (Chars × DEnvvar F) := []
  valueTables : List (Chars × List (Int × Chars)) := []
  deriving DecidableEq, Repr

/-! ### Names -/

/-- What python says about a character: `\w` and `isdigit()`. -/
structure Unicode where
  word : Char → Bool
  digit : Char → Bool

/-- dbc.py:566-573 `get_dbc_name`; the empty name has no first character. -/
def getDbcName (U : Unicode) (name : Chars) : Except Err Chars :=
  match name.map fun c => if U.word c then c else '_' with
  | [] => .error .indexError
  | c :: r => .ok (if U.digit c then '_' :: c :: r else c :: r)

/-- A node gets a new name: dbc.py:2061-2069, 2098-2106. -/
def renameNode (old new : Chars) (messages : List (DMessage F)) : List (DMessage F) :=
  messages.map fun m =>
    { m with
      senders := m.senders.map fun x => if x = old then new else x
      signals := m.signals.map fun s =>
        { s with receivers := s.receivers.map fun x => if x = old then new else x } }

/-- dbc.py:2057-2084 `remove_special_chars`. -/
def removeSpecialChars (U : Unicode) (db : DDatabase F) : Except Err (DDatabase F) := do
  let (messages, nodes) ← db.nodes.foldlM (fun (st : List (DMessage F) × List (DNode F)) node => do
    let new ← getDbcName U node.name
    return (renameNode node.name new st.1, st.2 ++ [{ node with name := new }])) (db.messages, [])
  let messages ← messages.mapM fun m => do
    let name ← getDbcName U m.name
    let signals ← m.signals.mapM fun s => do
      let name ← getDbcName U s.name
      return { s with name := name }
    let groups ← (match m.signalGroups with
      | none => .ok none
      | some gs => (gs.mapM fun (g : DGroup) => do
          let name ← getDbcName U g.name
          let names ← g.signalNames.mapM (getDbcName U)
          return { g with name := name, signalNames := names }).map some : Except Err (Option (List DGroup)))
    return { m with name := name, signals := signals, signalGroups := groups }
  return { db with messages := messages, nodes := nodes }

def systemNode : Chars := "SystemNodeLongSymbol".toList
def systemMessage : Chars := "SystemMessageLongSymbol".toList
def systemSignal : Chars := "SystemSignalLongSymbol".toList
def systemEnvvar : Chars := "SystemEnvVarLongSymbol".toList

/-- dbc.py:238-259: the definition of the attribute for a long name. -/
def longSymbolDef (name : Chars) (kind : String) : AttrDef F :=
  { name := name, default := some (.str []), kind := some kind, typeName := some "STRING" }

/-- dbc.py:2018-2025 `get_attribute_definition`. -/
def getDef (defs : Defs F) (d : AttrDef F) : Defs F × AttrDef F :=
  match dictGet? defs d.name with
  | some d' => (defs, d')
  | none => (dictSet defs d.name d, d)

/-- `d.pop(key)` if the key is there (dbc.py:2052-2054 and elsewhere). -/
def dictPop {α : Type} (d : List (Chars × α)) (k : Chars) : List (Chars × α) := d.filter fun e => e.1 ≠ k

/-- dbc.py:541-555: `LongNamesConverter(names).long_to_short`. -/
def longToShort (names : List Chars) : Except Err (List (Chars × Chars)) :=
  match longNamesConverter names with
  | none => .error .recursionError
  | some r => .ok r.1

/-- The new name, attributes and definitions of an object: dbc.py:2090-2114, 2120-2135, 2168-2182,
2197-2208. -/
def shortName (shorten : Bool) (l2s : List (Chars × Chars)) (sysDef : AttrDef F) (name : Chars)
    (attributes : Attrs F) (defs : Defs F) : Except Err (Chars × Attrs F × Defs F) := do
  let short ← dictGet l2s name
  let attributes := dictPop attributes sysDef.name
  if name = short ∨ !shorten then return (name, attributes, defs)
  let (defs, d) := getDef defs sysDef
  return (short, dictSet attributes sysDef.name { value := .str name, definition := d }, defs)

/-- dbc.py:2087-2114 `make_node_names_unique`. -/
def makeNodeNamesUnique (shorten : Bool) (db : DDatabase F) : Except Err (DDatabase F) := do
  let l2s ← longToShort (db.nodes.map (·.name))
  db.nodes.foldlM (fun (st : DDatabase F) node => do
    let (name, attributes, defs) ←
      shortName shorten l2s (longSymbolDef systemNode "BU_") node.name node.attributes st.definitions
    return { st with
      messages := if name = node.name then st.messages else renameNode node.name name st.messages
      nodes := st.nodes ++ [{ node with name := name, attributes := attributes }]
      definitions := defs }) { db with nodes := [] }

/-- dbc.py:2117-2135 `make_message_names_unique`. -/
def makeMessageNamesUnique (shorten : Bool) (db : DDatabase F) : Except Err (DDatabase F) := do
  let l2s ← longToShort (db.messages.map (·.name))
  db.messages.foldlM (fun (st : DDatabase F) m => do
    let (name, attributes, defs) ←
      shortName shorten l2s (longSymbolDef systemMessage "BO_") m.name m.attributes st.definitions
    return { st with
      messages := st.messages ++ [{ m with name := name, attributes := attributes }]
      definitions := defs }) { db with messages := [] }

/-- dbc.py:2159-2187 `make_signal_names_unique`; relation attributes are in `Verif/Model/DbcRelations.lean`. -/
def makeSignalNamesUnique (shorten : Bool) (db : DDatabase F) : Except Err (DDatabase F) := do
  db.messages.foldlM (fun (st : DDatabase F) m => do
    let l2s ← longToShort (m.signals.map (·.name))
    let (signals, defs) ← m.signals.foldlM (fun (st : List (DSignal F) × Defs F) s => do
      let (name, attributes, defs) ←
        shortName shorten l2s (longSymbolDef systemSignal "SG_") s.name s.attributes st.2
      return (st.1 ++ [{ s with name := name, attributes := attributes }], defs)) ([], st.definitions)
    let groups ← (match m.signalGroups with
      | none => .ok none
      | some gs =>
        if shorten then
          (gs.mapM fun (g : DGroup) => do
            let names ← g.signalNames.mapM (dictGet l2s)
            return { g with signalNames := names }).map some
        else .ok (some gs) : Except Err (Option (List DGroup)))
    return { st with
      messages := st.messages ++ [{ m with signals := signals, signalGroups := groups }]
      definitions := defs }) { db with messages := [] }

/-- dbc.py:2190-2208 `make_envvar_names_unique`. -/
def makeEnvvarNamesUnique (shorten : Bool) (db : DDatabase F) : Except Err (DDatabase F) := do
  let l2s ← longToShort (db.envvars.map (·.2.name))
  db.envvars.foldlM (fun (st : DDatabase F) e => do
    let (name, attributes, defs) ←
      shortName shorten l2s (longSymbolDef systemEnvvar "EV_") e.2.name e.2.attributes st.definitions
    return { st with
      envvars := st.envvars ++ [(e.1, { e.2 with name := name, attributes := attributes })]
      definitions := defs }) { db with envvars := [] }

/-- dbc.py:2211-2222 `make_names_unique`. -/
def makeNamesUnique (shorten : Bool) (db : DDatabase F) : Except Err (DDatabase F) := do
  let db ← makeNodeNamesUnique shorten db
  let db ← makeMessageNamesUnique shorten db
  let db ← makeSignalNamesUnique shorten db
  makeEnvvarNamesUnique shorten db

/-! ### Writing -/

/-- `sep.join(parts)`. -/
def joinC (sep : Chars) : List Chars → Chars
  | [] => []
  | [x] => x
  | x :: y :: r => x ++ (sep ++ joinC sep (y :: r))

def crlf : Chars := ['\r', '\n']

def vectorXXX : Chars := "Vector__XXX".toList

/-- dbc.py:558-564, as text. -/
def frameIdText (m : DMessage F) : Chars := intText (dbcFrameId m.frameId m.isExtendedFrame)

/-- dbc.py:607, 1093: a number and its name. -/
def pairText (e : Int × Chars) : Chars := intText e.1 ++ ' ' :: dumpPlain e.2

/-- `sorted(choices.items(), reverse=True)`: the numbers are distinct. -/
def sortedDescending (cs : List (Int × Chars)) : List (Int × Chars) :=
  pySorted (fun a b => decide (b.1 ≤ a.1)) cs

/-- dbc.py:605-610: a line of `_dump_value_tables`. -/
def valueTableLine (t : Chars × List (Int × Chars)) : Chars :=
  "VAL_TABLE_ ".toList ++ (t.1 ++ (' ' :: (joinC [' '] ((sortedDescending t.2).map pairText) ++ " ;".toList)))

/-- dbc.py:601-612 `_dump_value_tables`, joined (2271). -/
def dumpValueTables (db : DDatabase F) : Chars := joinC crlf (db.valueTables.map valueTableLine ++ [[]])

/-- dbc.py:618-624 `format_mux`. -/
def muxText (s : DSignal F) : Except Err Chars :=
  if s.isMultiplexer then .ok " M".toList
  else
    match s.multiplexerIds with
    | none => .ok []
    | some [] => .error .indexError
    | some (i :: _) => .ok (" m".toList ++ intText i)

/-- dbc.py:626-630 `format_receivers`. -/
def receiversText (s : DSignal F) : Chars :=
  if s.receivers = [] then vectorXXX else ' ' :: joinC [','] s.receivers

/-- dbc.py:661-662. -/
def limitText (T : FloatText F) : Option (Num F) → Chars
  | none => ['0']
  | some n => n.text T

/-- dbc.py:648-663: the line of a signal. -/
def signalLine (T : FloatText F) (s : DSignal F) : Except Err Chars := do
  let mux ← muxText s
  return " SG_ ".toList ++ (s.name ++ (mux ++ (" : ".toList ++ (decimal s.start ++ ('|' ::
    (decimal s.length ++ ('@' :: ((if s.byteOrder = .big then '0' else '1') ::
    ((if s.isSigned then '-' else '+') :: (" (".toList ++ (s.scale.text T ++ (',' ::
    (s.offset.text T ++ (") [".toList ++ (limitText T s.minimum ++ ('|' ::
    (limitText T s.maximum ++ ("] ".toList ++ (dumpPlain (s.unit.getD []) ++ (' ' ::
    receiversText s))))))))))))))))))))

/-- dbc.py:638-665: the lines of a message. -/
def messageLines (T : FloatText F) (sort : List (DSignal F) → List (DSignal F)) (m : DMessage F) :
    Except Err Chars := do
  let lines ← (sort m.signals).mapM (signalLine T)
  return joinC crlf (("BO_ ".toList ++ (frameIdText m ++ (' ' :: (m.name ++ (": ".toList ++
    (decimal m.length ++ (' ' :: (m.senders.head?.getD vectorXXX)))))))) :: lines)

/-- dbc.py:615-667 `_dump_messages`, joined (2272). -/
def dumpMessages (T : FloatText F) (sort : List (DSignal F) → List (DSignal F)) (db : DDatabase F) :
    Except Err Chars := do
  let ms ← db.messages.mapM (messageLines T sort)
  return joinC (crlf ++ crlf) ms

/-- dbc.py:670-680 `_dump_senders`. -/
def dumpSenders (db : DDatabase F) : List Chars :=
  (db.messages.filter fun m => decide (1 < m.senders.length)).map fun m =>
    "BO_TX_BU_ ".toList ++ (frameIdText m ++ (" : ".toList ++ (joinC [','] m.senders ++ [';'])))

/-- dbc.py:683-723 `_dump_comments`. -/
def dumpComments (sort : List (DSignal F) → List (DSignal F)) (db : DDatabase F) : List Chars :=
  (db.buses.flatMap fun b => (b.comment.map fun c => "CM_ ".toList ++ (dumpPlain c ++ [';'])).toList) ++
  (db.nodes.flatMap fun n => (n.comment.map fun c =>
    "CM_ BU_ ".toList ++ (n.name ++ (' ' :: (dumpComment c ++ [';'])))).toList) ++
  (db.messages.flatMap fun m =>
    (m.comment.map fun c => "CM_ BO_ ".toList ++ (frameIdText m ++ (' ' :: (dumpComment c ++ [';'])))).toList ++
    (sort m.signals).flatMap fun s => (s.comment.map fun c =>
      "CM_ SG_ ".toList ++ (frameIdText m ++ (' ' :: (s.name ++ (' ' :: (dumpComment c ++ [';'])))))).toList) ++
  (db.envvars.flatMap fun e => (e.2.comment.map fun c =>
    "CM_ EV_ ".toList ++ (e.2.name ++ (' ' :: (dumpComment c ++ [';'])))).toList)

/-- dbc.py:224-236 `FLOAT_LENGTH_TO_SIGNAL_TYPE`. -/
def signalType : Nat → Except Err Int
  | 32 => .ok 1
  | 64 => .ok 2
  | _ => .error .keyError

/-- dbc.py:726-737 `_dump_signal_types`. -/
def dumpSignalTypes (db : DDatabase F) : Except Err (List Chars) := do
  let ls ← db.messages.mapM fun m => (m.signals.filter (·.isFloat)).mapM fun s => do
    let t ← signalType s.length
    return "SIG_VALTYPE_ ".toList ++ (frameIdText m ++ (' ' :: (s.name ++ (" : ".toList ++ (intText t ++ [';'])))))
  return ls.flatten

def genMsgCycleTime : Chars := "GenMsgCycleTime".toList
def genSigStartValue : Chars := "GenSigStartValue".toList
def genMsgSendType : Chars := "GenMsgSendType".toList
def vFrameFormat : Chars := "VFrameFormat".toList
def baudrate : Chars := "Baudrate".toList
def spnName : Chars := "SPN".toList
def dbName : Chars := "DBName".toList

/-- dbc.py:294-300. -/
def cycleTimeDef : AttrDef F :=
  { name := genMsgCycleTime, default := some (.num (.int 0)), kind := some "BO_", typeName := some "INT",
    minimum := some (.int 0), maximum := some (.int 65535) }

/-- dbc.py:302-308. -/
def startValueDef (T : FloatText F) : AttrDef F :=
  { name := genSigStartValue, default := some (.num (.float (T.ofInt 0))), kind := some "SG_",
    typeName := some "FLOAT", minimum := some (.int 0), maximum := some (.int 100000000000) }

/-- dbc.py:261-266. -/
def baudrateDef : AttrDef F :=
  { name := baudrate, default := some (.num (.int 125000)), typeName := some "INT",
    minimum := some (.int 0), maximum := some (.int 10485760) }

/-- dbc.py:273-280: the names of the frame formats. -/
def frameFormats : List Chars :=
  ["StandardCAN", "ExtendedCAN", "reserved", "J1939PG", "reserved", "reserved", "reserved", "reserved",
   "reserved", "reserved", "reserved", "reserved", "reserved", "reserved", "StandardCAN_FD",
   "ExtendedCAN_FD"].map (·.toList)

/-- dbc.py:268-280. -/
def vFrameFormatDef : AttrDef F :=
  { name := vFrameFormat, default := some (.str "StandardCAN".toList), kind := some "BO_",
    typeName := some "ENUM", choices := frameFormats }

/-- dbc.py:282-287. -/
def canFdBrsDef : AttrDef F :=
  { name := "CANFD_BRS".toList, default := some (.str ['1']), kind := some "BO_", typeName := some "ENUM",
    choices := [['0'], ['1']] }

/-- dbc.py:751-758 `_bus_is_canfd`. -/
def busIsCanFd (db : DDatabase F) : Bool :=
  match dictGet? db.attributes "BusType".toList with
  | none => false
  | some a => match a.value with
    | .str s => decide (s = "CAN FD".toList)
    | .num _ => false

/-- The baud rate that is written: dbc.py:776, 894-896. -/
def busBaudrate (db : DDatabase F) : Option Int :=
  match db.buses with
  | [b] => b.baudrate
  | _ => none

/-- A definition is added if there is none with its name. -/
def addDef (need : Bool) (d : AttrDef F) (defs : Defs F) : Defs F :=
  if need && (dictGet? defs d.name).isNone then dictSet defs d.name d else defs

/-- dbc.py:766-791: the definitions that are written. -/
def syncDefinitions (T : FloatText F) (db : DDatabase F) : Defs F :=
  let defs := addDef (db.messages.any fun m => m.cycleTime.isSome) cycleTimeDef db.definitions
  let defs := addDef (db.messages.any fun m => m.signals.any fun s => s.rawInitial.isSome)
    (startValueDef T) defs
  let defs := if (busBaudrate db).isSome then addDef true baudrateDef defs else dictPop defs baudrate
  let defs := addDef (busIsCanFd db) vFrameFormatDef defs
  addDef (busIsCanFd db) canFdBrsDef defs

/-- can/attribute_definition.py:78-83, 97-102 `formatted_minimum`, `formatted_maximum`. -/
def formattedLimit (T : FloatText F) : Option (Num F) → Chars
  | none => []
  | some n => ' ' :: n.text T

/-- dbc.py:796-807: the line of a definition. -/
def defLine (T : FloatText F) (d : AttrDef F) : Option Chars :=
  let head : Chars := "BA_DEF_ ".toList ++ ((match d.kind with | none => [] | some k => k.toList ++ [' ']) ++
    (' ' :: (dumpPlain d.name ++ [' '])))
  if d.typeName = some "ENUM" then
    some (head ++ ("ENUM  ".toList ++ (joinC [','] (d.choices.map dumpPlain) ++ [';'])))
  else if d.typeName = some "STRING" then some (head ++ "STRING ;".toList)
  else
    match d.typeName with
    | none => none
    | some t =>
      if t = "INT" ∨ t = "FLOAT" ∨ t = "HEX" then
        some (head ++ (t.toList ++ (formattedLimit T d.minimum ++ (formattedLimit T d.maximum ++ [';']))))
      else none

/-- dbc.py:796-809. -/
def dumpDefs (T : FloatText F) (defs : Defs F) : List Chars := defs.filterMap fun e => defLine T e.2

/-- dbc.py:836-854 `_dump_attribute_definition_defaults`. -/
def dumpDefaults (T : FloatText F) (defs : Defs F) : List Chars :=
  defs.filterMap fun e => e.2.default.map fun v =>
    "BA_DEF_DEF_  ".toList ++ (dumpPlain e.2.name ++ (' ' ::
      ((if e.2.typeName = some "STRING" ∨ e.2.typeName = some "ENUM" then dumpPlain (v.text T) else v.text T) ++
        [';'])))

/-- can/attribute.py:37-45 `formatted_value`. -/
def Attr.formatted (T : FloatText F) (a : Attr F) : Chars :=
  if a.definition.typeName = some "STRING" then dumpPlain (a.value.text T) else a.value.text T

/-- `str(definition.kind)`. -/
def kindText (d : AttrDef F) : Chars :=
  match d.kind with
  | none => "None".toList
  | some k => k.toList

/-- dbc.py:995-1037: the line of an attribute; `object` is the part between kind and value. -/
def attrLine (T : FloatText F) (object : Option Chars) (a : Attr F) : Chars :=
  "BA_ ".toList ++ (dumpPlain a.definition.name ++ (' ' ::
    ((match object with | none => [] | some o => kindText a.definition ++ (' ' :: (o ++ [' ']))) ++
      (a.formatted T ++ [';']))))

/-- python `list[i]`. -/
def pyIndex {α : Type} (l : List α) (i : Int) : Except Err α :=
  match l[(if i < 0 then i + l.length else i).toNat]? with
  | some x => if i < 0 ∧ i + l.length < 0 then .error .indexError else .ok x
  | none => .error .indexError

/-- dbc.py:1765-1784 `_get_enum_vframeformat_definition`.  The default of an `INT` is an integer. -/
def enumVFrameFormat (T : FloatText F) (d : AttrDef F) : Except Err (AttrDef F) :=
  if d.typeName ≠ some "INT" then .ok d
  else
    match d.default with
    | none => .error .error
    | some (.num n) => (pyIndex frameFormats (pyInt (n.value T))).map fun s =>
        { vFrameFormatDef with default := some (.str s) }
    | some (.str t) => do
      let i ← readInt t
      let s ← pyIndex frameFormats i
      return { vFrameFormatDef with default := some (.str s) }

/-- dbc.py:944-953: the name of the frame format of a message. -/
def frameFormat (m : DMessage F) : Chars :=
  if m.protocol = some "j1939".toList then "J1939PG".toList
  else if m.isFd && m.isExtendedFrame then "ExtendedCAN_FD".toList
  else if m.isFd then "StandardCAN_FD".toList
  else if m.isExtendedFrame then "ExtendedCAN".toList
  else "StandardCAN".toList

/-- `value == default` for a number. -/
def isDefault (T : FloatText F) (n : Num F) : Option (AttrVal F) → Bool
  | some (.num d) => decide (n.value T = d.value T)
  | _ => false

/-- `value == default` for a text. -/
def isText (t : Chars) : Option (AttrVal F) → Bool
  | some (.str d) => decide (t = d)
  | _ => false

/-- dbc.py:925-937: the attribute for the cycle time of a message.  `cycle_time or 0` is 0 for a
cycle time of 0 or 0.0. -/
def syncCycleTime (T : FloatText F) (defs : Defs F) (m : DMessage F) : Attrs F :=
  let time : Num F := match m.cycleTime with
    | none => .int 0
    | some n => if n.value T = 0 then .int 0 else n
  match dictGet? defs genMsgCycleTime with
  | none => dictPop m.attributes genMsgCycleTime
  | some d =>
    if isDefault T time d.default then dictPop m.attributes genMsgCycleTime
    else dictSet m.attributes genMsgCycleTime { value := .num time, definition := d }

/-- dbc.py:939-963: the attribute for the frame format of a message. -/
def syncFrameFormat (T : FloatText F) (defs : Defs F) (m : DMessage F) (attributes : Attrs F) :
    Except Err (Attrs F) :=
  match dictGet? defs vFrameFormat with
  | none => .ok attributes
  | some d => do
    let d ← enumVFrameFormat T d
    if d.choices.contains (frameFormat m) && !isText (frameFormat m) d.default then
      return dictSet attributes vFrameFormat
        { value := .str (intText (d.choices.idxOf (frameFormat m))), definition := d }
    else return attributes

/-- dbc.py:976-986: the attributes of a signal. -/
def syncStartValue (T : FloatText F) (s : DSignal F) : Attrs F :=
  match s.rawInitial with
  | none => dictPop s.attributes genSigStartValue
  | some n => dictSet s.attributes genSigStartValue
      { value := .num (.float (n.toFloat T)), definition := startValueDef T }

/-- dbc.py:887-904: the attributes of the database. -/
def syncBaudrate (defs : Defs F) (db : DDatabase F) : Except Err (Attrs F) :=
  match busBaudrate db with
  | none => .ok (dictPop db.attributes baudrate)
  | some b =>
    match dictGet? defs baudrate with
    | none => .error .error
    | some d => .ok (dictSet (dictPop db.attributes baudrate) baudrate { value := .num (.int b), definition := d })

/-- dbc.py:920-990: the lines of a message and its signals. -/
def messageAttrs (T : FloatText F) (sort : List (DSignal F) → List (DSignal F)) (defs : Defs F)
    (m : DMessage F) : Except Err (List Chars) := do
  let attributes ← syncFrameFormat T defs m (syncCycleTime T defs m)
  return attributes.map (fun a => attrLine T (some (frameIdText m)) a.2) ++
    (sort m.signals).flatMap fun s =>
      (syncStartValue T s).map fun a => attrLine T (some (frameIdText m ++ ' ' :: s.name)) a.2

/-- dbc.py:879-1039 `_dump_attributes`. -/
def dumpAttributes (T : FloatText F) (sort : List (DSignal F) → List (DSignal F)) (defs : Defs F)
    (db : DDatabase F) : Except Err (List Chars) := do
  let attributes ← syncBaudrate defs db
  let ms ← db.messages.mapM (messageAttrs T sort defs)
  return attributes.map (fun a => attrLine T none a.2) ++
    (db.envvars.flatMap fun e => e.2.attributes.map fun a => attrLine T (some e.2.name) a.2) ++
    (db.nodes.flatMap fun n => n.attributes.map fun a => attrLine T (some n.name) a.2) ++
    ms.flatten

/-- dbc.py:1072-1095 `_dump_choices`. -/
def dumpChoices (sort : List (DSignal F) → List (DSignal F)) (db : DDatabase F) : List Chars :=
  db.messages.flatMap fun m => (sort m.signals).flatMap fun s =>
    (s.choices.map fun cs => "VAL_ ".toList ++ (frameIdText m ++ (' ' :: (s.name ++ (' ' ::
      (joinC [' '] (cs.map pairText) ++ " ;".toList)))))).toList

/-- dbc.py:1098-1116 `_dump_signal_groups`. -/
def dumpSignalGroups (db : DDatabase F) : List Chars :=
  db.messages.flatMap fun m => (m.signalGroups.getD []).map fun g =>
    "SIG_GROUP_ ".toList ++ (frameIdText m ++ (' ' :: (g.name ++ (' ' :: (intText g.repetitions ++
      (" : ".toList ++ (joinC [' '] (g.signalNames.filter fun n => n ∈ m.signals.map (·.name)) ++ [';'])))))))

/-- dbc.py:1119-1139 `_is_extended_mux_needed`. -/
def extendedMuxNeeded (db : DDatabase F) : Bool :=
  db.messages.any fun m =>
    decide (1 < (m.signals.filter (·.isMultiplexer)).length) ||
      m.signals.any fun s => decide (1 < (s.multiplexerIds.getD []).length)

/-- dbc.py:1179-1189: the line of a multiplexed signal. -/
def muxValuesLine (m : DMessage F) (s : DSignal F) : Except Err Chars := do
  let ranges ← createMuxRanges (s.multiplexerIds.getD [])
  return "SG_MUL_VAL_ ".toList ++ (frameIdText m ++ (' ' :: (s.name ++ (' ' ::
    (s.multiplexerSignal.getD "None".toList ++ (' ' ::
    (joinC ", ".toList (ranges.map fun r => intText r.1 ++ '-' :: intText r.2) ++ [';'])))))))

/-- dbc.py:1167-1191 `_dump_signal_mux_values`. -/
def dumpMuxValues (db : DDatabase F) : Except Err (List Chars) :=
  if extendedMuxNeeded db then do
    let ls ← db.messages.mapM fun m =>
      (m.signals.filter fun s => !(s.multiplexerIds.getD []).isEmpty).mapM (muxValuesLine m)
    return ls.flatten
  else .ok []

/-- dbc.py:1194-1208 `_dump_environment_variables`. -/
def dumpEnvvars (T : FloatText F) (db : DDatabase F) : List Chars :=
  db.envvars.map fun (_, e) =>
    "EV_ ".toList ++ (e.name ++ (": ".toList ++ (intText e.envType ++ (" [".toList ++ (e.minimum.text T ++
    ('|' :: (e.maximum.text T ++ ("] ".toList ++ (dumpComment e.unit ++ (' ' :: (e.initialValue.text T ++
    (' ' :: (intText e.envId ++ (' ' :: (e.accessType ++ (' ' :: (e.accessNode ++ [';'])))))))))))))))))

/-- dbc.py:171-198: the list of new symbols. -/
def symbols : List Chars :=
  ["NS_DESC_", "CM_", "BA_DEF_", "BA_", "VAL_", "CAT_DEF_", "CAT_", "FILTER", "BA_DEF_DEF_", "EV_DATA_",
   "ENVVAR_DATA_", "SGTYPE_", "SGTYPE_VAL_", "BA_DEF_SGTYPE_", "BA_SGTYPE_", "SIG_TYPE_REF_",
   "VAL_TABLE_", "SIG_GROUP_", "SIG_VALTYPE_", "SIGTYPE_VALTYPE_", "BO_TX_BU_", "BA_DEF_REL_",
   "BA_REL_", "BA_DEF_DEF_REL_", "BU_SG_REL_", "BU_EV_REL_", "BU_BO_REL_", "SG_MUL_VAL_"].map (·.toList)

/-- Every line followed by an end of line; used for the fixed part of a file. -/
def linesText : List Chars → Chars
  | [] => []
  | l :: r => l ++ (crlf ++ linesText r)

/-- dbc.py:2252-2285, after the names have been made unique, and `DBC_FMT` (166-222). -/
def render (T : FloatText F) (sort sortAttrs : List (DSignal F) → List (DSignal F)) (db : DDatabase F) :
    Except Err Chars := do
  let bo ← dumpMessages T sort db
  let signalTypes ← dumpSignalTypes db
  let defs := syncDefinitions T db
  let ba ← dumpAttributes T sortAttrs defs db
  let mux ← dumpMuxValues db
  return "VERSION ".toList ++ (dumpPlain (db.version.getD []) ++ (linesText [[], [], []] ++
    ("NS_ : ".toList ++ (crlf ++ (linesText (symbols.map ('\t' :: ·)) ++ (crlf ++
    ("BS_:".toList ++ (linesText [[], []] ++
    ("BU_: ".toList ++ (joinC [' '] (db.nodes.map (·.name)) ++ (crlf ++
    (dumpValueTables db ++ (linesText [[], []] ++
    (bo ++ (linesText [[], []] ++
    (joinC crlf (dumpSenders db) ++ (crlf ++
    (joinC (crlf ++ crlf) (dumpEnvvars T db) ++ (linesText [[], []] ++
    (joinC crlf (dumpComments sortAttrs db) ++ (crlf ++
    (joinC crlf (dumpDefs T defs) ++ (crlf ++
    (joinC crlf (dumpDefaults T defs) ++ (crlf ++
    (joinC crlf ba ++ (crlf ++
    (joinC crlf (dumpChoices sortAttrs db) ++ (crlf ++
    (joinC crlf signalTypes ++ (crlf ++
    (joinC crlf (dumpSignalGroups db) ++ (crlf ++
    (joinC crlf mux ++ crlf))))))))))))))))))))))))))))))))))

/-- dbc.py:2225-2285 `dump_string`, for given functions to sort signals. -/
def dumpString (U : Unicode) (T : FloatText F) (sort sortAttrs : List (DSignal F) → List (DSignal F))
    (shorten : Bool) (db : DDatabase F) : Except Err Chars := do
  let db ← removeSpecialChars U db
  let db ← makeNamesUnique shorten db
  render T sort sortAttrs db

/-! ### Reading -/

/-- dbc.py:156-164 `dbc_assert_type(x, str)`. -/
def asStr : Tree → Except Err Chars
  | .str s => .ok s
  | .list _ => .error .error

/-- dbc.py:156-164 `dbc_assert_type(x, list)`. -/
def asList : Tree → Except Err (List Tree)
  | .str _ => .error .error
  | .list l => .ok l

/-- `l[i]`. -/
def treeAt (l : List Tree) (i : Nat) : Except Err Tree :=
  match l[i]? with
  | some t => .ok t
  | none => .error .indexError

/-- `dbc_assert_type(l[i], str)`. -/
def strAt (l : List Tree) (i : Nat) : Except Err Chars := (treeAt l i).bind asStr
/-- `dbc_assert_type(l[i], list)`. -/
def listAt (l : List Tree) (i : Nat) : Except Err (List Tree) := (treeAt l i).bind asList
/-- `int(dbc_assert_type(l[i], str))`. -/
def intAt (l : List Tree) (i : Nat) : Except Err Int := (strAt l i).bind readInt

/-- The text an entry starts with. -/
def Tree.key : Tree → Option Chars
  | .list (.str s :: _) => some s
  | _ => none

/-- `tokens.get(key, [])`: `OneOrMoreDict` groups the entries by their first token. -/
def entriesOf (key : String) (entries : List Tree) : List Tree :=
  entries.filter fun t => decide (t.key = some key.toList)

/-- dbc.py:114-136 `DbcComments`; comments of signals have a pair as key. -/
structure Comments where
  bus : Option Chars := none
  nodes : List (Chars × Chars) := []
  envvars : List (Chars × Chars) := []
  messages : List (Int × Chars) := []
  signals : List ((Int × Chars) × Chars) := []

/-- dbc.py:1214-1247: one comment. -/
def loadComment (c : Comments) (entry : Tree) : Except Err Comments := do
  let tokens ← asList entry
  match ← treeAt tokens 1 with
  | .str s => return { c with bus := some (c.bus.getD [] ++ s) }
  | .list item =>
    let kind ← strAt item 0
    if kind = "SG_".toList then
      let frameId ← intAt item 1
      let name ← strAt item 2
      let text ← strAt item 3
      return { c with signals := dictSet c.signals (frameId, name) text }
    else if kind = "BO_".toList then
      let frameId ← intAt item 1
      let text ← strAt item 2
      return { c with messages := dictSet c.messages frameId text }
    else if kind = "BU_".toList then
      let name ← strAt item 1
      let text ← strAt item 2
      return { c with nodes := dictSet c.nodes name text }
    else if kind = "EV_".toList then
      let name ← strAt item 1
      let text ← strAt item 2
      return { c with envvars := dictSet c.envvars name text }
    else return c

/-- dbc.py:1211-1249 `_load_comments`. -/
def loadComments (entries : List Tree) : Except Err Comments :=
  (entriesOf "CM_" entries).foldlM loadComment {}

/-- dbc.py:1256-1263 `_load_attribute_definition_defaults`. -/
def loadDefaults (entries : List Tree) : Except Err (List (Chars × Chars)) :=
  (entriesOf "BA_DEF_DEF_" entries).foldlM (fun acc entry => do
    let tokens ← asList entry
    let name ← strAt tokens 1
    let value ← strAt tokens 2
    return dictSet acc name value) []

/-- dbc.py:2291-2297 `convert_value`. -/
def convertValue (T : FloatText F) (typeName : String) (t : Chars) : Except Err (AttrVal F) :=
  if typeName = "INT" ∨ typeName = "HEX" then (toInt t).map fun i => .num (.int i)
  else if typeName = "FLOAT" then (toFloat T t).map fun f => .num (.float f)
  else .ok (.str t)

/-- dbc.py:2313-2314: a limit of a definition. -/
def convertLimit (T : FloatText F) (typeName : String) (t : Chars) : Except Err (Num F) :=
  if typeName = "FLOAT" then (toFloat T t).map .float else (toInt t).map .int

/-- dbc.py:2299-2321: one definition. -/
def loadDef (T : FloatText F) (defaults : List (Chars × Chars)) (entry : Tree) : Except Err (AttrDef F) := do
  let tokens ← asList entry
  let kinds ← listAt tokens 1
  let kind ← (match kinds with
    | [] => .ok none
    | k :: _ => (asStr k).map fun s => some (String.ofList s) : Except Err (Option String))
  let name ← strAt tokens 2
  let typeText ← strAt tokens 3
  let typeName := String.ofList typeText
  let outer ← listAt tokens 4
  let values ← listAt outer 0
  let d : AttrDef F := { name := name, kind := kind, typeName := some typeName }
  let d ← (if values = [] then .ok d
    else if typeName = "ENUM" then do
      let cs ← values.mapM asStr
      return { d with choices := cs }
    else if typeName = "INT" ∨ typeName = "FLOAT" ∨ typeName = "HEX" then do
      let lo ← (strAt values 0).bind (convertLimit T typeName)
      let hi ← (strAt values 1).bind (convertLimit T typeName)
      return { d with minimum := some lo, maximum := some hi }
    else .ok d : Except Err (AttrDef F))
  match dictGet? defaults name with
  | none => return d
  | some v =>
    let v ← convertValue T typeName v
    return { d with default := some v }

/-- dbc.py:2288-2323 `get_attribute_definitions_dict`. -/
def loadDefs (T : FloatText F) (entries : List Tree) (defaults : List (Chars × Chars)) :
    Except Err (Defs F) :=
  (entriesOf "BA_DEF_" entries).foldlM (fun acc entry => do
    let d ← loadDef T defaults entry
    return dictSet acc d.name d) []

/-- dbc.py:78-98 `DbcAttributes`; attributes of signals have a pair as key. -/
structure Attributes (F : Type) where
  database : Attrs F := []
  messages : List (Int × Attrs F) := []
  signals : List ((Int × Chars) × Attrs F) := []
  nodes : List (Chars × Attrs F) := []
  envvars : List (Chars × Attrs F) := []

/-- dbc.py:1283-1295 `to_attribute_object`. -/
def toAttribute (T : FloatText F) (defs : Defs F) (tokens : List Tree) : Except Err (Attr F) := do
  let raw ← strAt tokens 3
  let name ← strAt tokens 1
  let d ← dictGet defs name
  if d.typeName = some "INT" ∨ d.typeName = some "HEX" ∨ d.typeName = some "ENUM" then
    let i ← toInt raw
    return { value := .num (.int i), definition := d }
  else if d.typeName = some "FLOAT" then
    let f ← toFloat T raw
    return { value := .num (.float f), definition := d }
  else return { value := .str raw, definition := d }

/-- `d.setdefault(key, {})[name] = value`. -/
def setNested {κ α : Type} [DecidableEq κ] (d : List (κ × List (Chars × α))) (key : κ) (name : Chars)
    (value : α) : List (κ × List (Chars × α)) :=
  dictSet d key (dictSet ((dictGet? d key).getD []) name value)

/-- dbc.py:1297-1345: one attribute. -/
def loadAttribute (T : FloatText F) (defs : Defs F) (acc : Attributes F) (entry : Tree) :
    Except Err (Attributes F) := do
  let tokens ← asList entry
  let name ← strAt tokens 1
  let objects ← listAt tokens 2
  match objects with
  | [] =>
    let a ← toAttribute T defs tokens
    return { acc with database := dictSet acc.database name a }
  | object :: _ =>
    let items ← asList object
    let kind ← strAt items 0
    if kind = "SG_".toList then
      let frameId ← intAt items 1
      let signal ← strAt items 2
      let a ← toAttribute T defs tokens
      return { acc with signals := setNested acc.signals (frameId, signal) name a }
    else if kind = "BO_".toList then
      let frameId ← intAt items 1
      let a ← toAttribute T defs tokens
      return { acc with messages := setNested acc.messages frameId name a }
    else if kind = "BU_".toList then
      let node ← strAt items 1
      let a ← toAttribute T defs tokens
      return { acc with nodes := setNested acc.nodes node name a }
    else if kind = "EV_".toList then
      let envvar ← strAt items 1
      let a ← toAttribute T defs tokens
      return { acc with envvars := setNested acc.envvars envvar name a }
    else return acc

/-- dbc.py:1280-1347 `_load_attributes`. -/
def loadAttributes (T : FloatText F) (entries : List Tree) (defs : Defs F) : Except Err (Attributes F) :=
  (entriesOf "BA_" entries).foldlM (loadAttribute T defs) {}

/-- `str(attribute.value)` of the attribute for a long name, if there is one (dbc.py:576-587,
1693-1701, 1890-1896). -/
def longName (T : FloatText F) (symbol : Chars) (attributes : Attrs F) (name : Chars) : Chars :=
  match dictGet? attributes symbol with
  | some a => a.value.text T
  | none => name

/-- dbc.py:576-580 `_get_node_long_name`. -/
def nodeLongName (T : FloatText F) (as : Attributes F) (name : Chars) : Chars :=
  longName T systemNode ((dictGet? as.nodes name).getD []) name

/-- dbc.py:1411-1412, 1450: numbers and names. -/
def loadPairs (pairs : List Tree) : Except Err (List (Int × Chars)) :=
  pairs.foldlM (fun acc p => do
    let l ← asList p
    let i ← intAt l 0
    let t ← strAt l 1
    return dictSet acc i t) []

/-- dbc.py:1400-1414 `_load_value_tables`. -/
def loadValueTables (entries : List Tree) : Except Err (List (Chars × List (Int × Chars))) :=
  (entriesOf "VAL_TABLE_" entries).foldlM (fun acc entry => do
    let tokens ← asList entry
    let name ← strAt tokens 1
    let pairs ← listAt tokens 2
    let cs ← loadPairs pairs
    return dictSet acc name cs) []

/-- dbc.py:1417-1438 `_load_environment_variables`. -/
def loadEnvvars (T : FloatText F) (entries : List Tree) (comments : Comments) (as : Attributes F) :
    Except Err (List (Chars × DEnvvar F)) :=
  (entriesOf "EV_" entries).foldlM (fun acc entry => do
    let tokens ← asList entry
    let short ← strAt tokens 1
    let attributes := (dictGet? as.envvars short).getD []
    let name := longName T systemEnvvar attributes short
    let envType ← intAt tokens 3
    let minimum ← (strAt tokens 5).bind (num T)
    let maximum ← (strAt tokens 7).bind (num T)
    let unit ← strAt tokens 9
    let initialValue ← (strAt tokens 10).bind (num T)
    let envId ← intAt tokens 11
    let accessType ← strAt tokens 12
    let accessNode ← strAt tokens 13
    return dictSet acc name
      { name := name, envType := envType, minimum := minimum, maximum := maximum, unit := unit,
        initialValue := initialValue, envId := envId, accessType := accessType,
        accessNode := accessNode, comment := dictGet? comments.envvars short,
        attributes := attributes }) []

/-- dbc.py:1440-1458 `_load_choices`, with pairs as keys. -/
def loadChoices (entries : List Tree) : Except Err (List ((Int × Chars) × List (Int × Chars))) :=
  (entriesOf "VAL_" entries).foldlM (fun acc entry => do
    let tokens ← asList entry
    let ids ← listAt tokens 1
    match ids with
    | [] => return acc
    | _ :: _ =>
      let pairs ← listAt tokens 3
      let cs ← loadPairs pairs
      if cs = [] then return acc
      let frameId ← intAt ids 0
      let name ← strAt tokens 2
      return dictSet acc (frameId, name) cs) []

/-- dbc.py:1460-1474 `_load_message_senders`. -/
def loadSenders (T : FloatText F) (entries : List Tree) (as : Attributes F) :
    Except Err (List (Int × List Chars)) :=
  (entriesOf "BO_TX_BU_" entries).foldlM (fun acc entry => do
    let tokens ← asList entry
    let frameId ← intAt tokens 1
    let names ← (listAt tokens 3).bind fun l => l.mapM asStr
    return dictSet acc frameId ((dictGet? acc frameId).getD [] ++ names.map (nodeLongName T as))) []

/-- dbc.py:1477-1490 `_load_signal_types`, with pairs as keys. -/
def loadSignalTypes (entries : List Tree) : Except Err (List ((Int × Chars) × Int)) :=
  (entriesOf "SIG_VALTYPE_" entries).foldlM (fun acc entry => do
    let tokens ← asList entry
    let frameId ← intAt tokens 1
    let name ← strAt tokens 2
    let t ← intAt tokens 4
    return dictSet acc (frameId, name) t) []

/-- dbc.py:1507-1512: a range of multiplexer ids; the upper end is written with a minus sign. -/
def loadRange (t : Tree) : Except Err (Int × Int) := do
  let l ← asList t
  let lower ← intAt l 0
  let upper ← strAt l 1
  let upper ← readInt upper.tail
  return (lower, upper)

/-- dbc.py:1493-1517 `_load_signal_multiplexer_values`: the entries of every message; they are put
into dictionaries by `loadMuxValues`. -/
def loadMuxEntries (entries : List Tree) : Except Err (List (Int × List MuxEntry)) :=
  (entriesOf "SG_MUL_VAL_" entries).foldlM (fun acc entry => do
    let tokens ← asList entry
    let frameId ← intAt tokens 1
    let name ← strAt tokens 2
    let mux ← strAt tokens 3
    let ranges ← (listAt tokens 4).bind fun l => l.mapM loadRange
    return dictSet acc frameId ((dictGet? acc frameId).getD [] ++
      [{ signal := String.ofList name, multiplexer := String.ofList mux, ranges := ranges }])) []

/-- dbc.py:1520-1556 `_load_signal_groups`. -/
def loadSignalGroups (T : FloatText F) (entries : List Tree) (as : Attributes F) :
    Except Err (List (Int × List DGroup)) :=
  (entriesOf "SIG_GROUP_" entries).foldlM (fun acc entry => do
    let tokens ← asList entry
    let frameId ← intAt tokens 1
    let names ← (listAt tokens 5).bind fun l => l.mapM asStr
    let name ← strAt tokens 2
    let repetitions ← intAt tokens 3
    return dictSet acc frameId ((dictGet? acc frameId).getD [] ++
      [{ name := name, repetitions := repetitions,
         signalNames := names.map fun n =>
           longName T systemSignal ((dictGet? as.signals (frameId, n)).getD []) n }])) []

/-- dbc.py:1609-1630: the multiplexer marker of a signal.  The number is only read if the message has
a single selector (`single`); the number given otherwise is not used.  `assert` fails for a marker that
starts with something else than `m`. -/
def loadMarker (single : Bool) : Option Chars → Except Err MuxMarker
  | none => .ok .none
  | some w =>
    if w.getLast? = some 'M' then .ok .selector
    else if !single then .ok (.multiplexed 0)
    else
      match w with
      | 'm' :: r => (readInt r).map .multiplexed
      | _ => .error .assertionError

/-- dbc.py:1670-1680 `get_signal_minimum`, `get_signal_maximum`. -/
def loadLimits (T : FloatText F) (minimum maximum : Chars) :
    Except Err (Option (Num F) × Option (Num F)) :=
  if minimum = maximum ∧ maximum = ['0'] then .ok (none, none)
  else do
    let lo ← num T minimum
    let hi ← num T maximum
    return (some lo, some hi)

/-- What `_load_messages` and `_load_signals` get from the other parts of the file. -/
structure Context (F : Type) where
  comments : Comments
  attributes : Attributes F
  definitions : Defs F
  choices : List ((Int × Chars) × List (Int × Chars))
  senders : List (Int × List Chars)
  signalTypes : List ((Int × Chars) × Int)
  muxEntries : List (Int × List MuxEntry)
  groups : List (Int × List DGroup)
  busName : Option Chars

/-- dbc.py:1703-1715 `get_signal_initial_value`. -/
def loadInitial (attributes : Attrs F) : Except Err (Option (Num F)) :=
  match dictGet? attributes genSigStartValue with
  | none => .ok none
  | some a =>
    match a.value with
    | .num n => .ok (some n)
    | .str _ => .error .error

/-- dbc.py:1717-1727 `get_signal_spn`. -/
def loadSpn (defs : Defs F) (attributes : Attrs F) : Except Err (Option (AttrVal F)) :=
  match dictGet? attributes spnName with
  | some a =>
    match a.value with
    | .num (.int i) => .ok (some (.num (.int i)))
    | _ => .error .error
  | none =>
    match dictGet? defs spnName with
    | some d => .ok d.default
    | none => .ok none

/-- dbc.py:1733-1734, 1934-1936: name and multiplexer marker of an `SG_` entry, as text. -/
def loadMuxText (entry : Tree) : Except Err (Chars × Option Chars) := do
  let tokens ← asList entry
  let mux ← listAt tokens 1
  let name ← strAt mux 0
  let marker ← (match mux[1]? with
    | none => .ok none
    | some t => (asStr t).map some : Except Err (Option Chars))
  return (name, marker)

/-- dbc.py:1932-1942: there is exactly one selector. -/
def hasSingleSelector (fields : List (Chars × Option Chars)) : Bool :=
  decide ((fields.filter fun f => decide (f.2.bind (·.getLast?) = some 'M')).length = 1)

/-- dbc.py:1609-1630, 1932-1942: names and multiplexer markers of the signals of a message. -/
def loadMuxFields (entries : List Tree) : Except Err (List MuxField) := do
  let fields ← entries.mapM loadMuxText
  fields.mapM fun f => (loadMarker (hasSingleSelector fields) f.2).map fun m =>
    { name := String.ofList f.1, marker := m }

/-- dbc.py:1731-1760: one signal; its multiplexing is given.  A negative start or length, which python
hands on to `Signal`, becomes 0 here. -/
def loadSignal (T : FloatText F) (ctx : Context F) (frameId : Int) (entry : Tree) (mux : LoadedMux) :
    Except Err (DSignal F) := do
  let tokens ← asList entry
  let field ← listAt tokens 1
  let name ← strAt field 0
  let attributes := (dictGet? ctx.attributes.signals (frameId, name)).getD []
  let start ← intAt tokens 3
  let length ← intAt tokens 5
  let receivers ← (listAt tokens 20).bind fun l => l.mapM asStr
  let order ← strAt tokens 7
  let sign ← strAt tokens 8
  let initial ← loadInitial attributes
  let scale ← (strAt tokens 10).bind (num T)
  let offset ← (strAt tokens 12).bind (num T)
  let lo ← strAt tokens 15
  let hi ← strAt tokens 17
  let limits ← loadLimits T lo hi
  let unit ← strAt tokens 19
  let spn ← loadSpn ctx.definitions attributes
  let t := dictGet? ctx.signalTypes (frameId, name)
  return {
      name := longName T systemSignal attributes name
      start := start.toNat
      length := length.toNat
      byteOrder := if order = ['0'] then .big else .little
      isSigned := decide (sign = ['-'])
      scale := scale
      offset := offset
      isFloat := decide (t = some 1) || decide (t = some 2)
      minimum := limits.1
      maximum := limits.2
      unit := if unit = [] then none else some unit
      receivers := (if receivers = [vectorXXX] then [] else receivers).map (nodeLongName T ctx.attributes)
      comment := dictGet? ctx.comments.signals (frameId, name)
      choices := dictGet? ctx.choices (frameId, name)
      isMultiplexer := mux.isMultiplexer
      multiplexerIds := mux.multiplexerIds
      multiplexerSignal := mux.multiplexerSignal.map (·.toList)
      rawInitial := initial
      spn := spn
      attributes := attributes }

/-- dbc.py:1816-1839 `get_message_send_type`. -/
def loadSendType (T : FloatText F) (defs : Defs F) (attributes : Attrs F) : Except Err (Option Chars) :=
  match dictGet? defs genMsgSendType with
  | none => .ok none
  | some d =>
    match dictGet? attributes genMsgSendType with
    | some a =>
      if d.choices ≠ [] then
        match a.value with
        | .num n => (pyIndex d.choices (pyInt (n.value T))).map some
        | .str t => do
          let i ← readInt t
          let s ← pyIndex d.choices i
          return some s
      else
        match a.value with
        | .str t => .ok (some t)
        | .num _ => .error .error
    | none =>
      match d.default with
      | none => .ok none
      | some (.str t) => .ok (some t)
      | some (.num _) => .error .error

/-- `value or None` for the value of the attribute; texts are not modelled as cycle times. -/
def orNone (T : FloatText F) : AttrVal F → Except Err (Option (Num F))
  | .num n => .ok (if n.value T = 0 then none else some n)
  | .str _ => .error .error

/-- dbc.py:1841-1856 `get_message_cycle_time`. -/
def loadCycleTime (T : FloatText F) (defs : Defs F) (attributes : Attrs F) : Except Err (Option (Num F)) :=
  match dictGet? defs genMsgCycleTime with
  | none => .ok none
  | some d =>
    match dictGet? attributes genMsgCycleTime with
    | some a => orNone T a.value
    | none =>
      match d.default with
      | none => .ok none
      | some v => orNone T v

/-- dbc.py:1859-1876 `get_message_frame_format`.  Without attribute and default the variable
`frame_format` is not set (`UnboundLocalError`). -/
def loadFrameFormat (T : FloatText F) (defs : Defs F) (attributes : Attrs F) : Except Err (Option Chars) :=
  match dictGet? defs vFrameFormat with
  | none => .ok none
  | some d => do
    let d ← enumVFrameFormat T d
    match dictGet? attributes vFrameFormat with
    | some a =>
      match a.value with
      | .num (.int i) => (pyIndex d.choices i).map some
      | _ => .error .error
    | none =>
      match d.default with
      | some v => return some (v.text T)
      | none => .error .error

/-- `text.endswith('CAN_FD')`. -/
def endsWithCanFd (t : Chars) : Bool := "CAN_FD".toList.isSuffixOf t

/-- dbc.py:1922-1929: the senders of a message. -/
def mergeSenders (first : Chars) (others : List Chars) : List Chars :=
  let l := others.foldl (fun acc n => if n ∈ acc then acc else acc ++ [n]) [first]
  if l = [vectorXXX] then [] else l

/-- utils.py:442-443 `sort_signals_by_start_bit`. -/
def sortByStartBit (T : FloatText F) (signals : List (DSignal F)) : List (DSignal F) :=
  sortedBy (fun s => startBit (s.core T)) signals

/-- dbc.py:1903-1973: one message, with the default of `sort_signals`; `none` for a message that is
skipped. -/
def loadMessage (T : FloatText F) (strict : Bool) (ctx : Context F) (entry : Tree) :
    Except Err (Option (DMessage F)) := do
  let tokens ← asList entry
  let short ← strAt tokens 2
  if short = "VECTOR__INDEPENDENT_SIG_MSG".toList then return none
  let id ← intAt tokens 1
  let attributes := (dictGet? ctx.attributes.messages id).getD []
  let format ← loadFrameFormat T ctx.definitions attributes
  let sender ← strAt tokens 5
  let entries ← listAt tokens 6
  let fields ← loadMuxFields entries
  let muxes := loadMux fields ((dictGet? ctx.muxEntries id).getD [])
  let signals ← (entries.zip muxes).mapM fun e => loadSignal T ctx id e.1 e.2
  let length ← (strAt tokens 4).bind readIntBase0
  let sendType ← loadSendType T ctx.definitions attributes
  let cycleTime ← loadCycleTime T ctx.definitions attributes
  let name := longName T systemMessage attributes short
  let _ ← Message.create (loadFrameId id).1 (String.ofList name) length.toNat (signals.map (·.core T)) 0xff
    (loadFrameId id).2 strict
  return some
    { frameId := (loadFrameId id).1
      isExtendedFrame := (loadFrameId id).2
      name := name
      length := length.toNat
      senders := mergeSenders (nodeLongName T ctx.attributes sender) ((dictGet? ctx.senders id).getD [])
      sendType := sendType
      cycleTime := cycleTime
      comment := dictGet? ctx.comments.messages id
      protocol := if format = some "J1939PG".toList then some "j1939".toList else none
      busName := ctx.busName
      isFd := (format.map endsWithCanFd).getD false
      signals := sortByStartBit T signals
      signalGroups := dictGet? ctx.groups id
      attributes := attributes }

/-- dbc.py:1786-1975 `_load_messages`. -/
def loadMessages (T : FloatText F) (strict : Bool) (ctx : Context F) (entries : List Tree) :
    Except Err (List (DMessage F)) := do
  let ms ← (entriesOf "BO_" entries).mapM (loadMessage T strict ctx)
  return ms.filterMap id

/-- dbc.py:1978-1982 `_load_version`. -/
def loadVersion (entries : List Tree) : Except Err (Option Chars) :=
  match entriesOf "VERSION" entries with
  | [] => .ok none
  | entry :: _ => do
    let tokens ← asList entry
    let v ← strAt tokens 1
    return some v

/-- dbc.py:1985-2001 `_load_bus`. -/
def loadBus (as : Attributes F) (comments : Comments) : Except Err (Option DBus) := do
  let name ← (match dictGet? as.database dbName with
    | none => .ok []
    | some a => match a.value with
      | .str s => .ok s
      | .num _ => .error .error : Except Err Chars)
  let rate ← (match dictGet? as.database baudrate with
    | none => .ok none
    | some a => match a.value with
      | .num (.int i) => .ok (some i)
      | _ => .error .error : Except Err (Option Int))
  if name = [] ∧ rate.getD 0 = 0 ∧ comments.bus.getD [] = [] then return none
  return some { name := name, baudrate := rate, comment := comments.bus }

/-- dbc.py:2004-2015 `_load_nodes`: the last `BU_` entry counts. -/
def loadNodes (T : FloatText F) (entries : List Tree) (comments : Comments) (as : Attributes F) :
    Except Err (List (DNode F)) :=
  (entriesOf "BU_" entries).foldlM (fun _ entry => do
    let tokens ← asList entry
    let names ← (listAt tokens 2).bind fun l => l.mapM asStr
    return names.map fun n =>
      { name := nodeLongName T as n, comment := dictGet? comments.nodes n,
        attributes := (dictGet? as.nodes n).getD [] }) []

/-- dbc.py:2389-2443 `load_string`, after the text has been parsed. -/
def loadEntries (T : FloatText F) (strict : Bool) (entries : List Tree) : Except Err (DDatabase F) := do
  let comments ← loadComments entries
  let defaults ← loadDefaults entries
  let defs ← loadDefs T entries defaults
  let attributes ← loadAttributes T entries defs
  let bus ← loadBus attributes comments
  let valueTables ← loadValueTables entries
  let choices ← loadChoices entries
  let senders ← loadSenders T entries attributes
  let signalTypes ← loadSignalTypes entries
  let muxEntries ← loadMuxEntries entries
  let groups ← loadSignalGroups T entries attributes
  let ctx : Context F :=
    { comments := comments, attributes := attributes, definitions := defs, choices := choices,
      senders := senders, signalTypes := signalTypes, muxEntries := muxEntries, groups := groups,
      busName := bus.map (·.name) }
  let messages ← loadMessages T strict ctx entries
  let nodes ← loadNodes T entries comments attributes
  let version ← loadVersion entries
  let envvars ← loadEnvvars T entries comments attributes
  return {
      messages := messages, nodes := nodes, buses := bus.toList, version := version,
      attributes := attributes.database, definitions := defs, envvars := envvars,
      valueTables := valueTables }

/-- dbc.py:2389-2443 `load_string`. -/
def loadString (T : FloatText F) (strict : Bool) (text : Chars) : Except Err (DDatabase F) := do
  let tokens ← tokenize text
  let entries ← parseEntries tokens
  loadEntries T strict entries

end Cantools.Dbc
