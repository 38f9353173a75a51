import Verif.Model.DbcFile

/-
database/can/formats/dbc.py: attributes of relations between a node and a signal or a message
(`BA_DEF_REL_`, `BA_DEF_DEF_REL_`, `BA_REL_`), in `dump_string` and `load_string`.
-/

namespace Cantools.Dbc
open Cantools

variable {F : Type}

/-- dbc.py:101-110 `DbcRelationAttributes`: by frame id, signal and node, and by frame id and node. -/
structure Relations (F : Type) where
  signals : List (Int × List (Chars × List (Chars × Attrs F))) := []
  messages : List (Int × List (Chars × Attrs F)) := []

instance decNodes [DecidableEq F] : DecidableEq (List (Chars × Attrs F)) := inferInstance
instance decSignals [DecidableEq F] : DecidableEq (List (Chars × List (Chars × Attrs F))) := inferInstance
deriving instance DecidableEq for Relations

/-- can/internal_database.py:11-28, can/formats/dbc_specifics.py:18-38: a database with relation
attributes.  `None` for the relation attributes is like no relation attributes (dbc.py:1045-1046,
2142-2143). -/
structure RDatabase (F : Type) where
  base : DDatabase F := {}
  definitions : Defs F := []
  relations : Relations F := {}
  deriving DecidableEq

/-! ### Writing -/

/-- dbc.py:2151-2154, 2379-2384: every signal gets the name it has in a dictionary. -/
def renameSignals {α : Type} (rename : Chars → Chars) (signals : List (Chars × α)) : List (Chars × α) :=
  signals.foldl (fun acc e => dictSet acc (rename e.1) e.2) []

/-- dbc.py:2138-2156 `update_signal_relation_attribute_names`. -/
def shortenRelation (shorten : Bool) (l2s : List (Chars × Chars)) (m : DMessage F) (r : Relations F) : Relations F :=
  if !shorten then r
  else
    match dictGet? r.signals (dbcFrameId m.frameId m.isExtendedFrame) with
    | none => r
    | some signals => { r with
        signals := dictSet r.signals (dbcFrameId m.frameId m.isExtendedFrame)
          (renameSignals (fun n => (dictGet? l2s n).getD n) signals) }

/-- dbc.py:2159-2166: the part of `make_signal_names_unique` for the relation attributes. -/
def shortenRelations (shorten : Bool) (messages : List (DMessage F)) (r : Relations F) : Except Err (Relations F) :=
  messages.foldlM (fun r m => do
    let l2s ← longToShort (m.signals.map (·.name))
    return shortenRelation shorten l2s m r) r

/-- dbc.py:820-831: the line of a definition. -/
def relDefLine (T : FloatText F) (d : AttrDef F) : Option Chars :=
  let head : Chars := "BA_DEF_REL_ ".toList ++ (kindText d ++ ("  ".toList ++ (dumpPlain d.name ++ [' '])))
  if d.typeName = some "ENUM" then
    some (head ++ ("ENUM  ".toList ++ (joinC [','] (d.choices.map dumpPlain) ++ [';'])))
  else if d.typeName = some "STRING" then some (head ++ "STRING ;".toList)
  else
    match d.typeName with
    | none => none
    | some t =>
      if t = "INT" ∨ t = "FLOAT" ∨ t = "HEX" then
        some (head ++ (t.toList ++ (formattedLimit T d.minimum ++ (formattedLimit T d.maximum ++ [';']))))
      else none

/-- dbc.py:812-833 `_dump_relation_attribute_definitions`. -/
def dumpRelDefs (T : FloatText F) (defs : Defs F) : List Chars := defs.filterMap fun e => relDefLine T e.2

/-- dbc.py:857-876 `_dump_relation_attribute_definition_defaults`. -/
def dumpRelDefaults (T : FloatText F) (defs : Defs F) : List Chars :=
  defs.filterMap fun e => e.2.default.map fun v =>
    "BA_DEF_DEF_REL_ ".toList ++ (dumpPlain e.2.name ++ (' ' ::
      ((if e.2.typeName = some "STRING" ∨ e.2.typeName = some "ENUM" then dumpPlain (v.text T) else v.text T) ++
        [';'])))

/-- dbc.py:1053-1059: the line of an attribute of a node and a signal. -/
def signalRelLine (T : FloatText F) (frameId : Int) (signal node : Chars) (a : Attr F) : Chars :=
  "BA_REL_ ".toList ++ (dumpPlain a.definition.name ++ (" BU_SG_REL_ ".toList ++ (node ++ (" SG_ ".toList ++
    (intText frameId ++ (' ' :: (signal ++ (' ' :: (a.formatted T ++ [';'])))))))))

/-- dbc.py:1063-1067: the line of an attribute of a node and a message. -/
def messageRelLine (T : FloatText F) (frameId : Int) (node : Chars) (a : Attr F) : Chars :=
  "BA_REL_ ".toList ++ (dumpPlain a.definition.name ++ (" BU_BO_REL_ ".toList ++ (node ++ (' ' ::
    (intText frameId ++ (' ' :: (a.formatted T ++ [';'])))))))

/-- dbc.py:1042-1069 `_dump_relation_attributes`. -/
def dumpRelations (T : FloatText F) (r : Relations F) : List Chars :=
  (r.signals.flatMap fun f => f.2.flatMap fun s => s.2.flatMap fun n => n.2.map fun a =>
    signalRelLine T f.1 s.1 n.1 a.2) ++
  (r.messages.flatMap fun f => f.2.flatMap fun n => n.2.map fun a => messageRelLine T f.1 n.1 a.2)

/-- dbc.py:2252-2285 and `DBC_FMT` (166-222), after the names have been made unique; the lines for
relations are followed by line ends (2278, 2280, 2282). -/
def renderR (T : FloatText F) (sort sortAttrs : List (DSignal F) → List (DSignal F)) (db : RDatabase F) :
    Except Err Chars := do
  let bo ← dumpMessages T sort db.base
  let signalTypes ← dumpSignalTypes db.base
  let defs := syncDefinitions T db.base
  let ba ← dumpAttributes T sortAttrs defs db.base
  let mux ← dumpMuxValues db.base
  return "VERSION ".toList ++ (dumpPlain (db.base.version.getD []) ++ (linesText [[], [], []] ++
    ("NS_ : ".toList ++ (crlf ++ (linesText (symbols.map ('\t' :: ·)) ++ (crlf ++
    ("BS_:".toList ++ (linesText [[], []] ++
    ("BU_: ".toList ++ (joinC [' '] (db.base.nodes.map (·.name)) ++ (crlf ++
    (dumpValueTables db.base ++ (linesText [[], []] ++
    (bo ++ (linesText [[], []] ++
    (joinC crlf (dumpSenders db.base) ++ (crlf ++
    (joinC (crlf ++ crlf) (dumpEnvvars T db.base) ++ (linesText [[], []] ++
    (joinC crlf (dumpComments sortAttrs db.base) ++ (crlf ++
    (joinC crlf (dumpDefs T defs) ++ (crlf ++
    (linesText (dumpRelDefs T db.definitions) ++
    (joinC crlf (dumpDefaults T defs) ++ (crlf ++
    (linesText (dumpRelDefaults T db.definitions) ++
    (joinC crlf ba ++ (crlf ++
    (linesText (dumpRelations T db.relations) ++
    (joinC crlf (dumpChoices sortAttrs db.base) ++ (crlf ++
    (joinC crlf signalTypes ++ (crlf ++
    (joinC crlf (dumpSignalGroups db.base) ++ (crlf ++
    (joinC crlf mux ++ crlf)))))))))))))))))))))))))))))))))))))

/-- dbc.py:2225-2285 `dump_string`. -/
def dumpStringR (U : Unicode) (T : FloatText F) (sort sortAttrs : List (DSignal F) → List (DSignal F))
    (shorten : Bool) (db : RDatabase F) : Except Err Chars := do
  let base ← removeSpecialChars U db.base
  let relations ← shortenRelations shorten base.messages db.relations
  let base ← makeNamesUnique shorten base
  renderR T sort sortAttrs { db with base := base, relations := relations }

/-! ### Reading -/

/-- dbc.py:1270-1277 `_load_relation_attribute_definition_defaults`. -/
def loadRelDefaults (entries : List Tree) : Except Err (List (Chars × Chars)) :=
  (entriesOf "BA_DEF_DEF_REL_" entries).foldlM (fun acc entry => do
    let tokens ← asList entry
    let name ← strAt tokens 1
    let value ← strAt tokens 2
    return dictSet acc name value) []

/-- dbc.py:2337-2361: one definition.  Unlike for other attributes (`loadDef`) the list of values may be
missing. -/
def loadRelDef (T : FloatText F) (defaults : List (Chars × Chars)) (entry : Tree) : Except Err (AttrDef F) := do
  let tokens ← asList entry
  let kinds ← listAt tokens 1
  let kind ← (match kinds with
    | [] => .ok none
    | k :: _ => (asStr k).map fun s => some (String.ofList s) : Except Err (Option String))
  let name ← strAt tokens 2
  let typeText ← strAt tokens 3
  let typeName := String.ofList typeText
  let values ← listAt tokens 4
  let d : AttrDef F := { name := name, kind := kind, typeName := some typeName }
  let d ← (match values with
    | [] => .ok d
    | inner :: _ =>
      if typeName = "ENUM" then do
        let l ← asList inner
        let cs ← l.mapM asStr
        return { d with choices := cs }
      else if typeName = "INT" ∨ typeName = "FLOAT" ∨ typeName = "HEX" then do
        let l ← asList inner
        let lo ← (strAt l 0).bind (convertLimit T typeName)
        let hi ← (strAt l 1).bind (convertLimit T typeName)
        return { d with minimum := some lo, maximum := some hi }
      else .ok d : Except Err (AttrDef F))
  match dictGet? defaults name with
  | none => return d
  | some v =>
    let v ← convertValue T typeName v
    return { d with default := some v }

/-- dbc.py:2326-2363 `get_relation_definitions_dict`. -/
def loadRelDefs (T : FloatText F) (entries : List Tree) (defaults : List (Chars × Chars)) : Except Err (Defs F) :=
  (entriesOf "BA_DEF_REL_" entries).foldlM (fun acc entry => do
    let d ← loadRelDef T defaults entry
    return dictSet acc d.name d) []

/-- dbc.py:1353-1365 `to_relation_attribute_object`. -/
def toRelAttribute (T : FloatText F) (defs : Defs F) (name raw : Chars) : Except Err (Attr F) := do
  let d ← dictGet defs name
  if d.typeName = some "INT" ∨ d.typeName = some "HEX" ∨ d.typeName = some "ENUM" then
    let i ← toInt raw
    return { value := .num (.int i), definition := d }
  else if d.typeName = some "FLOAT" then
    let f ← toFloat T raw
    return { value := .num (.float f), definition := d }
  else return { value := .str raw, definition := d }

/-- dbc.py:1377-1385: `d[frame_id][signal_name][node_name][attribute_name] = value`, where the
dictionaries are made if they are missing. -/
def setSignalRel {α : Type} (d : List (Int × List (Chars × List (Chars × List (Chars × α))))) (frameId : Int)
    (signal node name : Chars) (a : α) : List (Int × List (Chars × List (Chars × List (Chars × α)))) :=
  dictSet d frameId (
    let signals := (dictGet? d frameId).getD []
    dictSet signals signal (setNested ((dictGet? signals signal).getD []) node name a))

/-- dbc.py:1390-1396: the same for messages. -/
def setMessageRel {α : Type} (d : List (Int × List (Chars × List (Chars × α)))) (frameId : Int) (node name : Chars)
    (a : α) : List (Int × List (Chars × List (Chars × α))) :=
  dictSet d frameId (setNested ((dictGet? d frameId).getD []) node name a)

/-- dbc.py:1367-1395: one relation attribute. -/
def loadRelation (T : FloatText F) (defs : Defs F) (acc : Relations F) (entry : Tree) : Except Err (Relations F) := do
  let tokens ← asList entry
  let name ← strAt tokens 1
  let relation ← strAt tokens 2
  let node ← strAt tokens 3
  if relation = "BU_SG_REL_".toList then
    let frameId ← intAt tokens 5
    let signal ← strAt tokens 6
    let raw ← strAt tokens 7
    let a ← toRelAttribute T defs name raw
    return { acc with signals := setSignalRel acc.signals frameId signal node name a }
  else if relation = "BU_BO_REL_".toList then
    let frameId ← intAt tokens 4
    let raw ← strAt tokens 5
    let a ← toRelAttribute T defs name raw
    return { acc with messages := setMessageRel acc.messages frameId node name a }
  else return acc

/-- dbc.py:1350-1397 `_load_relation_attributes`. -/
def loadRelations (T : FloatText F) (entries : List Tree) (defs : Defs F) : Except Err (Relations F) :=
  (entriesOf "BA_REL_" entries).foldlM (loadRelation T defs) {}

/-- dbc.py:2366-2386 `update_signal_relation_attribute_names_after_load`. -/
def restoreRelations (T : FloatText F) (messages : List (DMessage F)) (as : Attributes F) (r : Relations F) :
    Relations F :=
  messages.foldl (fun r m =>
    let frameId := dbcFrameId m.frameId m.isExtendedFrame
    match dictGet? r.signals frameId with
    | none => r
    | some signals => { r with
        signals := dictSet r.signals frameId
          (renameSignals (fun n => longName T systemSignal ((dictGet? as.signals (frameId, n)).getD []) n) signals) }) r

/-- dbc.py:2389-2443 `load_string`, after the text has been parsed.  If there are several errors, it may
be another one that is raised. -/
def loadEntriesR (T : FloatText F) (strict : Bool) (entries : List Tree) : Except Err (RDatabase F) := do
  let defaults ← loadDefaults entries
  let defs ← loadDefs T entries defaults
  let attributes ← loadAttributes T entries defs
  let relDefaults ← loadRelDefaults entries
  let relDefs ← loadRelDefs T entries relDefaults
  let relations ← loadRelations T entries relDefs
  let base ← loadEntries T strict entries
  return { base := base, definitions := relDefs,
           relations := restoreRelations T base.messages attributes relations }

/-- dbc.py:2389-2443 `load_string`. -/
def loadStringR (T : FloatText F) (strict : Bool) (text : Chars) : Except Err (RDatabase F) := do
  let tokens ← tokenize text
  let entries ← parseEntries tokens
  loadEntriesR T strict entries

end Cantools.Dbc
