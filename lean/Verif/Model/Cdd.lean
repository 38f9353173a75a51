import Verif.Model.Did
import Verif.Model.Kcd

/-!
database/diagnostics/formats/cdd.py: the DIDs of a CDD file from its XML elements, and
database/diagnostics/database.py.

Integers are read as in `Kcd.readInt`; a negative number of bits counts as zero.  Log messages are
left out.
-/

namespace Cantools.Cdd

open Kcd (Xml NumText readInt)

/-- `element.findall('A/B/…')`. -/
def findPath (x : Xml) : List String → List Xml
  | [] => [x]
  | t :: r => (x.findAll t).flatMap fun c => findPath c r

/-- `element.findtext('A/B/…')`: the text of the first element found; the `[1]` of the last step
makes no difference to it. -/
def findText (x : Xml) (path : List String) : Option String :=
  (findPath x path).head?.map fun c => c.text.getD ""

/-- `element.attrib[name]`. -/
def attrib (x : Xml) (name : String) : Except Err String :=
  match x.attr? name with
  | some v => .ok v
  | none => .error .keyError

/-- `text.strip('()')`. -/
def stripParens (s : String) : String :=
  String.ofList (((s.toList.dropWhile (· ∈ ['(', ')'])).reverse.dropWhile (· ∈ ['(', ')'])).reverse)

/-- `ValueError` for a missing text. -/
def required (t : Option String) : Except Err String :=
  match t with
  | some s => .ok s
  | none => .error .valueError

/-- cdd.py:48-56: one round of the loop of `_load_choices`. -/
def addChoice (choices : Choices) (x : Xml) : Except Err Choices := do
  let start ← readInt (stripParens (← attrib x "s"))
  let stop ← readInt (stripParens (← attrib x "e"))
  if start = stop then
    let text ← required (findText x ["TEXT", "TUV"])
    pure (dictSet choices start (.str text))
  else pure choices

/-- cdd.py:45-61 `_load_choices`. -/
def loadChoices (x : Xml) : Except Err (Option Choices) := do
  let choices ← (x.findAll "TEXTMAP").foldlM addChoice []
  pure (if choices = [] then none else some choices)

/-- cdd.py:18-42 `DataType`. -/
structure DataType where
  name : String
  id : String
  bitLength : Nat
  encoding : Option String
  minimum : Option Int
  maximum : Option Int
  choices : Option Choices
  byteOrder : ByteOrder
  unit : Option String
  factor : Rat
  offset : Rat
  deriving DecidableEq, Repr

/-- `int(value)` of an attribute that may be missing. -/
def readOpt (x : Xml) (name : String) : Except Err (Option Int) :=
  match x.attr? name with
  | some v => (readInt v).map some
  | none => .ok none

/-- cdd.py:94-113: bit length, encoding, limits and byte order from the C-type element. -/
def loadCType : Option Xml → Except Err (Nat × Option String × Option Int × Option Int × ByteOrder)
  | none => .ok (0, none, none, none, .big)
  | some c => do
    let bits ← readOpt c "bl"
    let minimum ← readOpt c "minsz"
    let maximum ← readOpt c "maxsz"
    let bo ← attrib c "bo"
    let order ← if bo = "21" then .ok .big else if bo = "12" then .ok .little else .error .error
    pure ((bits.getD 0).toNat, c.attr? "enc", minimum, maximum, order)

/-- cdd.py:122-126: factor and offset. -/
def loadComp (T : NumText) : Option Xml → Except Err (Rat × Rat)
  | none => .ok (1, 0)
  | some c => do
    let f ← T.read (← attrib c "f")
    let o ← T.read (← attrib c "o")
    pure (f, o)

/-- cdd.py:76-141: one round of the loop of `_load_data_types`. -/
def loadDataType (T : NumText) (x : Xml) : Except Err DataType := do
  let name ← required (findText x ["NAME", "TUV"])
  let id ← attrib x "id"
  let (bits, encoding, minimum, maximum, order) ← loadCType (x.find? "CVALUETYPE")
  let unit := findText x ["PVALUETYPE", "UNIT"]
  let choices ← loadChoices x
  let (factor, offset) ← loadComp T (x.find? "COMP")
  if bits = 0 then .error .runtimeError
  else pure { name, id, bitLength := bits, encoding, minimum, maximum, choices
              byteOrder := order, unit, factor, offset }

/-- cdd.py:74 `ecu_doc.findall('DATATYPES/*')`. -/
def typeElements (doc : Xml) : List Xml := (doc.findAll "DATATYPES").flatMap Xml.children

/-- cdd.py:64-143 `_load_data_types`. -/
def loadDataTypes (T : NumText) (doc : Xml) : Except Err (List (String × DataType)) :=
  (typeElements doc).foldlM (fun types x => do
    let t ← loadDataType T x
    pure (dictSet types t.id t)) []

/-- cdd.py:146-177 `_load_data_element`, up to the start bit (see `loadDataElement`). -/
def loadField (types : List (String × DataType)) (x : Xml) : Except Err CddField := do
  let t ← dictGet types (← attrib x "dtref")
  let name ← required (findText x ["QUAL"])
  pure { name, bitLength := t.bitLength, byteOrder := t.byteOrder
         conversion := Conversion.factory t.factor t.offset t.choices false
         minimum := t.minimum.map fun i : Int => (i : Rat)
         maximum := t.maximum.map fun i : Int => (i : Rat), unit := t.unit }

/-- cdd.py:191-195: the data objects a `DIDDATAREF` refers to; `KeyError` is ignored. -/
def refObjects (lib : List (String × Xml)) (ref : Xml) : List Xml :=
  match (ref.attr? "didRef").bind fun i => dictGet? lib i with
  | some d => findPath d ["STRUCTURE", "DATAOBJ"]
  | none => []

/-- cdd.py:187-195: the data objects of a DID. -/
def dataObjects (lib : List (String × Xml)) (did : Xml) : List Xml :=
  findPath did ["SIMPLECOMPCONT", "DATAOBJ"] ++
    (findPath did ["SIMPLECOMPCONT", "UNION", "STRUCT", "DATAOBJ"] ++
      (findPath did ["SIMPLECOMPCONT", "DIDDATAREF"]).flatMap (refObjects lib))

/-- cdd.py:180-218 `_load_did_element`; the layout is that of `loadDidElement`. -/
def loadDid (types : List (String × DataType)) (lib : List (String × Xml)) (did : Xml) :
    Except Err Did := do
  let fields ← (dataObjects lib did).mapM (loadField types)
  match did.find? "STATICVALUE" with
  | none => .error .keyError
  | some v =>
    let identifier ← readInt (← attrib v "v")
    let name ← required (findText did ["QUAL"])
    pure (loadDidElement identifier name fields)

/-- cdd.py:221-233 `_load_did_data_refs`. -/
def loadDidDataRefs (doc : Xml) : Except Err (List (String × Xml)) :=
  match doc.find? "DIDS" with
  | none => .ok []
  | some dids => (dids.findAll "DID").foldlM (fun lib d => do pure (dictSet lib (← attrib d "id") d)) []

/-- cdd.py:236-259 `load_string`, from the root element on. -/
def load (T : NumText) (root : Xml) : Except Err (List Did) := do
  match root.find? "ECUDOC" with
  | none => .error .keyError
  | some doc =>
    let types ← loadDataTypes T doc
    let lib ← loadDidDataRefs doc
    match doc.findAll "ECU" with
    | [] => .error .indexError
    | ecu :: _ =>
      match ecu.find? "VAR" with
      | none => .error .keyError
      | some var => (findPath var ["DIAGCLASS", "DIAGINST"]).mapM (loadDid types lib)

/-! ### The database -/

/-- database/diagnostics/database.py:12-26 `Database`. -/
structure Database where
  dids : List Did := []
  byName : List (String × Did) := []
  byIdentifier : List (Int × Did) := []

/-- diagnostics/database.py:65-84 `_add_did`. -/
def Database.addDid (db : Database) (d : Did) : Database :=
  { db with byName := dictSet db.byName d.name d, byIdentifier := dictSet db.byIdentifier d.identifier d }

/-- diagnostics/database.py:100-114 `refresh`. -/
def Database.refresh (db : Database) : Database :=
  db.dids.foldl Database.addDid { dids := db.dids }

/-- diagnostics/database.py:22-26: a new database. -/
def Database.create (dids : List Did) : Database := Database.refresh { dids }

/-- diagnostics/database.py:55-63 `add_cdd_string`. -/
def Database.addCdd (T : NumText) (db : Database) (root : Xml) : Except Err Database := do
  let dids ← load T root
  pure (Database.refresh { db with dids })

/-- diagnostics/database.py:86-91 `get_did_by_name`. -/
def Database.getByName (db : Database) (name : String) : Except Err Did := dictGet db.byName name

/-- diagnostics/database.py:93-98 `get_did_by_identifier`. -/
def Database.getByIdentifier (db : Database) (i : Int) : Except Err Did := dictGet db.byIdentifier i

end Cantools.Cdd
