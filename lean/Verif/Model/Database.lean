import Verif.Model.Container

/-
database/can/database.py: message tables, lookups and encoding/decoding through a database.
-/

namespace Cantools

/-- A message as a database sees it.  `frameId` is a natural; `refreshes` says whether
`message.refresh(strict)` succeeds (always so for an unmodified message that a loader constructed with
the same `strict`). -/
structure DbMessage where
  name : String
  frameId : Nat
  isExtended : Bool := false
  body : Message ⊕ Container
  refreshes : Bool := true

/-- What a file contains (database/can/internal_database.py); nodes and buses are represented by
their names, the format specific data by opaque strings. -/
structure Loaded where
  messages : List DbMessage
  nodes : List String := []
  buses : List String := []
  version : Option String := none
  dbc : Option String := none
  autosar : Option String := none

/-- database.py:46-72 `Database`. -/
structure Db where
  messages : List DbMessage := []
  nodes : List String := []
  buses : List String := []
  version : Option String := none
  dbc : Option String := none
  autosar : Option String := none
  mask : Nat := 0xffffffff
  byName : List (String × DbMessage) := []
  byId : List (Nat × DbMessage) := []

/-- database.py:428-430: the key of a message in the frame id table. -/
def DbMessage.key (mask : Nat) (m : DbMessage) : Nat :=
  if m.isExtended then (m.frameId &&& mask) ||| 0x80000000 else m.frameId &&& mask

/-- database.py:419-443 `_add_message`. -/
def Db.addMessage (db : Db) (m : DbMessage) : Db :=
  { db with byName := dictSet db.byName m.name m, byId := dictSet db.byId (m.key db.mask) m }

/-- database.py:649-651, the loop of `refresh`: it stops with an exception at a message that does not
refresh. -/
def Db.refreshLoop (db : Db) : List DbMessage → Db × Option Err
  | [] => (db, none)
  | m :: r => if m.refreshes then (db.addMessage m).refreshLoop r else (db, some .error)

/-- database.py:637-651 `refresh`. -/
def Db.refresh (db : Db) : Db × Option Err :=
  { db with byName := [], byId := [] }.refreshLoop db.messages

/-- database.py:46-72 `__init__`. -/
def Db.init (messages : List DbMessage) (nodes buses : List String) (version dbc autosar : Option String)
    (mask : Option Nat) : Db × Option Err :=
  Db.refresh { messages, nodes, buses, version, dbc, autosar, mask := mask.getD 0xffffffff }

/-- What can happen to a database: a file is added (284-298 ARXML, 333-345 DBC, 366-380 KCD, 401-417
SYM), messages are modified by the user, `refresh` is called. -/
inductive DbOp where
  | addArxml (l : Loaded)
  | addOther (l : Loaded)
  | modify (f : List DbMessage → List DbMessage)
  | refresh

/-- database.py:284-417 `add_arxml_string`, `add_dbc_string`, `add_kcd_string`, `add_sym_string` after
the text has been parsed, and `refresh`. -/
def Db.step (db : Db) : DbOp → Db × Option Err
  | .addArxml l =>
    Db.refresh { db with messages := db.messages ++ l.messages, nodes := l.nodes, buses := l.buses, version := l.version, dbc := l.dbc, autosar := l.autosar }
  | .addOther l =>
    Db.refresh { db with messages := db.messages ++ l.messages, nodes := l.nodes, buses := l.buses, version := l.version, dbc := l.dbc }
  | .modify f => ({ db with messages := f db.messages }, none)
  | .refresh => db.refresh

/-- A history of operations; exceptions are caught by the user. -/
def Db.run (db : Db) (ops : List DbOp) : Db := ops.foldl (fun d o => (d.step o).1) db

/-- database.py:499-504 `get_message_by_name`. -/
def Db.getByName (db : Db) (name : String) : Except Err DbMessage := dictGet db.byName name

/-- database.py:506-514 `get_message_by_frame_id`. -/
def Db.getByFrameId (db : Db) (id : Nat) (force : Bool) : Except Err DbMessage :=
  let id := if force || decide (id > 0x7ff) then id ||| 0x80000000 else id
  dictGet db.byId (id &&& (0x80000000 ||| db.mask))

/-- database.py:516-525 `get_node_by_name`, 527-536 `get_bus_by_name` on the list of names. -/
def getFirst (names : List String) (name : String) : Except Err String :=
  match names.find? (· == name) with
  | some n => .ok n
  | none => .error .keyError

/-- The first argument of `encode_message`: frame id or name. -/
inductive IdOrName where
  | id (n : Nat)
  | name (s : String)

/-- database.py:565-573, 606-613: how `encode_message` and `decode_message` find the message. -/
def Db.find (db : Db) (k : IdOrName) (force : Bool) : Except Err DbMessage :=
  match k with
  | .id n => dictGet db.byId (if force || decide (n > 0x7ff) then n ||| 0x80000000 else n)
  | .name s => dictGet db.byName s

/-- The data of `encode_message`: values for an ordinary message or entries for a container. -/
inductive EncodeInput where
  | values (d : List (String × Value))
  | entries (l : List (Header × Payload))

/-- message.py:885-953 `encode` for any message.  Data of the wrong kind is rejected by the strict
checks (928, 939); without them it leads to an exception of some other kind, represented by
`TypeError`. -/
def DbMessage.encode (fo : FloatOps) (m : DbMessage) (d : EncodeInput)
    (scaling padding strict : Bool) : Except Err Bytes :=
  match m.body, d with
  | .inl msg, .values v => Cantools.encode fo msg v scaling padding strict
  | .inr c, .entries l => encodeContainer fo c l scaling padding strict
  | _, _ => if strict then .error .encodeError else .error .typeError

/-- database.py:538-575 `encode_message`. -/
def Db.encodeMessage (fo : FloatOps) (db : Db) (k : IdOrName) (d : EncodeInput)
    (scaling padding strict force : Bool) : Except Err Bytes :=
  match db.find k force with
  | .error e => .error e
  | .ok m => m.encode fo d scaling padding strict

/-- The result of `decode_message`. -/
inductive DecodeOutput where
  | values (d : List (String × Value))
  | entries (l : List DecodedEntry)

/-- database.py:577-635 `decode_message` (`allow_excess` keeps its default `True`). -/
def Db.decodeMessage (fo : FloatOps) (db : Db) (k : IdOrName) (data : Bytes)
    (decodeChoices scaling containers truncated force : Bool) : Except Err DecodeOutput :=
  match db.find k force with
  | .error e => .error e
  | .ok m =>
    match m.body with
    | .inl msg => (decode fo msg data decodeChoices scaling truncated true).map .values
    | .inr c =>
      if containers then
        (decodeContainer fo c data decodeChoices scaling truncated true).map .entries
      else .error .decodeError

end Cantools
