import Verif.Model.Message

/-
Container messages: database/can/message.py:571-613, 665-723, 809-883, 993-1054, 1137-1202.
-/

namespace Cantools

/-- A message that can be part of a container: an ordinary message with its `header_id`
(message.py:71-73).  Header ids are naturals; containers inside containers are not modelled. -/
structure Contained where
  headerId : Option Nat
  msg : Message

/-- A container message (message.py:64-143): the attributes its methods look at.  `headerBig` is
`header_byte_order == 'big_endian'`. -/
structure Container where
  name : String := ""
  length : Nat
  headerBig : Bool := true
  contained : List Contained

/-- message.py:1178-1189 `get_contained_message_by_header_id`. -/
def Container.byHeaderId (c : Container) (id : Option Nat) : Except Err (Option Contained) :=
  match c.contained.filter fun x => x.headerId == id with
  | [] => .ok none
  | [x] => .ok (some x)
  | _ => .error .error

/-- message.py:1191-1202 `get_contained_message_by_name`. -/
def Container.byName (c : Container) (name : String) : Except Err (Option Contained) :=
  match c.contained.filter fun x => x.msg.name == name with
  | [] => .ok none
  | [x] => .ok (some x)
  | _ => .error .error

/-- The first component of an entry of the input (typechecking.py `ContainerHeaderSpecType`): header
id, message name or message object. -/
inductive Header where
  | id (n : Nat)
  | name (s : String)
  | msg (c : Contained)

/-- The second component of an entry: bytes or a dictionary of signal values. -/
inductive Payload where
  | raw (b : Bytes)
  | signals (d : List (String × Value))

/-- message.py:586-602, 693-706, 818-835: the contained message an entry refers to. -/
def Container.resolve (c : Container) : Header → Except Err (Option Contained)
  | .id n => c.byHeaderId (some n)
  | .name s => c.byName s
  | .msg m => c.byHeaderId m.headerId

/-- message.py:571-613 `gather_container`.  (A message object without header id trips the
assertion in line 594.) -/
def gatherContainer (c : Container) (data : List (String × Value)) :
    List Header → Except Err (List (Contained × List (String × Value)))
  | [] => .ok []
  | h :: r => do
    let m ← match h with
      | .msg x => if x.headerId = none then Except.error Err.assertionError else c.resolve h
      | h => c.resolve h
    match m with
    | none => .error .encodeError
    | some m => do
      let s ← gatherSignals m.msg data
      let rest ← gatherContainer c data r
      return (m, s) :: rest

/-- message.py:688-723, the loop body of `assert_container_encodable`. -/
def assertEntry (c : Container) (h : Header) (p : Payload) (scaling valuesValid allKnown : Bool) :
    Except Err Unit :=
  match h, p with
  | .id _, .raw _ => .ok ()
  | .msg ⟨none, _⟩, _ => .error .encodeError
  | h, p =>
    match c.resolve h with
    | .error e => .error e
    | .ok none => .error .encodeError
    | .ok (some m) =>
      match p with
      | .raw b => if b.length ≠ m.msg.length then .error .encodeError else .ok ()
      | .signals d => assertSignalsEncodable m.msg d scaling valuesValid allKnown

/-- message.py:665-723 `assert_container_encodable` (input given as a list). -/
def assertContainerEncodable (c : Container) (input : List (Header × Payload))
    (scaling valuesValid allKnown : Bool) : Except Err Unit :=
  input.forM fun e => assertEntry c e.1 e.2 scaling valuesValid allKnown

/-- message.py:817-872: header id and payload of an entry. -/
def entryBytes (fo : FloatOps) (c : Container) (h : Header) (p : Payload) (scaling padding : Bool) :
    Except Err (Nat × Bytes) :=
  match c.resolve h with
  | .error e => .error e
  | .ok none =>
    match h, p with
    | .id n, .raw b => .ok (n, b)
    | _, _ => .error .encodeError
  | .ok (some m) =>
    match m.headerId with
    | none => .error .assertionError
    | some id =>
      match p with
      | .raw b => .ok (id, b)
      | .signals d => (encode fo m.msg d scaling padding false).map fun b => (id, b)

/-- message.py:874-881: one entry on the wire. -/
def wireEntry (big : Bool) (id : Nat) (payload : Bytes) : Except Err Bytes := do
  let h ← if big then toBytesBig id 3 else toBytesLittle id 3
  let l ← toBytesBig payload.length 1
  return h ++ l ++ payload

/-- message.py:809-883 `_encode_container`. -/
def encodeContainerRaw (fo : FloatOps) (c : Container) (scaling padding : Bool) :
    List (Header × Payload) → Except Err Bytes
  | [] => .ok []
  | (h, p) :: r => do
    let e ← entryBytes fo c h p scaling padding
    let w ← wireEntry c.headerBig e.1 e.2
    let rest ← encodeContainerRaw fo c scaling padding r
    return w ++ rest

/-- message.py:920-931: `encode` of a container message. -/
def encodeContainer (fo : FloatOps) (c : Container) (input : List (Header × Payload))
    (scaling padding strict : Bool) : Except Err Bytes :=
  if strict then
    match assertContainerEncodable c input scaling true true with
    | .error e => .error e
    | .ok _ => encodeContainerRaw fo c scaling padding input
  else encodeContainerRaw fo c scaling padding input

/-- The first component of an unpacked entry: message or header id. -/
abbrev Ref := Contained ⊕ Nat

/-- message.py:1046-1052. -/
def Container.refOf (c : Container) (id : Nat) : Except Err Ref :=
  match c.byHeaderId (some id) with
  | .error e => .error e
  | .ok none => .ok (.inr id)
  | .ok (some m) => .ok (.inl m)

/-- message.py:1018-1054, the loop of `unpack_container`; `data` is what is left from `pos` on. -/
def unpackLoop (c : Container) (allowTruncated : Bool) (data : Bytes) :
    Except Err (List (Ref × Bytes)) :=
  if data.length < 4 then .ok []
  else
    let id := fromBytesBig (data.take 3)
    let len := (data.getD 3 0).toNat
    if 4 + len > data.length ∧ allowTruncated = false then .error .decodeError
    else
      let len := if 4 + len > data.length then data.length - 4 else len
      match c.refOf id with
      | .error e => .error e
      | .ok ref =>
        match unpackLoop c allowTruncated (data.drop (4 + len)) with
        | .error e => .error e
        | .ok rest => .ok ((ref, (data.drop 4).take len) :: rest)
termination_by data.length
decreasing_by simp only [List.length_drop]; omega

/-- message.py:993-1054 `unpack_container`. -/
def unpackContainer (c : Container) (data : Bytes) (allowTruncated : Bool) :
    Except Err (List (Ref × Bytes)) :=
  if data.length > c.length then .error .decodeError else unpackLoop c allowTruncated data

/-- An entry of the result of `decode_container`. -/
abbrev DecodedEntry := Ref × (Bytes ⊕ List (String × Value))

/-- message.py:1154-1174: decode one unpacked entry. -/
def decodeEntry (fo : FloatOps) (decodeChoices scaling allowTruncated allowExcess : Bool)
    (e : Ref × Bytes) : Except Err DecodedEntry :=
  match e.1 with
  | .inr id => .ok (.inr id, .inl e.2)
  | .inl m =>
    match decode fo m.msg e.2 decodeChoices scaling allowTruncated allowExcess with
    | .ok d => .ok (.inl m, .inr d)
    | .error .valueError => .ok (.inl m, .inl e.2)
    | .error .decodeError => .ok (.inl m, .inl e.2)
    | .error x => .error x

/-- message.py:1137-1176 `decode_container`. -/
def decodeContainer (fo : FloatOps) (c : Container) (data : Bytes)
    (decodeChoices scaling allowTruncated allowExcess : Bool) : Except Err (List DecodedEntry) := do
  let unpacked ← unpackContainer c data allowTruncated
  unpacked.mapM (decodeEntry fo decodeChoices scaling allowTruncated allowExcess)

end Cantools
