import Verif.Model.Message

/-
database/can/c_source.py: the generated C code.

The generator is modelled as a function from a message to the statements it writes, and the written
statements get the meaning the C standard gives them.  Undefined behaviour is an error.  Identifiers
are the signal names themselves: `camel_to_snake_case` may give two signals the same identifier, but
then the generated `struct` has a repeated member and does not compile.
-/

namespace Cantools.C
open Cantools

/-! ### Types of members -/

/-- c_source.py:636-645 `CodeGenSignal.type_length`. -/
def typeLength (s : Signal) : Nat :=
  if s.length ≤ 8 then 8
  else if s.length ≤ 16 then 16
  else if s.length ≤ 32 then 32
  else 64

/-- c_source.py:647-660 `type_name`. -/
inductive CType where
  | float
  | double
  | int (width : Nat)
  | uint (width : Nat)
  deriving DecidableEq, Repr

/-- c_source.py:647-660 `type_name`. -/
def typeName (s : Signal) : CType :=
  if s.conversion.isFloat then (if s.length = 32 then .float else .double)
  else if s.isSigned then .int (typeLength s)
  else .uint (typeLength s)

/-- `8 * sizeof` of a type. -/
def CType.bits : CType → Nat
  | .float => 32
  | .double => 64
  | .int w => w
  | .uint w => w

/-! ### Segments -/

/-- One line of a pack or unpack body: byte, shift, direction and mask (c_source.py:778-822). -/
structure Segment where
  index : Nat
  shift : Nat
  left : Bool
  mask : Nat
  deriving DecidableEq, Repr

/-- c_source.py:783-803: length of the segment, position in the next byte, signed shift and mask. -/
def segStep (s : Signal) (pos left : Nat) : Nat × Nat × Int × Nat :=
  match s.byteOrder with
  | .big =>
    if pos + 1 ≤ left then (pos + 1, 7, -((left : Int) - (pos + 1)), 2 ^ (pos + 1) - 1)
    else (left, pos, (pos : Int) - left + 1, (2 ^ left - 1) * 2 ^ (pos + 1 - left))
  | .little =>
    if 8 - pos ≤ left then
      (8 - pos, 0, (left : Int) - s.length + pos, (2 ^ (8 - pos) - 1) * 2 ^ pos)
    else (left, pos, (left : Int) - s.length + pos, (2 ^ left - 1) * 2 ^ pos)

/-- c_source.py:805-815: direction of the shift. -/
def mkSegment (invert : Bool) (index : Nat) (shift : Int) (mask : Nat) : Segment :=
  { index, mask, shift := shift.natAbs, left := if invert then shift < 0 else ¬ shift < 0 }

/-- c_source.py:782-822: the loop of `segments`.  The first argument bounds the number of rounds;
every round handles at least one bit. -/
def segLoop (s : Signal) (invert : Bool) : Nat → Nat → Nat → Nat → List Segment
  | 0, _, _, _ => []
  | fuel + 1, index, pos, left =>
    if left = 0 then []
    else
      mkSegment invert index (segStep s pos left).2.2.1 (segStep s pos left).2.2.2 ::
        segLoop s invert fuel (index + 1) (segStep s pos left).2.1 (left - (segStep s pos left).1)

/-- c_source.py:778-822 `segments`. -/
def segments (s : Signal) (invert : Bool) : List Segment :=
  segLoop s invert s.length (s.start / 8) (s.start % 8) s.length

/-! ### The C language -/

/-- Why a C function does not do its job: it returns `-EINVAL`, or its behaviour is undefined (or it
does not compile). -/
inductive CErr where
  | einval
  | undefined
  deriving DecidableEq, Repr

/-- `value << k` for a `uint{n}_t` value.  Types narrower than `int` are promoted to (signed, 32 bit)
`int`, where overflow is undefined; so is shifting by the width or more. -/
def shl (n value k : Nat) : Except CErr Nat :=
  if max 32 n ≤ k then .error .undefined
  else if n < 32 then (if 2 ^ 31 ≤ value * 2 ^ k then .error .undefined else .ok (value * 2 ^ k))
  else .ok (value * 2 ^ k % 2 ^ n)

/-- `value >> k` for a `uint{n}_t` value. -/
def shr (n value k : Nat) : Except CErr Nat :=
  if max 32 n ≤ k then .error .undefined else .ok (value / 2 ^ k)

/-- c_source.py:469-487 `pack_left_shift_u{n}`, `pack_right_shift_u{n}`:
`(uint8_t)((uint8_t)(value << shift) & mask)`; shift and mask are `uint8_t` parameters. -/
def packHelper (n value : Nat) (seg : Segment) : Except CErr Nat := do
  let r ← if seg.left then shl n value (seg.shift % 256) else shr n value (seg.shift % 256)
  pure ((r % 256) &&& (seg.mask % 256))

/-- c_source.py:489-507 `unpack_left_shift_u{n}`, `unpack_right_shift_u{n}`:
`(uintN_t)((uintN_t)(value & mask) << shift)`. -/
def unpackHelper (n value : Nat) (seg : Segment) : Except CErr Nat := do
  let v := (value &&& (seg.mask % 256)) % 2 ^ n
  let r ← if seg.left then shl n v (seg.shift % 256) else shr n v (seg.shift % 256)
  pure (r % 2 ^ n)

/-
Statements: those of type `α`, and `switch` on a member.
-/
mutual
inductive Code (α : Type) where
  | nil
  | op (a : α) (rest : Code α)
  | switch (member : String) (cases : Cases α) (rest : Code α)
inductive Cases (α : Type) where
  | nil
  | cons (label : Int) (body : Code α) (rest : Cases α)
end

/-- Statements in front of others. -/
def Code.ops {α : Type} (l : List α) (c : Code α) : Code α := l.foldr .op c

/-- Runs statements on a state.  `look` is the value of the controlling expression of a `switch`,
`conv` converts a case label to the type of the controlling expression; every case ends with
`break`, and `default` does nothing. -/
structure Machine (α σ : Type) where
  step : α → σ → Except CErr σ
  look : σ → String → Except CErr Int
  conv : String → Int → Int

mutual
def Code.exec {α σ : Type} (M : Machine α σ) : σ → Code α → Except CErr σ
  | st, .nil => .ok st
  | st, .op a rest => do
    let st ← M.step a st
    rest.exec M st
  | st, .switch n cases rest => do
    let v ← M.look st n
    let st ← cases.exec M v (M.conv n) st
    rest.exec M st
def Cases.exec {α σ : Type} (M : Machine α σ) (v : Int) (conv : Int → Int) : σ → Cases α →
    Except CErr σ
  | st, .nil => .ok st
  | st, .cons label body rest =>
    if conv label = v then body.exec M st else rest.exec M v conv st
end

/-! ### The generator -/

/-
c_source.py:1005-1036 `_format_pack_code_level` with 930-967 `_format_pack_code_mux`, and 1141-1187
`_format_unpack_code_level` with 1054-1090 `_format_unpack_code_mux`: the lines of the signals of a
level come first, then the `switch` statements.  `gen` writes the lines of a signal, `skip` tells
that a signal which is not a selector is left out.  (The cases are in dictionary order instead of
sorted by id: the order of the cases of a `switch` does not matter.)
-/
mutual
def genLevel {α : Type} (gen : String → Except Err α) (skip : String → Except Err Bool) :
    SigTree → Except Err (List α × Code α)
  | .nil => .ok ([], .nil)
  | .leaf n rest => do
    let sk ← skip n
    let here ← (if sk then pure [] else do let a ← gen n; pure [a] : Except Err (List α))
    let r ← genLevel gen skip rest
    pure (here ++ r.1, r.2)
  | .mux n branches rest => do
    let a ← gen n
    let cases ← genCases gen skip branches
    let r ← genLevel gen skip rest
    pure (a :: r.1, .switch n cases r.2)
def genCases {α : Type} (gen : String → Except Err α) (skip : String → Except Err Bool) :
    TreeBranches → Except Err (Cases α)
  | .nil => .ok .nil
  | .cons i tree rest => do
    let b ← genLevel gen skip tree
    let r ← genCases gen skip rest
    pure (.cons i (Code.ops b.1 b.2) r)
end

/-- The whole body. -/
def genBody {α : Type} (gen : String → Except Err α) (skip : String → Except Err Bool)
    (t : SigTree) : Except Err (Code α) :=
  (genLevel gen skip t).map fun b => Code.ops b.1 b.2

/-- c_source.py:832-836 `get_signal_by_name`: the first signal of that name. -/
def getSignal (sigs : List Signal) (name : String) : Except Err Signal :=
  match sigs.find? fun s => s.name == name with
  | some s => .ok s
  | none => .error .keyError

/-- The lines that pack one signal: `dst_p[index] |= pack_…(value, shift, mask)` for every segment.
For signed and float signals the value is first copied to a `uint{width}_t` variable. -/
structure PackSignal where
  member : String
  width : Nat
  segs : List Segment
  deriving DecidableEq, Repr

/-- c_source.py:970-1003 `_format_pack_code_signal`. -/
def genPackSignal (sigs : List Signal) (name : String) : Except Err PackSignal := do
  let s ← getSignal sigs name
  pure { member := name, width := typeLength s, segs := segments s false }

/-- The lines that unpack one signal. -/
structure UnpackSignal where
  member : String
  width : Nat
  segs : List Segment
  /-- Bits of the member for floats (`memcpy`). -/
  floatBits : Option Nat
  /-- Sign extension: tested bit and mask. -/
  extend : Option (Nat × Nat)
  /-- Conversion to `int{width}_t`. -/
  signed : Bool
  deriving DecidableEq, Repr

/-- c_source.py:1124-1135: sign extension.  `1 << (type_length - length)` raises `ValueError` for
signals longer than 64 bits. -/
def signExtension (s : Signal) : Except Err (Option (Nat × Nat)) :=
  if s.conversion.isFloat ∨ s.isSigned = false then .ok none
  else if typeLength s < s.length then .error .valueError
  else if typeLength s = s.length then .ok none
  else .ok (some (s.length - 1, (2 ^ (typeLength s - s.length) - 1) * 2 ^ s.length))

/-- c_source.py:1093-1138 `_format_unpack_code_signal`. -/
def genUnpackSignal (sigs : List Signal) (name : String) : Except Err UnpackSignal := do
  let s ← getSignal sigs name
  let extend ← signExtension s
  pure { member := name, width := typeLength s, segs := segments s true
         floatBits := if s.conversion.isFloat then some (typeName s).bits else none
         extend
         signed := !s.conversion.isFloat && s.isSigned }

/-- c_source.py:1039-1051 `_format_pack_code`. -/
def genPack (m : Message) : Except Err (Code PackSignal) :=
  genBody (genPackSignal m.signals) (fun _ => .ok false) (treeOfCodec m.codec)

/-- c_source.py:1190-1203 `_format_unpack_code`; `receives` is `_is_receiver` (1471-1472). -/
def genUnpack (receives : Signal → Bool) (m : Message) : Except Err (Code UnpackSignal) :=
  genBody (genUnpackSignal m.signals)
    (fun n => (getSignal m.signals n).map fun s => !receives s) (treeOfCodec m.codec)

/-! ### Running the generated functions -/

/-- A struct: integer members have their value, floating point members the bit pattern of their
value. -/
abbrev Struct := String → Int

/-- The controlling expression of a `switch`: a member of integer type.  Switching on a floating
point member does not compile. -/
def lookMember (sigs : List Signal) (st : Struct) (n : String) : Except CErr Int :=
  match getSignal sigs n with
  | .error _ => .error .undefined
  | .ok s => if s.conversion.isFloat then .error .undefined else .ok (st n)

/-- A case label is converted to the promoted type of the controlling expression, which is unsigned
only for 32 and 64 bit unsigned members. -/
def caseLabel (sigs : List Signal) (n : String) (i : Int) : Int :=
  match getSignal sigs n with
  | .error _ => i
  | .ok s => if s.isSigned = false ∧ 32 ≤ typeLength s then i % 2 ^ typeLength s else i

/-- `dst_p[index] |= …`; writing behind the buffer is undefined. -/
def orByte (buf : Bytes) (index v : Nat) : Except CErr Bytes :=
  if index < buf.length then
    .ok (buf.set index (UInt8.ofNat ((buf.getD index 0).toNat ||| v)))
  else .error .undefined

/-- The lines of one segment after the other. -/
def packSegs (width value : Nat) : List Segment → Bytes → Except CErr Bytes
  | [], buf => .ok buf
  | seg :: r, buf => do
    let b ← packHelper width value seg
    let buf ← orByte buf seg.index b
    packSegs width value r buf

/-- The value the segments are taken from: the member converted to `uint{width}_t`; for floats the
first `width / 8` bytes of the member (on a little endian machine). -/
def packValue (src : Struct) (p : PackSignal) : Nat := (src p.member % 2 ^ p.width).toNat

def packMachine (sigs : List Signal) (src : Struct) : Machine PackSignal Bytes where
  step p buf := packSegs p.width (packValue src p) p.segs buf
  look _ n := lookMember sigs src n
  conv n i := caseLabel sigs n i

/-- c_source.py:509-526: the generated pack function, on a buffer whose length is the `size`
argument.  Returns the length of the message and the new content of the buffer.  (Messages of length
0 use 577-602, which does the same.) -/
def pack (m : Message) (code : Code PackSignal) (dst : Bytes) (src : Struct) :
    Except CErr (Nat × Bytes) :=
  if dst.length < m.length then .error .einval
  else
    (code.exec (packMachine m.signals src)
      (List.replicate m.length 0 ++ dst.drop m.length)).map fun buf => (m.length, buf)

/-- `name = unpack_…` for the first segment, `name |= unpack_…` for the others. -/
def unpackSegs (width : Nat) (src : Bytes) : List Segment → Nat → Except CErr Nat
  | [], acc => .ok acc
  | seg :: r, acc =>
    if seg.index < src.length then do
      let v ← unpackHelper width (src.getD seg.index 0).toNat seg
      unpackSegs width src r ((acc ||| v) % 2 ^ width)
    else .error .undefined

/-- c_source.py:604-609: `if ((name & (1u << shift)) != 0u) name |= mask`. -/
def extendSign (width v : Nat) : Option (Nat × Nat) → Except CErr Nat
  | none => .ok v
  | some (shift, mask) => do
    let bit ← shl (if width = 64 then 64 else 32) 1 shift
    pure (if v &&& bit ≠ 0 then (v ||| mask) % 2 ^ width else v)

/-- Conversion of a `uint{width}_t` to `int{width}_t` (two's complement). -/
def toSigned (width v : Nat) : Int := if v < 2 ^ (width - 1) then v else (v : Int) - 2 ^ width

def storeMember (dst : Struct) (n : String) (v : Int) : Struct := fun k => if k = n then v else dst k

/-- The lines of one signal.  `memcpy` of more bytes than the variable has is undefined. -/
def unpackStep (src : Bytes) (u : UnpackSignal) (dst : Struct) : Except CErr Struct := do
  let v ← unpackSegs u.width src u.segs 0
  let v ← extendSign u.width v u.extend
  match u.floatBits with
  | some bits => if bits ≤ u.width then pure (storeMember dst u.member v) else .error .undefined
  | none => pure (storeMember dst u.member (if u.signed then toSigned u.width v else v))

def unpackMachine (sigs : List Signal) (src : Bytes) : Machine UnpackSignal Struct where
  step u dst := unpackStep src u dst
  look dst n := lookMember sigs dst n
  conv n i := caseLabel sigs n i

/-- c_source.py:528-543: the generated unpack function on a buffer whose length is the `size`
argument. -/
def unpack (m : Message) (code : Code UnpackSignal) (dst : Struct) (src : Bytes) :
    Except CErr Struct :=
  if src.length < m.length then .error .einval
  else code.exec (unpackMachine m.signals src) dst

/-! ### Range checks -/

/-- c_source.py:724-737 `minimum_ctype_value`. -/
def minCType (s : Signal) : Option Int :=
  match typeName s with
  | .int w => some (-(2 ^ (w - 1)))
  | .uint _ => some 0
  | _ => none

/-- c_source.py:739-758 `maximum_ctype_value`. -/
def maxCType (s : Signal) : Option Int :=
  match typeName s with
  | .int w => some (2 ^ (w - 1) - 1)
  | .uint w => some (2 ^ w - 1)
  | _ => none

/-- c_source.py:761-768 `minimum_can_raw_value`. -/
def minRaw (s : Signal) : Option Int :=
  if s.conversion.isFloat then none
  else if s.isSigned then some (-(2 ^ (s.length - 1)))
  else some 0

/-- c_source.py:770-777 `maximum_can_raw_value`. -/
def maxRaw (s : Signal) : Option Int :=
  if s.conversion.isFloat then none
  else if s.isSigned then some (2 ^ (s.length - 1) - 1)
  else some (2 ^ s.length - 1)

/-- The generated check: the literals the value is compared with. -/
structure RangeCheck where
  lo : Option Rat
  hi : Option Rat
  deriving DecidableEq, Repr

/-- c_source.py:1284-1293: a bound that is not declared is the one of the raw value, unless the C
type already guarantees it. -/
def defaultBound (raw ctype : Option Int) (tighter : Int → Int → Bool) (declared : Option Rat) :
    Option Rat :=
  match declared, raw with
  | some b, _ => some b
  | none, none => none
  | none, some r =>
    match ctype with
    | none => some r
    | some c => if tighter r c then some r else none

/-- c_source.py:1298-1307, 1309-1318: round the bound, drop it if the C type guarantees it. -/
def literalBound (isFloat : Bool) (ctype : Option Int) (tighter : Rat → Rat → Bool) :
    Option Rat → Option Rat
  | none => none
  | some b =>
    let b := if isFloat then b else (pyRound b : Rat)
    match ctype with
    | none => some b
    | some c => if tighter b c then some b else none

/-- c_source.py:1272-1323 `_generate_is_in_range`. -/
def genRange (s : Signal) : Except Err RangeCheck := do
  let mn ← (match s.minimum with
    | none => pure none
    | some x => (s.conversion.numericScaledToRaw x).map some : Except Err (Option Rat))
  let mx ← (match s.maximum with
    | none => pure none
    | some x => (s.conversion.numericScaledToRaw x).map some : Except Err (Option Rat))
  let mn := defaultBound (minRaw s) (minCType s) (fun a b => a > b) mn
  let mx := defaultBound (maxRaw s) (maxCType s) (fun a b => a < b) mx
  pure { lo := literalBound s.conversion.isFloat (minCType s) (fun a b => a > b) mn
         hi := literalBound s.conversion.isFloat (maxCType s) (fun a b => a < b) mx }

/-- The value of a decimal literal.  With the suffix `u` (c_source.py:662-675) a leading minus wraps
around: `-1u` is `UINT_MAX`.  (The literal before the minus has the first of the types `unsigned
int`, 32 bits, and `unsigned long`, 64 bits, that can hold it.) -/
def literal (s : Signal) (b : Rat) : Rat :=
  match typeName s with
  | .uint w =>
    if b < 0 then (if w = 64 ∨ b ≤ -(2 ^ 32) then b + 2 ^ 64 else b + 2 ^ 32) else b
  | _ => b

/-- The generated `is_in_range` (c_source.py:561-567) on a value of the member's type. -/
def isInRange (s : Signal) (c : RangeCheck) (v : Rat) : Bool :=
  (match c.lo with | none => true | some b => literal s b ≤ v) &&
  (match c.hi with | none => true | some b => v ≤ literal s b)

end Cantools.C
