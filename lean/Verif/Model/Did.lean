import Verif.Model.Message

/-
Diagnostic identifiers: database/diagnostics/did.py, data.py and the layout part of
formats/cdd.py: here a DID element of a CDD file is the list of its data objects, each with the
fields of its data type.  For the elements of the file see Cdd.lean.
-/

namespace Cantools

/-- database/diagnostics/data.py:8-51 `Data`: the attributes used for encoding and decoding, and the unit. -/
structure Data where
  name : String
  start : Nat
  length : Nat
  byteOrder : ByteOrder := .little
  conversion : Conversion := .base (.identity false)
  minimum : Option Rat := none
  maximum : Option Rat := none
  unit : Option String := none
  deriving DecidableEq, Repr

/-- What the shared functions of database/utils.py (written for `Signal | Data`) see of a `Data`;
data.py:51: never signed. -/
def Data.toSignal (d : Data) : Signal :=
  { name := d.name, start := d.start, length := d.length, byteOrder := d.byteOrder
    conversion := d.conversion, minimum := d.minimum, maximum := d.maximum }

/-- database/diagnostics/did.py:17-31 `Did`. -/
structure Did where
  identifier : Int := 0
  name : String := ""
  length : Nat
  datas : List Data
  deriving Repr

/-- The signals of the codec, did.py:134-142 `refresh`. -/
def Did.signals (d : Did) : List Signal := d.datas.map Data.toSignal

/-- The hexadecimal digits python's `hex` prints after `0x`, as numbers. -/
def hexDigits (n : Nat) : List Nat :=
  if n < 16 then [n] else hexDigits (n / 16) ++ [n % 16]

/-- `binascii.unhexlify` on digits; an odd number of digits raises `binascii.Error`, a
`ValueError`. -/
def unhexlify : List Nat → Except Err Bytes
  | [] => .ok []
  | [_] => .error .valueError
  | a :: b :: r => (unhexlify r).map (UInt8.ofNat (16 * a + b) :: ·)

/-- did.py:82-103 `Did.encode`. -/
def Did.encode (fo : FloatOps) (d : Did) (data : List (String × Value)) (scaling : Bool) :
    Except Err Bytes := do
  let encoded ← encodeData fo data d.signals (createFormats d.signals d.length) scaling
  let bytes ← unhexlify ((hexDigits (encoded ||| (0x80 <<< (8 * d.length)))).drop 2)
  return bytes.take d.length

/-- did.py:105-132 `Did.decode`. -/
def Did.decode (fo : FloatOps) (d : Did) (data : Bytes)
    (decodeChoices scaling allowTruncated allowExcess : Bool) :
    Except Err (List (String × Value)) :=
  decodeData fo (data.take d.length) d.length d.signals (createFormats d.signals d.length)
    decodeChoices scaling allowTruncated allowExcess

/-- database/utils.py:309-319 `cdd_offset_to_dbc_start_bit`. -/
def cddOffsetToDbcStartBit (offset bitLength : Nat) : ByteOrder → Nat
  | .big => 8 * (offset / 8) + min 7 (offset % 8 + bitLength - 1)
  | .little => offset

/-- One data object of a DID element with the fields of its data type, formats/cdd.py:18-42
`DataType`.  cdd.py:128-129: a data type of zero bits is rejected, so lengths are positive. -/
structure CddField where
  name : String
  bitLength : Nat
  byteOrder : ByteOrder
  conversion : Conversion
  minimum : Option Rat := none
  maximum : Option Rat := none
  unit : Option String := none

/-- cdd.py:146-177 `_load_data_element`. -/
def loadDataElement (f : CddField) (offset : Nat) : Data :=
  { name := f.name, start := cddOffsetToDbcStartBit offset f.bitLength f.byteOrder
    length := f.bitLength, byteOrder := f.byteOrder, conversion := f.conversion
    minimum := f.minimum, maximum := f.maximum, unit := f.unit }

/-- cdd.py:197-204: the data objects one after the other, from a bit offset on; gives the datas and
the final offset. -/
def loadDatas (offset : Nat) : List CddField → List Data × Nat
  | [] => ([], offset)
  | f :: r =>
    let data := loadDataElement f offset
    let rest := loadDatas (offset + data.length) r
    (data :: rest.1, rest.2)

/-- cdd.py:180-218 `_load_did_element`. -/
def loadDidElement (identifier : Int) (name : String) (fields : List CddField) : Did :=
  let r := loadDatas 0 fields
  { identifier, name, length := (r.2 + 7) / 8, datas := r.1 }

end Cantools
