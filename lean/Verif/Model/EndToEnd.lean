import Verif.Model.Bitstruct

/-
autosar/end_to_end.py: AUTOSAR end-to-end protection, profiles 2 and 5.
-/

namespace Cantools

/-- One step of the bit-wise CRC algorithm of `crccheck` (neither `Crc8Autosar` nor `Crc16Autosar`
reflects its input or output). -/
def crcShift {w : Nat} (poly r : BitVec w) : BitVec w :=
  (r <<< 1) ^^^ (if r.msb then poly else 0#w)

/-- Several steps. -/
def crcShifts {w : Nat} (poly : BitVec w) : Nat → BitVec w → BitVec w
  | 0, r => r
  | n + 1, r => crcShifts poly n (crcShift poly r)

/-- `crccheck`: processing one byte. -/
def crcByte {w : Nat} (poly r : BitVec w) (b : UInt8) : BitVec w :=
  crcShifts poly 8 (r ^^^ (BitVec.ofNat w b.toNat <<< (w - 8)))

/-- `crccheck`: processing bytes. -/
def crcProcess {w : Nat} (poly r : BitVec w) (data : Bytes) : BitVec w := data.foldl (crcByte poly) r

/-- `crccheck.crc.Crc8Autosar().calc(data)`: polynomial 0x2F, initial value and final xor 0xFF. -/
def crc8Autosar (data : Bytes) : Nat := (crcProcess (0x2f#8) 0xff#8 data ^^^ 0xff#8).toNat

/-- `crccheck.crc.Crc16Autosar().calc(data, initvalue)`: polynomial 0x1021, no final xor. -/
def crc16Autosar (data : Bytes) (initvalue : Nat) : Nat :=
  (crcProcess (0x1021#16) (BitVec.ofNat 16 initvalue) data).toNat

/-- formats/arxml/end_to_end_properties.py:3-10: the properties used. -/
structure E2E where
  dataIds : Option (List Nat)
  payloadLength : Nat := 0

/-- The argument `msg_or_data_id`: a message (without end-to-end properties if `none`) or a data id. -/
inductive MsgOrDataId where
  | msg (e2e : Option E2E)
  | dataId (id : Nat)

/-- end_to_end.py:25-44, 109-127: the data ids and the number of protected bytes; `none` if the
message does not have the right number of data ids. -/
def protection (nIds : Nat) (payload : Bytes) : MsgOrDataId → Option (List Nat × Nat)
  | .dataId id => some ([id], payload.length)
  | .msg none => none
  | .msg (some e) =>
    match e.dataIds with
    | none => none
    | some ids => if ids.length = nIds then some (ids, e.payloadLength) else none

/-- end_to_end.py:39-44: the data id profile 2 uses; for a message it depends on the sequence counter. -/
def dataId2 (ids : List Nat) (payload : Bytes) : MsgOrDataId → Nat
  | .msg _ => ids.getD ((payload.getD 1 0).toNat &&& 0xf) 0
  | .dataId id => id

/-- end_to_end.py:10-53 `compute_profile2_crc`; a data id that is no byte makes `bytearray` raise
`ValueError`. -/
def computeProfile2 (payload : Bytes) (k : MsgOrDataId) : Except Err (Option Nat) :=
  if payload.length < 2 then .ok none
  else
    match protection 16 payload k with
    | none => .ok none
    | some (ids, n) =>
      if dataId2 ids payload k < 256 then
        .ok (some (crc8Autosar ((payload.take n).drop 1 ++ [UInt8.ofNat (dataId2 ids payload k)])))
      else .error .valueError

/-- end_to_end.py:55-73 `apply_profile2_crc`. -/
def applyProfile2 (payload : Bytes) (k : MsgOrDataId) : Except Err (Option Bytes) :=
  match computeProfile2 payload k with
  | .error e => .error e
  | .ok none => .ok none
  | .ok (some crc) => .ok (some (payload.set 0 (UInt8.ofNat crc)))

/-- end_to_end.py:76-92 `check_profile2_crc`. -/
def checkProfile2 (payload : Bytes) (k : MsgOrDataId) : Except Err (Option Bool) :=
  match computeProfile2 payload k with
  | .error e => .error e
  | .ok none => .ok none
  | .ok (some crc) => .ok (some (crc == (payload.getD 0 0).toNat))

/-- end_to_end.py:94-140 `compute_profile5_crc`. -/
def computeProfile5 (payload : Bytes) (k : MsgOrDataId) : Option Nat :=
  if payload.length < 4 then none
  else
    match protection 1 payload k with
    | none => none
    | some (ids, n) =>
      let id := ids.getD 0 0
      let r := crc16Autosar ((payload.take n).drop 2) 0xffff
      let r := crc16Autosar [UInt8.ofNat (id &&& 0xff)] r
      some (crc16Autosar [UInt8.ofNat ((id >>> 8) &&& 0xff)] r)

/-- end_to_end.py:142-164 `apply_profile5_crc`. -/
def applyProfile5 (payload : Bytes) (k : MsgOrDataId) : Option Bytes :=
  match computeProfile5 payload k with
  | none => none
  | some crc =>
    some ((payload.set 0 (UInt8.ofNat (crc &&& 0xff))).set 1 (UInt8.ofNat ((crc >>> 8) &&& 0xff)))

/-- end_to_end.py:166-182 `check_profile5_crc`. -/
def checkProfile5 (payload : Bytes) (k : MsgOrDataId) : Option Bool :=
  match computeProfile5 payload k with
  | none => none
  | some crc => some (crc == (payload.getD 0 0).toNat + (payload.getD 1 0).toNat <<< 8)

end Cantools
