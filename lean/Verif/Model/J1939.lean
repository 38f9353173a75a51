import Verif.Model.Bitstruct

/-
j1939.py: packing and unpacking J1939 identifiers.
-/

namespace Cantools

/-- `bitstruct.pack('u<n1>u<n2>…', v1, v2, …)`: an error if a value is negative or too big; the bits
are padded with zeros to whole bytes. -/
def packU (fields : List (Nat × Int)) : Except Err Bytes :=
  if fields.all fun f => decide (0 ≤ f.2 ∧ f.2 < 2 ^ f.1) then
    .ok (bitsToBytes (fields.flatMap fun f => natBits f.1 f.2.toNat))
  else .error .packError

/-- `bitstruct.unpack('u<n1>u<n2>…', data)` for long enough data. -/
def unpackBitsU : List Nat → List Bool → List Nat
  | [], _ => []
  | n :: r, bits => natOfBits (bits.take n) :: unpackBitsU r (bits.drop n)

/-- `bitstruct.unpack('u<n1>u<n2>…', data)` for long enough data. -/
def unpackU (sizes : List Nat) (data : Bytes) : List Nat := unpackBitsU sizes (bytesToBits data)

/-- j1939.py:7-15 `FrameId`. -/
structure FrameId where
  priority : Nat
  reserved : Nat
  dataPage : Nat
  pduFormat : Nat
  pduSpecific : Nat
  sourceAddress : Nat
  deriving DecidableEq, Repr

/-- j1939.py:18-24 `PGN`. -/
structure Pgn where
  reserved : Nat
  dataPage : Nat
  pduFormat : Nat
  pduSpecific : Nat
  deriving DecidableEq, Repr

/-- j1939.py:31-65 `frame_id_pack`: whatever the reason, the exception is `Error`. -/
def frameIdPack (priority reserved dataPage pduFormat pduSpecific sourceAddress : Int) :
    Except Err Nat :=
  match packU [(3, priority), (1, reserved), (1, dataPage), (8, pduFormat), (8, pduSpecific),
      (8, sourceAddress)] with
  | .error _ => .error .error
  | .ok packed => .ok ((unpackU [29] packed).headD 0)

/-- j1939.py:68-79 `frame_id_unpack`. -/
def frameIdUnpack (frameId : Int) : Except Err FrameId :=
  match packU [(29, frameId)] with
  | .error _ => .error .error
  | .ok packed =>
    match unpackU [3, 1, 1, 8, 8, 8] packed with
    | [p, r, d, f, s, a] => .ok ⟨p, r, d, f, s, a⟩
    | _ => .error .typeError

/-- j1939.py:82-110 `pgn_pack`. -/
def pgnPack (reserved dataPage pduFormat pduSpecific : Int) : Except Err Nat :=
  if pduFormat < 240 ∧ pduSpecific ≠ 0 then .error .error
  else
    match packU [(1, reserved), (1, dataPage), (8, pduFormat), (8, pduSpecific)] with
    | .error _ => .error .error
    | .ok packed => .ok ((unpackU [18] packed).headD 0)

/-- j1939.py:113-124 `pgn_unpack`. -/
def pgnUnpack (pgn : Int) : Except Err Pgn :=
  match packU [(18, pgn)] with
  | .error _ => .error .error
  | .ok packed =>
    match unpackU [1, 1, 8, 8] packed with
    | [r, d, f, s] => .ok ⟨r, d, f, s⟩
    | _ => .error .typeError

/-- j1939.py:127-142 `pgn_from_frame_id`. -/
def pgnFromFrameId (frameId : Int) : Except Err Nat :=
  match frameIdUnpack frameId with
  | .error e => .error e
  | .ok u =>
    pgnPack u.reserved u.dataPage u.pduFormat (if u.pduFormat < 240 then 0 else u.pduSpecific)

end Cantools
