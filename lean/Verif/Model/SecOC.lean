import Verif.Model.J1939

/-
autosar/secoc.py: AUTOSAR secure on-board communication.
-/

namespace Cantools

/-- formats/arxml/secoc_properties.py: the properties used.  They may be `None` in the code, which leads
to an `AssertionError` or to a malformed format; this is not modelled. -/
structure SecOCProps where
  payloadLength : Nat
  dataId : Nat
  authTxBits : Nat
  freshnessBits : Nat
  freshnessTxBits : Nat

/-- bitstruct `r<n>`: the first `n` bits of the bytes, filled up with zeros. -/
def rawField (n : Nat) (b : Bytes) : List Bool :=
  (bytesToBits b).take n ++ List.replicate (n - 8 * b.length) false

/-- bitstruct `pack_into`: the bits replace those of the buffer from `offset` on; an error if the buffer
is too short. -/
def packInto (buf : Bytes) (offset : Nat) (bits : List Bool) : Except Err Bytes :=
  let old := bytesToBits buf
  let new := old.take offset ++ bits
  let all := new ++ old.drop new.length
  if all.length > old.length then .error .packError else .ok (bitsToBytes all)

/-- The data passed to the authenticator function, secoc.py:37-43; fields of size 0 are malformed, and
data id and freshness value have to fit. -/
def authData (s : SecOCProps) (payload : Bytes) (freshness : Int) : Except Err Bytes :=
  if s.payloadLength = 0 ∨ s.freshnessBits = 0 then .error .packError
  else if 2 ^ 16 ≤ s.dataId ∨ freshness < 0 ∨ 2 ^ s.freshnessBits ≤ freshness then .error .packError
  else .ok (bitsToBytes (natBits 16 s.dataId ++ rawField (s.payloadLength * 8) (payload.take s.payloadLength) ++
    natBits s.freshnessBits freshness.toNat))

/-- secoc.py:20-46 `compute_authenticator`; `none` is a message that is not secured. -/
def computeAuthenticator (s : Option SecOCProps) (auth : Bytes → Int → Bytes) (payload : Bytes)
    (freshness : Int) : Except Err Bytes :=
  match s with
  | none => .error .error
  | some s =>
    match authData s payload freshness with
    | .error e => .error e
    | .ok d => .ok (auth d freshness)

/-- secoc.py:48-91 `apply_authenticator`; `RuntimeError` is represented by `Err.typeError`. -/
def applyAuthenticator (s : Option SecOCProps) (auth : Bytes → Int → Bytes) (payload : Bytes)
    (freshness : Int) : Except Err Bytes :=
  match s with
  | none => .error .typeError
  | some s =>
    match computeAuthenticator (some s) auth payload freshness with
    | .error e => .error e
    | .ok value =>
      if s.freshnessTxBits = 0 ∨ s.authTxBits = 0 then .error .packError
      else packInto payload (s.payloadLength * 8)
        (natBits s.freshnessTxBits (freshness % 2 ^ s.freshnessTxBits).toNat ++ rawField s.authTxBits value)

/-- secoc.py:93-105 `verify_authenticator`. -/
def verifyAuthenticator (s : Option SecOCProps) (auth : Bytes → Int → Bytes) (payload : Bytes)
    (freshness : Int) : Except Err Bool :=
  match applyAuthenticator s auth payload freshness with
  | .error e => .error e
  | .ok tmp => .ok (payload == tmp)

end Cantools
