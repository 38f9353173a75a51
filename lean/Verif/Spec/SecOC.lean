import Verif.Model.SecOC
import Verif.Spec.EndToEnd

/-
Independent specification of secured frames.
-/

namespace Cantools.Spec
open Cantools

/-- What is authenticated: the data id, the payload and the full freshness value, as a bit string. -/
structure IsAuthData (s : SecOCProps) (payload : Bytes) (freshness : Nat) (d : Bytes) : Prop where
  length : d.length = (16 + 8 * s.payloadLength + s.freshnessBits + 7) / 8
  dataId : ∀ i, i < 16 → wireBit d i = s.dataId.testBit (15 - i)
  payload : ∀ i, i < 8 * s.payloadLength → wireBit d (16 + i) = wireBit (payload.take s.payloadLength) i
  freshness : ∀ i, i < s.freshnessBits →
    wireBit d (16 + 8 * s.payloadLength + i) = freshness.testBit (s.freshnessBits - 1 - i)
  fill : ∀ i, 16 + 8 * s.payloadLength + s.freshnessBits ≤ i → wireBit d i = false

/-- The trailer of a secured frame: after the payload follow the low bits of the freshness value and the
leading bits of the authenticator. -/
structure HasTrailer (s : SecOCProps) (freshness : Nat) (value : Bytes) (frame : Bytes) : Prop where
  freshness : ∀ i, i < s.freshnessTxBits →
    wireBit frame (8 * s.payloadLength + i) = freshness.testBit (s.freshnessTxBits - 1 - i)
  authenticator : ∀ i, i < s.authTxBits →
    wireBit frame (8 * s.payloadLength + s.freshnessTxBits + i) = wireBit value i

/-- The settings and the freshness value are usable for a frame of `len` bytes. -/
structure Usable (s : SecOCProps) (freshness : Int) (len : Nat) : Prop where
  payload : 0 < s.payloadLength
  dataId : s.dataId < 2 ^ 16
  freshBits : 0 < s.freshnessBits
  txBits : 0 < s.freshnessTxBits
  authBits : 0 < s.authTxBits
  nonneg : 0 ≤ freshness
  fresh : freshness < 2 ^ s.freshnessBits
  fits : 8 * s.payloadLength + s.freshnessTxBits + s.authTxBits ≤ 8 * len

end Cantools.Spec
