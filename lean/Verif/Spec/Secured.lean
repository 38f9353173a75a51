import Verif.Spec.SecOC
import Verif.Spec.ArxmlFile

/-
Independent specification of the decoding of secured frames.
-/

namespace Cantools.Spec
open Cantools

/-- The first `n` bits of the bytes, as a number. -/
def LeadingBits (n : Nat) (b : Bytes) (v : Nat) : Prop :=
  v < 2 ^ n ∧ ∀ i, i < n → v.testBit (n - 1 - i) = wireBit b i

/-- The settings of a secured frame are complete. -/
structure Complete (s : ArxmlFile.Loader.SecOC) (p : SecOCProps) : Prop where
  payloadLength : p.payloadLength = s.payloadLength
  dataId : s.dataId = some (p.dataId : Int)
  authTxBits : s.authTxBits = some p.authTxBits
  freshnessBits : s.freshnessBits = some p.freshnessBits
  freshnessTxBits : s.freshnessTxBits = some p.freshnessTxBits

end Cantools.Spec
