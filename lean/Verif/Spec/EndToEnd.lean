import Verif.Model.Base

/-
Independent specification of burst errors.
-/

namespace Cantools.Spec
open Cantools

/-- The bit transmitted as number `i`: bytes in order, most significant bit first. -/
def wireBit (data : Bytes) (i : Nat) : Bool := (data.getD (i / 8) 0).toNat.testBit (7 - i % 8)

/-- `q` is `p` after a burst error: it has the same length, it differs, and all differing bits lie in a
window of `n` consecutive bits. -/
def Burst (n : Nat) (p q : Bytes) : Prop :=
  p.length = q.length ∧ p ≠ q ∧ ∃ s, ∀ i, wireBit p i ≠ wireBit q i → s ≤ i ∧ i < s + n

/-- The payloads agree outside the bytes `lo, …, hi - 1`. -/
def SameOutside (lo hi : Nat) (p q : Bytes) : Prop := ∀ i, i < lo ∨ hi ≤ i → p[i]? = q[i]?

end Cantools.Spec
