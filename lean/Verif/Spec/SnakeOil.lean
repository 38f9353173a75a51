import Verif.Model.SnakeOil
import Verif.Spec.SecOC

/-
Specification of the example authenticator: a checksum of five columns.
-/

namespace Cantools.Spec.SnakeOil
open Cantools

/-- The exclusive or of the bytes at the positions `j`, `j + 5`, `j + 10`, … -/
def column (l : Bytes) (j : Nat) : UInt8 :=
  ((l.zipIdx.filter fun e => e.2 % 5 = j).map (·.1)).foldr (· ^^^ ·) 0

/-- The secret, repeated for `n` bytes. -/
def repeated (secret : Bytes) (n : Nat) : Bytes := (List.range n).map fun i => secret.getD (i % secret.length) 0

/-- `auth` is the function that the authenticator with this secret computes. -/
def Computes (secret : Bytes) (auth : Bytes → Int → Bytes) : Prop :=
  ∀ data freshness, SnakeOil.authenticator secret data freshness = .ok (auth data freshness)

end Cantools.Spec.SnakeOil
