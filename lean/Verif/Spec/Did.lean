import Verif.Model.Did
import Verif.Spec.Codec

/-
What it means for the layout of a DID to be usable.
-/

namespace Cantools.Spec
open Cantools

/-- The layout of a DID: distinct names, no empty fields, all fields inside the DID, no bit used
twice, little endian fields in ascending order. -/
structure DidLayout (d : Did) : Prop where
  nodup : (d.datas.map (·.name)).Nodup
  pos : ∀ x ∈ d.datas, 0 < x.length
  fits : ∀ x ∈ d.datas, Fits d.length x.toSignal
  disj : ∀ x ∈ d.datas, ∀ y ∈ d.datas, x ≠ y → Disjoint x.toSignal y.toSignal
  ascending : (d.datas.filter fun x => x.byteOrder = .little).Pairwise fun x y => x.start ≤ y.start

/-- Bit offset of the `i`-th field when fields are put one after the other. -/
def fieldOffset (fields : List CddField) (i : Nat) : Nat :=
  ((fields.take i).map (·.bitLength)).sum

/-- A field of `n` bits at bit offset `o` can be addressed by a start bit: little endian fields,
fields inside a byte, and big endian fields made of whole bytes. -/
def Addressable (o n : Nat) (order : ByteOrder) : Prop :=
  order = .little ∨ o % 8 + n ≤ 8 ∨ (o % 8 = 0 ∧ n % 8 = 0)

end Cantools.Spec
