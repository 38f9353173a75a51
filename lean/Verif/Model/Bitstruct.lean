import Verif.Model.Base

/-
Contract of the `bitstruct` package as far as cantools uses it (an external dependency; modelled
from its documentation, part of the trusted base).
-/

namespace Cantools

/-- The `n` low bits of `v`, most significant first. -/
def natBits (n v : Nat) : List Bool := (List.range n).map fun i => v.testBit (n - 1 - i)

/-- The number written by a list of bits, most significant first (python `int(s, 2)`). -/
def natOfBits (bs : List Bool) : Nat := bs.foldl (fun acc b => 2 * acc + b.toNat) 0

/-- IEEE packing of `f` fields: `pack n q` gives the `n` bits of the float nearest to `q` (or an
error), `unpack` reads them back.  A parameter of the model; `pack_length` is the part of its
contract every theorem may use. -/
structure FloatOps where
  pack : Nat → Rat → Except Err (List Bool)
  unpack : List Bool → Rat
  pack_length : ∀ n q l, pack n q = .ok l → l.length = n

/-- Field types `u`, `s` and `f` of a bitstruct format. -/
inductive Kind where
  | u | s | f
  deriving DecidableEq, Repr

/-- One item of a bitstruct format: padding `p<n>` or a named field `<kind><n>`. -/
inductive Item where
  | pad (n : Nat)
  | data (k : Kind) (n : Nat) (name : String)
  deriving DecidableEq, Repr

/-- Number of bits of an item. -/
def Item.bits : Item → Nat
  | .pad n => n
  | .data _ n _ => n

/-- Bits of one field value; values out of range raise. -/
def packField (fo : FloatOps) (k : Kind) (n : Nat) (v : Rat) : Except Err (List Bool) :=
  match k with
  | .u =>
    let i := pyInt v
    if 0 ≤ i ∧ i < 2 ^ n then .ok (natBits n i.toNat) else .error .packError
  | .s =>
    let i := pyInt v
    if -(2 ^ (n - 1)) ≤ i ∧ i < 2 ^ (n - 1) then .ok (natBits n (i % 2 ^ n).toNat)
    else .error .packError
  | .f => fo.pack n v

/-- Value of the bits of one field. -/
def unpackField (fo : FloatOps) (k : Kind) (bs : List Bool) : Rat :=
  match k with
  | .u => ((natOfBits bs : Nat) : Rat)
  | .s =>
    let v : Int := natOfBits bs
    if bs.head? = some true then ((v - 2 ^ bs.length : Int) : Rat) else (v : Rat)
  | .f => fo.unpack bs

/-- `CompiledFormatDict.pack(data)` up to the conversion to bytes. -/
def packItems (fo : FloatOps) (vals : List (String × Rat)) : List Item → Except Err (List Bool)
  | [] => .ok []
  | .pad n :: r => do
    let rest ← packItems fo vals r
    return List.replicate n false ++ rest
  | .data k n name :: r => do
    let v ← dictGet vals name
    let bs ← packField fo k n v
    let rest ← packItems fo vals r
    return bs ++ rest

/-- Bits to bytes, most significant bit first, zero filled up to a whole byte. -/
def bitsToBytes (bs : List Bool) : Bytes :=
  (List.range ((bs.length + 7) / 8)).map fun i =>
    UInt8.ofNat (natOfBits ((List.range 8).map fun k => bs.getD (8 * i + k) false))

/-- Bytes to bits, most significant bit first. -/
def bytesToBits (bs : Bytes) : List Bool := bs.flatMap fun b => natBits 8 b.toNat

/-- `CompiledFormatDict.unpack(data)` on the bits of the data.  Too little data raises. -/
def unpackItems (fo : FloatOps) : List Item → List Bool → Except Err (List (String × Rat))
  | [], _ => .ok []
  | .pad n :: r, bs => if bs.length < n then .error .packError else unpackItems fo r (bs.drop n)
  | .data k n name :: r, bs =>
    if bs.length < n then .error .packError
    else do
      let rest ← unpackItems fo r (bs.drop n)
      return (name, unpackField fo k (bs.take n)) :: rest

end Cantools
