/-
Basic vocabulary of the model: exceptions, byte strings, dictionaries.
-/

namespace Cantools

/-- The python exception classes the modelled code can raise (texts of the messages are not
modelled).  `packError` stands for the range errors of `bitstruct` (`bitstruct.Error` in the python
implementation, `OverflowError` in the C implementation). -/
inductive Err where
  | error            -- cantools.database.errors.Error
  | encodeError      -- cantools.database.errors.EncodeError
  | decodeError      -- cantools.database.errors.DecodeError
  | keyError
  | valueError
  | typeError
  | indexError
  | overflowError
  | zeroDivisionError
  | recursionError
  | assertionError
  | packError
  | runtimeError
  | attributeError
  deriving DecidableEq, Repr

instance {ε α : Type} [DecidableEq ε] [DecidableEq α] : DecidableEq (Except ε α) := fun a b =>
  match a, b with
  | .ok x, .ok y => if h : x = y then isTrue (by rw [h]) else isFalse (by intro e; cases e; exact h rfl)
  | .error x, .error y =>
      if h : x = y then isTrue (by rw [h]) else isFalse (by intro e; cases e; exact h rfl)
  | .ok _, .error _ => isFalse (by intro e; cases e)
  | .error _, .ok _ => isFalse (by intro e; cases e)

/-- python `bytes`. -/
abbrev Bytes := List UInt8

/-- python `int.from_bytes(b, "big")`. -/
def fromBytesBig (bs : Bytes) : Nat := bs.foldl (fun acc b => acc * 256 + b.toNat) 0

/-- python `int.from_bytes(b, "little")`. -/
def fromBytesLittle (bs : Bytes) : Nat := fromBytesBig bs.reverse

/-- The `n` low bytes of `v`, most significant first. -/
def bytesBig (v n : Nat) : Bytes :=
  (List.range n).map fun i => UInt8.ofNat (v >>> (8 * (n - 1 - i)))

/-- python `v.to_bytes(n, "big")` for a non-negative `v`. -/
def toBytesBig (v n : Nat) : Except Err Bytes :=
  if v < 256 ^ n then .ok (bytesBig v n) else .error .overflowError

/-- python `v.to_bytes(n, "little")` for a non-negative `v`. -/
def toBytesLittle (v n : Nat) : Except Err Bytes :=
  if v < 256 ^ n then .ok (bytesBig v n).reverse else .error .overflowError

/-- python `d[k] = v`: an existing key keeps its position, a new key goes to the end. -/
def dictSet {κ α : Type} [DecidableEq κ] (d : List (κ × α)) (k : κ) (v : α) : List (κ × α) :=
  match d with
  | [] => [(k, v)]
  | (k', v') :: r => if k' = k then (k, v) :: r else (k', v') :: dictSet r k v

/-- python `d.get(k)`. -/
def dictGet? {κ α : Type} [DecidableEq κ] (d : List (κ × α)) (k : κ) : Option α :=
  match d with
  | [] => none
  | (k', v') :: r => if k' = k then some v' else dictGet? r k

/-- python `d[k]` (raises `KeyError` for a missing key). -/
def dictGet {κ α : Type} [DecidableEq κ] (d : List (κ × α)) (k : κ) : Except Err α :=
  match dictGet? d k with
  | some v => .ok v
  | none => .error .keyError

/-- python `del d[k]` (raises `KeyError` for a missing key). -/
def dictDel {κ α : Type} [DecidableEq κ] (d : List (κ × α)) (k : κ) : Except Err (List (κ × α)) :=
  match d with
  | [] => .error .keyError
  | (k', v') :: r => if k' = k then .ok r else (dictDel r k).map ((k', v') :: ·)

/-- python `d.update(e)`, also `{**d, **e}`. -/
def dictUpdate {κ α : Type} [DecidableEq κ] (d e : List (κ × α)) : List (κ × α) :=
  e.foldl (fun acc kv => dictSet acc kv.1 kv.2) d

/-- python `round(q)` for a number: nearest integer, ties to even. -/
def pyRound (q : Rat) : Int :=
  let f := q.floor
  let r := q - f
  if r < 1/2 then f else if r > 1/2 then f + 1 else if f % 2 = 0 then f else f + 1

/-- python `int(q)` for a number: truncation towards zero. -/
def pyInt (q : Rat) : Int := if 0 ≤ q then q.floor else q.ceil

/-- python `abs(q)`. -/
def pyAbs (q : Rat) : Rat := if q < 0 then -q else q

end Cantools
