import Verif.Model.Container
import Verif.Spec.Codec

/-
What the payload of a container message looks like (C17, C18).
-/

namespace Cantools.Spec

/-- The four header bytes of an entry: a 24 bit id, most significant byte first or last, and the
number of payload bytes. -/
def header (big : Bool) (id len : Nat) : Bytes :=
  (if big then [UInt8.ofNat (id / 65536), UInt8.ofNat (id / 256), UInt8.ofNat id]
   else [UInt8.ofNat id, UInt8.ofNat (id / 256), UInt8.ofNat (id / 65536)]) ++ [UInt8.ofNat len]

/-- The contained message with a header id, or the id itself if there is none. -/
def IsRef (c : Container) (id : Nat) : Ref → Prop
  | .inl m => m ∈ c.contained ∧ m.headerId = some id
  | .inr n => n = id ∧ ∀ m ∈ c.contained, m.headerId ≠ some id

/-- What an entry given to `encode` refers to. -/
def Refers (c : Container) : Header → Ref → Prop
  | .id n, r => IsRef c n r
  | .name s, .inl m => m ∈ c.contained ∧ m.msg.name = s
  | .msg x, .inl m => m ∈ c.contained ∧ m.headerId = x.headerId
  | _, .inr _ => False

/-- The bytes an entry given to `encode` stands for. -/
def Carried (fo : FloatOps) (scaling padding : Bool) (r : Ref) : Payload → Bytes → Prop
  | .raw b, b' => b' = b
  | .signals d, b' => ∃ m, r = .inl m ∧ encode fo m.msg d scaling padding false = .ok b'

/-- Header ids and names of the contained messages are unambiguous. -/
def Unambiguous (c : Container) : Prop :=
  c.contained.Pairwise (fun a b => a.headerId ≠ b.headerId) ∧
  c.contained.Pairwise (fun a b => a.msg.name ≠ b.msg.name)

/-- `data` consists of the entries `es`, and fewer than four bytes after them.  With `truncated`, the
last entry may be shorter than its header says. -/
inductive Consists (c : Container) (truncated : Bool) : Bytes → List (Ref × Bytes) → Prop
  | done {data : Bytes} : data.length < 4 → Consists c truncated data []
  | entry {id : Nat} {r : Ref} {payload rest : Bytes} {es : List (Ref × Bytes)} :
      id < 2 ^ 24 → payload.length < 256 → IsRef c id r → Consists c truncated rest es →
      Consists c truncated (header true id payload.length ++ payload ++ rest) ((r, payload) :: es)
  | cut {id len : Nat} {r : Ref} {payload : Bytes} :
      truncated = true → id < 2 ^ 24 → len < 256 → payload.length < len → IsRef c id r →
      Consists c truncated (header true id len ++ payload) [(r, payload)]

/-- A message constructed successfully from signals with distinct names and conversions made by the
factory (float signals without value table). -/
def Sound (m : Message) : Prop :=
  ∃ fid name len sigs pat ext, (sigs.map (·.name)).Nodup ∧ (∀ s ∈ sigs, Built s.conversion) ∧
    (∀ s ∈ sigs, s.conversion.isFloat = true → s.conversion.choices = none) ∧
    Message.create fid name len sigs pat ext true .default = .ok m

end Cantools.Spec
