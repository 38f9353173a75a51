import Verif.Model.DecodeCommand
import Verif.Spec.Container
import Mathlib.Data.Nat.Digits.Defs

/-
What the `decode` command has to print (C49).
-/

namespace Cantools.Spec
open Cantools Dbc DecodeCommand

/-- A hexadecimal digit. -/
def hexDigit (k : Nat) : Char := "0123456789abcdef".toList.getD k '0'

/-- A number in hexadecimal, without leading zeros. -/
def hexOf (n : Nat) : Chars := if n = 0 then ['0'] else ((Nat.digits 16 n).map hexDigit).reverse

/-- A number in hexadecimal with at least six digits. -/
def hexOf6 (n : Nat) : Chars := (hexOf n).leftpad 6 '0'

/-- The two digits of a byte. -/
def byteHex (b : UInt8) : Chars := [hexDigit (b.toNat / 16), hexDigit (b.toNat % 16)]

/-- The digits of bytes. -/
def bytesHex (b : Bytes) : Chars := (b.map byteHex).flatten

/-- The entry of a signal: its name and its value, and the unit after a number. -/
def EntryOf (T : Texts) (e : Signal × Value) (text : Chars) : Prop :=
  ∃ value, text = e.1.name.toList ++ (": ".toList ++ value) ∧
    match e.2, T.unit e.1 with
    | .num q, none => value = T.num e.1 q
    | .num q, some u => value = T.num e.1 q ++ (' ' :: u)
    | .str t, _ => value = t.toList
    | .named v, _ => value = v.name.toList

/-- The entries show every decoded value once, in the order of the signals of the message. -/
def Lists (T : Texts) (m : Message) (decoded : List (String × Value)) (entries : List Chars) : Prop :=
  ∃ l : List (Signal × Value), (l.map fun e => (e.1.name, e.2)).Perm decoded ∧
    (l.map (·.1)).Sublist m.signals ∧ List.Forall₂ (EntryOf T) l entries

/-- Entries on one line, or one per line. -/
def Shows (single : Bool) (name : String) (entries : List Chars) (text : Chars) : Prop :=
  if single then text = " ".toList ++ name.toList ++ "(".toList ++ joinC ", ".toList entries ++ ")".toList
  else text = "\n".toList ++ name.toList ++ "(\n".toList ++
    joinC ",\n".toList (entries.map ("    ".toList ++ ·)) ++ "\n)".toList

/-- The entry of a contained message. -/
def ContainedText (fo : FloatOps) (T : Texts) (o : Options) (e : Ref × Bytes) (text : Chars) : Prop :=
  match e.1 with
  | .inr id =>
    text = if o.singleLine then
        "(Unknown contained message: Header ID: 0x".toList ++ hexOf id ++ ", Data: ".toList ++ bytesHex e.2 ++ ")".toList
      else "    ".toList ++ hexOf6 id ++ "##".toList ++ bytesHex e.2 ++ " ::\n    Unknown contained message".toList
  | .inl m =>
    ∃ id, m.headerId = some id ∧
    match decode fo m.msg e.2 o.decodeChoices true o.allowTruncated o.allowExcess with
    | .error _ =>
      text = if o.singleLine then m.msg.name.toList ++ ": Undecodable data: ".toList ++ joinC [' '] (e.2.map byteHex)
        else "    ".toList ++ hexOf6 id ++ "##".toList ++ bytesHex e.2 ++ " ::\n    ".toList ++ m.msg.name.toList ++
          ": Undecodable data".toList
    | .ok r => ∃ entries t, Lists T m.msg r entries ∧ Shows o.singleLine m.msg.name entries t ∧
        text = if o.singleLine then t
          else "    ".toList ++ indent (hexOf6 id ++ "##".toList ++ bytesHex e.2 ++ " ::".toList ++ t)

/-- What is printed for a frame. -/
def FrameText (fo : FloatOps) (T : Texts) (o : Options) (db : Db) (f : LogReader.Frame) (text : Chars) : Prop :=
  match db.getByFrameId f.frameId false with
  | .error _ => text = " Unknown frame id ".toList ++ decimal f.frameId ++ " (0x".toList ++ hexOf f.frameId ++ ")".toList
  | .ok m =>
    match m.body with
    | .inl msg =>
      match decode fo msg f.data o.decodeChoices true o.allowTruncated o.allowExcess with
      | .ok r => ∃ entries, Lists T msg r entries ∧ Shows o.singleLine msg.name entries text
      | .error _ => text = " ".toList ++ T.error m.name f.data
    | .inr c =>
      if o.decodeContainers then
        match unpackContainer c f.data o.allowTruncated with
        | .ok es => ∃ texts, List.Forall₂ (ContainedText fo T o) es texts ∧
            text = if o.singleLine then " ".toList ++ m.name.toList ++ "(".toList ++ joinC ", ".toList texts ++ ")".toList
              else "\n".toList ++ m.name.toList ++ "(\n".toList ++ joinC ",\n".toList texts ++ "\n)".toList
        | .error _ => text = " ".toList ++ T.error m.name f.data
      else text = " Frame 0x".toList ++ hexOf f.frameId ++ " is a container message".toList

/-- The messages of a database are ones that passed the strict check. -/
def SoundDb (db : Db) : Prop :=
  ∀ e ∈ db.byId, match e.2.body with
    | .inl m => Sound m
    | .inr c => Unambiguous c ∧ ∀ x ∈ c.contained, Sound x.msg

end Cantools.Spec
