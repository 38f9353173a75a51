import Verif.Model.Kcd

/-
The characters an XML document can contain.
-/

namespace Cantools.Spec
open Cantools Cantools.Kcd

/-- A character of XML 1.0 (there are no surrogates among the characters). -/
def XmlChar (c : Char) : Prop :=
  c.toNat = 9 ∨ c.toNat = 10 ∨ c.toNat = 13 ∨ (32 ≤ c.toNat ∧ c.toNat ≠ 0xfffe ∧ c.toNat ≠ 0xffff)

/-- A text that can be the value of an attribute. -/
def XmlText (s : String) : Prop := ∀ c ∈ s.toList, XmlChar c

/-- A text that can be the contents of an element and is read as it was written: without carriage
returns. -/
def XmlContent (s : String) : Prop := ∀ c ∈ s.toList, XmlChar c ∧ c.toNat ≠ 13

/-- All texts of a signal can be written. -/
structure TextSignal (k : KSignal) : Prop where
  name : XmlText k.core.name
  unit : ∀ u, k.unit = some u → XmlText u
  comment : ∀ c, k.comment = some c → XmlContent c
  choices : ∀ cs, k.core.conversion.choices = some cs → ∀ e ∈ cs, XmlText e.2.toStr

/-- All texts of a database can be written. -/
structure TextDatabase (db : KDatabase) : Prop where
  version : ∀ v, db.version = some v → XmlText v
  nodes : ∀ n ∈ db.nodes, XmlText n
  names : ∀ m ∈ db.messages, XmlText m.name
  comments : ∀ m ∈ db.messages, ∀ c, m.comment = some c → XmlContent c
  signals : ∀ m ∈ db.messages, ∀ k ∈ m.signals, TextSignal k

/-- The texts of numbers can be written. -/
def _root_.Cantools.Kcd.NumText.Plain (T : NumText) : Prop := ∀ q, XmlText (T.show_ q)

end Cantools.Spec
