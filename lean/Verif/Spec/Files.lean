import Verif.Model.Files
import Verif.Spec.Sym

/-
Specification of what a file must keep of the text that is written to it, and of the databases for which it
does so.
-/

namespace Cantools.Spec
open Cantools Dbc

variable {F : Type}

/-! ### Characters -/

/-- The characters of cp1252 that are not in ISO 8859-1. -/
def cp1252Extra : List Char :=
  ['€', '‚', 'ƒ', '„', '…', '†', '‡', 'ˆ', '‰', 'Š', '‹', 'Œ', 'Ž', '‘', '’', '“', '”', '•', '–', '—', '˜', '™', 'š', '›',
   'œ', 'ž', 'Ÿ']

/-- The bytes of these characters; the other bytes from 0x80 to 0x9f are not used. -/
def cp1252Codes : List UInt8 :=
  [0x80, 0x82, 0x83, 0x84, 0x85, 0x86, 0x87, 0x88, 0x89, 0x8a, 0x8b, 0x8c, 0x8e, 0x91, 0x92, 0x93, 0x94, 0x95, 0x96, 0x97,
   0x98, 0x99, 0x9a, 0x9b, 0x9c, 0x9e, 0x9f]

/-- The characters of cp1252. -/
def InCp1252 (c : Char) : Prop := c.toNat < 0x80 ∨ (0xa0 ≤ c.toNat ∧ c.toNat ≤ 0xff) ∨ c ∈ cp1252Extra

/-- Texts of characters of some kind, ASCII among them, are written and read as they are. -/
structure Keeps (codec : Files.Codec) (good : Char → Prop) : Prop where
  ascii : ∀ c : Char, c.toNat < 0x80 → good c
  keeps : ∀ t : Chars, (∀ c ∈ t, good c) → codec.decode (t.flatMap codec.encode) = t

/-! ### The texts of a database -/

/-- The texts among the values of attributes. -/
def valueTexts : AttrVal F → List Chars
  | .num _ => []
  | .str s => [s]

def attrTexts (as : Attrs F) : List Chars := as.flatMap fun e => valueTexts e.2.value

def defTexts (d : AttrDef F) : List Chars := d.name :: (d.choices ++ d.default.toList.flatMap valueTexts)

def signalTexts (s : DSignal F) : List Chars := s.unit.toList ++ (s.comment.toList ++ (s.choices.getD []).map (·.2))

/-- All texts that are written to a DBC file, apart from identifiers. -/
def dbcTexts (db : DDatabase F) : List Chars :=
  db.version.toList ++
  ((db.nodes.flatMap fun n => n.comment.toList ++ attrTexts n.attributes) ++
  ((db.messages.flatMap fun m => m.comment.toList ++ (attrTexts m.attributes ++
    m.signals.flatMap fun s => signalTexts s ++ attrTexts s.attributes)) ++
  ((db.buses.flatMap fun b => b.comment.toList) ++
  (attrTexts db.attributes ++
  ((db.definitions.flatMap fun e => defTexts e.2) ++
  ((db.envvars.flatMap fun e => e.2.unit :: (e.2.comment.toList ++ attrTexts e.2.attributes)) ++
  (db.valueTables.flatMap fun t => t.2.map (·.2))))))))

/-- All texts that are written to a SYM file. -/
def symTexts (db : DDatabase F) : List Chars :=
  db.messages.flatMap fun m => m.name :: (m.comment.toList ++ m.signals.flatMap fun s => s.name :: signalTexts s)

/-- The texts have characters of some kind only, and no carriage returns. -/
def FineTexts (good : Char → Prop) (texts : List Chars) : Prop := ∀ t ∈ texts, ∀ c ∈ t, good c ∧ c ≠ '\r'

/-! ### Conversion -/

/-- A SYM file knows two senders only. -/
def symSenders (m : DMessage F) : DMessage F :=
  { m with senders := if m.senders = [Sym.ecu] ∨ m.senders = [Sym.peripherals] then m.senders
      else [Sym.ecu, Sym.peripherals] }

/-- The database with the senders of a SYM file. -/
def asSym (db : DDatabase F) : DDatabase F := { db with messages := db.messages.map symSenders }

/-- The messages treat frames in the same way: the new one is accepted by the strict check, encodes all data to
the same frame (without padding or if the old one pads with ones) and decodes every frame that is long enough to
the same values and rejects the others. -/
def FramesSurvive (fo : FloatOps) (T : FloatText F) (m m' : DMessage F) : Prop :=
  m'.frameId = m.frameId ∧ m'.isExtendedFrame = m.isExtendedFrame ∧ m'.name = m.name ∧ m'.length = m.length ∧
  ∀ pattern msg, messageOf T pattern true m = .ok msg →
    ∃ msg', messageOf T 0xff true m' = .ok msg' ∧
      (∀ data scaling padding strict payload, (padding = true → pattern = 0xff) →
        (encode fo msg data scaling padding strict = .ok payload ↔
          encode fo msg' data scaling padding strict = .ok payload)) ∧
      ∀ data decodeChoices scaling excess,
        (decode fo msg data decodeChoices scaling false excess = .error .decodeError ∧
          decode fo msg' data decodeChoices scaling false excess = .error .decodeError) ∨
        ∃ r r', decode fo msg data decodeChoices scaling false excess = .ok r ∧
          decode fo msg' data decodeChoices scaling false excess = .ok r' ∧ r'.Perm r

/-- Numbers that are read as floating point numbers have no names. -/
def NoNamedFloats (db : DDatabase F) : Prop :=
  ∀ m ∈ db.messages, ∀ s ∈ m.signals, s.isFloat = true → s.choices = none

end Cantools.Spec
