import Verif.Spec.DbcFile
import Verif.Model.DbcRelations

/-
Specification of the databases of which a DBC file keeps the attributes of relations.
-/

namespace Cantools.Spec
open Cantools Cantools.Dbc

variable {F : Type}

/-- A definition of an attribute of relations is like other definitions, but for a node with a signal or for
a node with a message. -/
structure WritableRelDef (d : AttrDef F) : Prop where
  kind : d.kind = some "BU_SG_REL_" ∨ d.kind = some "BU_BO_REL_"
  plain : WritableDef { d with kind := none }

/-- A dictionary that is not empty and has only such entries. -/
structure Filled {κ α : Type} (P : κ → α → Prop) (d : List (κ × α)) : Prop where
  some : d ≠ []
  nodup : (d.map (·.1)).Nodup
  all : ∀ e ∈ d, P e.1 e.2

/-- The attributes of a relation with a node: each has a definition and a value of its type. -/
def WritableRelation (defs : Defs F) : Chars → Attrs F → Prop := fun node attributes =>
  Name node ∧ Filled (fun n a => dictGet? defs n = some a.definition ∧ OfType a.definition a.value) attributes

/-- Definitions and attributes of relations a DBC file can keep. -/
structure WritableRelations (db : RDatabase F) : Prop where
  definitions : ∀ e ∈ db.definitions, e.1 = e.2.name ∧ WritableRelDef e.2
  definitionNames : (db.definitions.map (·.1)).Nodup
  signalFrames : (db.relations.signals.map (·.1)).Nodup
  signals : ∀ f ∈ db.relations.signals,
    Filled (fun signal nodes => Name signal ∧ Filled (WritableRelation db.definitions) nodes) f.2
  messageFrames : (db.relations.messages.map (·.1)).Nodup
  messages : ∀ f ∈ db.relations.messages, Filled (WritableRelation db.definitions) f.2

/-- What must hold for the names of signals to be restored if long names are shortened: what has a relation
attribute for the frame id of a message is a signal of the message, or its name cannot be mistaken for a
shortened one. -/
def KeptRelations (db : RDatabase F) : Prop :=
  ∀ f ∈ db.relations.signals, ∀ s ∈ f.2, ∀ m ∈ db.base.messages, dbcFrameId m.frameId m.isExtendedFrame = f.1 →
    s.1 ∈ m.signals.map (·.name) ∨ s.1.length < 32

end Cantools.Spec
