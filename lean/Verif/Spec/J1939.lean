import Verif.Model.J1939

/-
Independent specification of J1939 identifiers (SAE J1939-21): a 29 bit identifier consists of, from
the most significant bit, priority (3), reserved (1), data page (1), PDU format (8), PDU specific (8)
and source address (8); the parameter group number of the 18 bits reserved to PDU specific.
-/

namespace Cantools.Spec
open Cantools

/-- The fields fit in an identifier. -/
structure FrameId.InRange (f : FrameId) : Prop where
  priority : f.priority < 8
  reserved : f.reserved < 2
  dataPage : f.dataPage < 2
  pduFormat : f.pduFormat < 256
  pduSpecific : f.pduSpecific < 256
  sourceAddress : f.sourceAddress < 256

/-- The identifier with given fields. -/
def FrameId.number (f : FrameId) : Nat :=
  f.priority * 2 ^ 26 + f.reserved * 2 ^ 25 + f.dataPage * 2 ^ 24 + f.pduFormat * 2 ^ 16 + f.pduSpecific * 2 ^ 8
    + f.sourceAddress

/-- The fields fit in a parameter group number. -/
structure Pgn.InRange (f : Pgn) : Prop where
  reserved : f.reserved < 2
  dataPage : f.dataPage < 2
  pduFormat : f.pduFormat < 256
  pduSpecific : f.pduSpecific < 256

/-- The parameter group number with given fields. -/
def Pgn.number (f : Pgn) : Nat :=
  f.reserved * 2 ^ 17 + f.dataPage * 2 ^ 16 + f.pduFormat * 2 ^ 8 + f.pduSpecific

/-- In the PDU1 format (PDU format below 240) PDU specific is a destination address and not part of
the parameter group. -/
def IsPdu1 (pduFormat : Nat) : Prop := pduFormat < 240

end Cantools.Spec
