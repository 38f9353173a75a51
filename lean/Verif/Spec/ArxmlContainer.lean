import Verif.Spec.ArxmlFile
import Verif.Spec.Container

/-
What is shown for a container of an ARXML file (C61).
-/

namespace Cantools.Spec.SystemFile

/-- What is shown for a message with the signals `ss`, given its bytes. -/
structure PartShows (fo : FloatOps) (d : PartContent) (ss : List SignalContent) (data : Bytes)
    (r : List (String × Value)) : Prop where
  nodup : (r.map (·.1)).Nodup
  names : ∀ n, n ∈ r.map (·.1) ↔ n ∈ ss.map (·.name) ++ (trailerIn d.name d.trailer).map (·.name)
  signals : ∀ s ∈ ss, ∃ raw v, RawIn fo (fieldOf s) data raw ∧ dictGet? r s.name = some v ∧ Shows s raw v
  trailer : ∀ s ∈ trailerIn d.name d.trailer, ∃ i : Int, ReadsAs s data i ∧ dictGet? r s.name = some (.num i)

/-- What is shown for an entry of a container: its header id and its bytes. -/
inductive EntryShows (fo : FloatOps) (parts : List PartContent) : Nat × Bytes → DecodedEntry → Prop
  /-- a header id that the document does not know -/
  | unknown {id b} (h : ∀ d ∈ parts, d.headerId ≠ id) : EntryShows fo parts (id, b) (.inr id, .inl b)
  /-- too few or too many bytes -/
  | length {d b m} (h : d ∈ parts) (hm : m.headerId = some d.headerId ∧ m.msg.name = d.name)
      (hl : b.length ≠ d.length) : EntryShows fo parts (d.headerId, b) (.inl m, .inl b)
  | part {d ss b m r} (h : d ∈ parts) (hm : m.headerId = some d.headerId ∧ m.msg.name = d.name)
      (hl : b.length = d.length) (hs : d.pdu.signals? = some ss) (hr : PartShows fo d ss b r) :
      EntryShows fo parts (d.headerId, b) (.inl m, .inr r)

/-- The bytes of a container with these entries; the headers are big endian or not. -/
def entriesBytes (big : Bool) (es : List (Nat × Bytes)) : Bytes := es.flatMap fun e => header big e.1 e.2.length ++ e.2

end Cantools.Spec.SystemFile
