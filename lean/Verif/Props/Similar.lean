import Verif.Lemmas.Similar
import Mathlib.Tactic.NormNum
import Mathlib.Tactic.FinCases

/-
C41: `Database.is_similar`.
-/

namespace Cantools
open Cantools.Similar Cantools.Spec.Similar

section
variable {n : Nat} {h : Fin n → Node (Fin n)} {ident : Fin n → Nat} {fmt : Bool} {tol : Rat}
  {a b : Fin n}

/-- C41.  The comparison ends, whatever cycles there are in the objects. -/
theorem C41_terminates : ∃ ds, differences h ident fmt tol a b = some ds ∧
    isSimilar h ident fmt tol a b = some ds.isEmpty := by
  obtain ⟨st, hst⟩ := Option.isSome_iff_exists.1 (compare_isSome (h := h) (ident := ident)
    (fmt := fmt) (tol := tol) (a := a) (b := b) (path := []) (st := {}) (fuel := n * n + 1)
    (Nat.lt_succ_of_le (unseen_le _)))
  refine ⟨st.diffs, by simp [differences, hst], by simp [isSimilar, differences, hst]⟩

/-- C41.  Everything reported is a difference: its path can be followed on both sides and leads to
objects that are not compatible. -/
theorem C41_reports_differences (hnd : DistinctNames h) {ds : List Diff}
    (hds : differences h ident fmt tol a b = some ds) {d : Diff} (hd : d ∈ ds) :
    ∃ x y, walk h fmt a d.path = some x ∧ walk h fmt b d.path = some y ∧
      ¬ Compatible fmt tol (h x) (h y) := by
  simp only [differences, Option.map_eq_some_iff] at hds
  obtain ⟨st, hst, rfl⟩ := hds
  rcases compare_sound hnd hst hd with h1 | ⟨sf, x, y, e1, e2, e3, e4⟩
  · cases h1
  · simp only [List.nil_append] at e1
    refine ⟨x, y, by rw [e1]; exact e2, by rw [e1]; exact e3, ?_⟩
    rw [← nodeDiffs_nil hnd]
    exact List.ne_nil_of_mem e4

/-- C41.  Databases between which no sequence of accesses finds a difference are similar. -/
theorem C41_similar_of_no_difference (hnd : DistinctNames h) (hs : SimilarTo h fmt tol a b) :
    isSimilar h ident fmt tol a b = some true := by
  obtain ⟨ds, h1, h2⟩ := C41_terminates (h := h) (ident := ident) (fmt := fmt) (tol := tol)
    (a := a) (b := b)
  rw [h2]
  cases ds with
  | nil => rfl
  | cons d r =>
    obtain ⟨x, y, e1, e2, e3⟩ := C41_reports_differences hnd h1 (d := d) (by simp)
    have := hs d.path
    rw [e1, e2] at this
    exact absurd this e3

/-- C41.  Every database is similar to itself. -/
theorem C41_reflexive (hnd : DistinctNames h) (htol : 0 ≤ tol) :
    isSimilar h ident fmt tol a a = some true := by
  apply C41_similar_of_no_difference hnd
  intro path
  cases walk h fmt a path with
  | none => trivial
  | some x =>
    show Compatible fmt tol (h x) (h x)
    cases hx : h x with
    | float q =>
      simp only [Compatible, Close]
      split
      · rename_i hq
        have : q ≠ 0 := by rintro rfl; norm_num at hq
        rw [div_self this]; simpa using htol
      · simpa using htol
    | _ => simp [Compatible]

/-- C41 (partial).  A difference in any compared attribute, however deep, is detected: two databases
are similar if and only if no sequence of accesses finds a difference.

Partial: it is assumed that different objects have different `id()`s, i.e. that no object is computed
only when an attribute is read; see `C41_reused_id_hides_difference`. -/
theorem C41_similar_iff_partial (hnd : DistinctNames h) (hinj : Function.Injective ident) :
    isSimilar h ident fmt tol a b = some true ↔ SimilarTo h fmt tol a b := by
  refine ⟨?_, C41_similar_of_no_difference hnd⟩
  intro hs
  simp only [isSimilar, differences, Option.map_eq_some_iff] at hs
  obtain ⟨_, ⟨st, hst, rfl⟩, hs⟩ := hs
  have hd : st.diffs = [] := by simpa using hs
  have hroot := (compare_mono hst).2.2
  have closed := fun p q hpq => compare_closed hinj hst (by rw [hd]) (p := p) (q := q) hpq
  intro path
  have gen : ∀ (path : List Access) (x y : Fin n), (ident x, ident y) ∈ st.seen →
      Agree h fmt tol (walk h fmt x path) (walk h fmt y path) := by
    intro path
    induction path with
    | nil =>
      intro x y hxy
      rcases closed x y hxy with h1 | ⟨h1, _⟩
      · cases h1
      · exact (nodeDiffs_nil hnd x y).1 h1
    | cons acc r ih =>
      intro x y hxy
      rcases closed x y hxy with h1 | ⟨h1, h2⟩
      · cases h1
      · rcases step_nodePairs hnd ((nodeDiffs_nil hnd x y).1 h1) acc with
          ⟨u, v, e1, e2, e3⟩ | ⟨e1, e2⟩
        · simp only [walk, e1, e2, Option.bind_some]
          exact ih u v (h2 acc u v e3)
        · simp [walk, e1, e2, Agree]
  exact gen path a b hroot

end

/-! ### Limits of the comparison, and concrete cases -/

namespace Example41

/-- Two databases with one message each.  Objects 0 and 1 are the databases, 2 and 3 their
dictionaries of messages, 4 and 5 the messages (with a reference back to the database, so that there
are cycles), 6 and 7 their names and 8 and 9 numbers. -/
def heap (name : String) (q : Rat) : Fin 12 → Node (Fin 12)
  | 0 => .obj "Database" [("__class__", 10), ("_frame_id_to_message", 2), ("dbc", 10), ("messages", 10)]
  | 1 => .obj "Database" [("__class__", 10), ("_frame_id_to_message", 3), ("dbc", 11), ("messages", 11)]
  | 2 => .dict "dict" [("5", 4)]
  | 3 => .dict "dict" [("5", 5)]
  | 4 => .obj "Message" [("database", 0), ("name", 6), ("scale", 8)]
  | 5 => .obj "Message" [("database", 1), ("name", 7), ("scale", 9)]
  | 6 => .atom "str" "M"
  | 7 => .atom "str" name
  | 8 => .float 2
  | 9 => .float q
  | 10 => .opaque "NoneType"
  | 11 => .atom "int" "7"

theorem distinct (name : String) (q : Rat) : DistinctNames (heap name q) := by
  intro x t attrs hx
  fin_cases x <;> simp only [heap, Node.obj.injEq, reduceCtorEq] at hx <;> obtain ⟨_, rfl⟩ := hx <;>
    decide +kernel

def tol : Rat := 1 / 1000000000000

/-- The same name and a slightly different number: similar, without the format specifics. -/
example : isSimilar (heap "M" (2 + tol)) (fun x => x.val) false tol 0 1 = some true := by
  decide +kernel

example : SimilarTo (heap "M" (2 + tol)) false tol 0 1 :=
  (C41_similar_iff_partial (distinct _ _) Fin.val_injective).1 (by decide +kernel)

/-- A different name is found, with the path to it. -/
example : differences (heap "N" 2) (fun x => x.val) false tol 0 1 =
    some [{ path := [.attr "_frame_id_to_message", .key "5", .attr "name"]
            reason := .valueMismatch }] := by decide +kernel

example : ¬ SimilarTo (heap "N" 2) false tol 0 1 := fun h => by
  have := (C41_similar_iff_partial (ident := fun x => x.val) (distinct _ _) Fin.val_injective).2 h
  revert this
  decide +kernel

/-- With the format specifics the databases differ in `dbc`. -/
example : isSimilar (heap "M" 2) (fun x => x.val) true tol 0 1 = some false := by decide +kernel

end Example41

open Example41 in
/-- C41 (negation).  When the sets of receivers of two messages, which are computed whenever they are
read, get the same `id()`s (the first ones do not exist any more when the second ones are computed),
the difference between the second ones is not found. -/
theorem C41_reused_id_hides_difference :
    let h : Fin 8 → Node (Fin 8) := fun
      | 0 => .seq "list" [2, 3]
      | 1 => .seq "list" [2, 4]
      -- the messages
      | 2 => .obj "Message" [("receivers", 5)]
      | 3 => .obj "Message" [("receivers", 6)]
      | 4 => .obj "Message" [("receivers", 7)]
      -- their receivers
      | 5 => .atom "set" "{'A'}"
      | 6 => .atom "set" "{'B'}"
      | 7 => .atom "set" "{'C'}"
    let ident : Fin 8 → Nat := fun x => if x = 6 ∨ x = 7 then 5 else x.val
    DistinctNames h ∧ isSimilar h ident true tol 0 1 = some true ∧ ¬ SimilarTo h true tol 0 1 := by
  refine ⟨?_, by decide +kernel, ?_⟩
  · intro x t attrs hx
    fin_cases x <;> simp only [Node.obj.injEq, reduceCtorEq] at hx <;> obtain ⟨_, rfl⟩ := hx <;>
      decide +kernel
  · intro hs
    have := hs [.index 1, .attr "receivers"]
    simp [walk, step, compared, listed, dictGet?, Compatible, Agree] at this

open Example41 in
/-- C41 (finding).  Similarity is not symmetric: the difference is relative to the first database. -/
theorem C41_not_symmetric :
    let h : Fin 2 → Node (Fin 2) := fun
      | 0 => .float 2
      | 1 => .float (2 - 2 * tol)
    isSimilar h (fun x => x.val) true tol 0 1 = some true ∧
    isSimilar h (fun x => x.val) true tol 1 0 = some false := by
  decide +kernel

open Example41 in
/-- C41 (finding).  Messages are only compared by frame id: if two messages share one, the dictionary
holds the later one, and a difference in the earlier one is not found. -/
theorem C41_shadowed_message :
    let h : Fin 8 → Node (Fin 8) := fun
      | 0 => .obj "Database" [("_frame_id_to_message", 2), ("messages", 3)]
      | 1 => .obj "Database" [("_frame_id_to_message", 2), ("messages", 4)]
      | 2 => .dict "dict" [("5", 7)]
      | 3 => .seq "list" [5, 7]
      | 4 => .seq "list" [6, 7]
      | 5 => .atom "Message" "one"
      | 6 => .atom "Message" "other"
      | 7 => .atom "Message" "last"
    isSimilar h (fun x => x.val) true tol 0 1 = some true := by
  decide +kernel

end Cantools
