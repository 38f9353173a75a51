import Verif.Model.InvertTree
import Verif.Spec.Codec

/-
What a reader of `Message.signal_tree` sees, and what it should show.
-/

namespace Cantools.Spec
open Cantools

/-- The names listed at the top level of a tree, in order. -/
def levelNames : SigTree → List String
  | .nil => []
  | .leaf n r => n :: levelNames r
  | .mux n _ r => n :: levelNames r

/-- The dictionary given for `name` at the top level of a tree, if there is one. -/
def branchesOf (name : String) : SigTree → Option TreeBranches
  | .nil => none
  | .leaf _ r => branchesOf name r
  | .mux n b r => if n = name then some b else branchesOf name r

/-- The keys of such a dictionary. -/
def branchIds : TreeBranches → List Int
  | .nil => []
  | .cons i _ r => i :: branchIds r

/-- The tree under one key. -/
def branch (i : Int) : TreeBranches → Option SigTree
  | .nil => none
  | .cons j t r => if j = i then some t else branch i r

/-- Walk down a tree, choosing an id of a selector in every step. -/
def follow (tree : SigTree) : List (String × Int) → Option SigTree
  | [] => some tree
  | (n, i) :: path => ((branchesOf n tree).bind (branch i)).bind fun t => follow t path

/-- Is `s` transmitted exactly when the last step taken is selected?  At the root these are the
signals that are not multiplexed. -/
def listedAfter (path : List (String × Int)) (s : Signal) : Bool :=
  match path.getLast? with
  | none => s.multiplexerSignal == none
  | some (n, i) => s.multiplexerSignal == some n && (s.multiplexerIds.getD []).contains i

/-- Selector `s` selects something: it has a dictionary in the tree. -/
def SelectsSome (sigs : List Signal) (s : Signal) : Prop :=
  s.isMultiplexer = true ∧ ∃ i, HasBranch sigs s i

/-- The selector values agree with a multiplexer setting. -/
def Agrees (sel : String → Option Int) (σ : Setting) : Prop :=
  ∀ n i, (n, i) ∈ σ → sel n = some i

end Cantools.Spec
