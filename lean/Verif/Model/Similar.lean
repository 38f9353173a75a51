import Verif.Model.Base
import Mathlib.Algebra.Order.Ring.Abs
import Mathlib.Algebra.Order.Ring.Unbundled.Rat

/-
database/can/database.py:139-261: `Database.is_similar` and `_differences`.
-/

namespace Cantools.Similar
open Cantools

/-- A python object, as far as the comparison looks at it; `α` are the objects of the program.  `ty`
is the name of its class.

Simplifications: keys of dictionaries and values that are compared with `==` are represented by a
string, equal strings for equal values; floats are exact and finite; reading an attribute has no
effect and always succeeds. -/
inductive Node (α : Type) where
  /-- `None`, and everything callable. -/
  | opaque (ty : String)
  /-- An `int`, `str`, `set` or `bool`. -/
  | atom (ty value : String)
  | float (q : Rat)
  /-- A list or tuple. -/
  | seq (ty : String) (items : List α)
  | dict (ty : String) (items : List (String × α))
  /-- Any other object with its attributes, in the order of `dir`. -/
  | obj (ty : String) (attrs : List (String × α))

/-- The six cases of `compare` (database.py:187-230). -/
inductive Kind where
  | opaque | atom | float | seq | dict | obj
  deriving DecidableEq, Repr

variable {α : Type}

/-- `type(a)`; which case of `compare` applies is decided by the class. -/
def Node.type : Node α → Kind × String
  | .opaque t => (.opaque, t)
  | .atom t _ => (.atom, t)
  | .float _ => (.float, "float")
  | .seq t _ => (.seq, t)
  | .dict t _ => (.dict, t)
  | .obj t _ => (.obj, t)

/-- One part of a path. -/
inductive Access where
  | index (i : Nat)
  | key (k : String)
  | attr (name : String)
  deriving DecidableEq, Repr

/-- The reasons for a difference. -/
inductive Reason where
  | typeMismatch | valueMismatch | floatRelDiff | floatAbsDiff | lengthMismatch
  | keyOnlyInA (k : String) | keyOnlyInB (k : String) | attribNamesMismatch
  deriving DecidableEq, Repr

/-- A reported difference (database.py:174-180; the rendered values are left out, and the key of a
`key-only-in` difference is in the reason instead of the path). -/
structure Diff where
  path : List Access
  reason : Reason
  deriving DecidableEq, Repr

/-- database.py:225-236: `dir`, without the format specifics if they are not included. -/
def names (fmt : Bool) (attrs : List (String × α)) : List String :=
  if fmt then attrs.map (·.1) else ((attrs.map (·.1)).erase "dbc").erase "autosar"

def hasAttr (attrs : List (String × α)) (n : String) : Bool := attrs.any fun x => x.1 == n

/-- database.py:242-256: the attribute that is compared for a name in the loop, if any. -/
def target (attrs : List (String × α)) (name : String) : Option String :=
  if name == "messages" && hasAttr attrs "_frame_id_to_message" then some "_frame_id_to_message"
  else if name == "signals" && hasAttr attrs "_signal_dict" then some "_signal_dict"
  else if name.toList.head? == some '_' then none
  else some name

/-- Insertion of a string into a sorted list. -/
def insertStr (a : String) : List String → List String
  | [] => [a]
  | b :: r => if a ≤ b then a :: b :: r else b :: insertStr a r

/-- `sorted(…, key=str)`. -/
def sortStr (l : List String) : List String := l.foldr insertStr []

/-- The differences that `compare` adds for two objects themselves: database.py:187-189 (class),
195-197 (values), 200-205 (floats), 209-210 (length), 216-221 (keys), 238-240 (attribute names). -/
def nodeDiffs (fmt : Bool) (tol : Rat) (a b : Node α) : List Reason :=
  if a.type ≠ b.type then [.typeMismatch]
  else match a, b with
  | .atom _ v, .atom _ w => if v ≠ w then [.valueMismatch] else []
  | .float x, .float y =>
    if 1 < |x| then (if tol < |1 - y / x| then [.floatRelDiff] else [])
    else if tol < |y - x| then [.floatAbsDiff] else []
  | .seq _ xs, .seq _ ys => if xs.length ≠ ys.length then [.lengthMismatch] else []
  | .dict _ xs, .dict _ ys =>
    ((sortStr (xs.map (·.1))).filter fun k => !(ys.map (·.1)).contains k).map .keyOnlyInA ++
    ((sortStr (ys.map (·.1))).filter fun k => !(xs.map (·.1)).contains k).map .keyOnlyInB
  | .obj _ xs, .obj _ ys => if names fmt xs ≠ names fmt ys then [.attribNamesMismatch] else []
  | _, _ => []

/-- The pairs that `compare` goes on to compare, with the step leading there: database.py:211-213
(items), 222-223 (common keys), 242-259 (attributes). -/
def nodePairs (fmt : Bool) (a b : Node α) : List (Access × α × α) :=
  if a.type ≠ b.type then []
  else match a, b with
  | .seq _ xs, .seq _ ys =>
    (xs.zip ys).zipIdx.map fun p => (.index p.2, p.1.1, p.1.2)
  | .dict _ xs, .dict _ ys =>
    (sortStr (xs.map (·.1))).filterMap fun k =>
      match dictGet? xs k, dictGet? ys k with
      | some x, some y => some (.key k, x, y)
      | _, _ => none
  | .obj _ xs, .obj _ ys =>
    if names fmt xs ≠ names fmt ys then []
    else (names fmt xs).filterMap fun name =>
      (target xs name).bind fun n =>
        match dictGet? xs n, dictGet? ys n with
        | some x, some y => some (.attr n, x, y)
        | _, _ => none
  | _, _ => []

/-- The variables `seen` and `diffs`. -/
structure State where
  seen : List (Nat × Nat) := []
  diffs : List Diff := []

/-- database.py:178-256 `compare`.  `h` are the contents of the objects and `ident` is python's
`id()`.  Objects that do not exist at the same time (a property may compute a new object every time
it is read) can have the same `id()`.  `fuel` bounds the depth of the recursion, which python does
not need: `compare_isSome`. -/
def compare (h : α → Node α) (ident : α → Nat) (fmt : Bool) (tol : Rat) :
    Nat → α → α → List Access → State → Option State
  | 0, _, _, _, _ => none
  | fuel + 1, a, b, path, st =>
    if (ident a, ident b) ∈ st.seen then some st
    else
      (nodePairs fmt (h a) (h b)).foldlM
        (fun st p => compare h ident fmt tol fuel p.2.1 p.2.2 (path ++ [p.1]) st)
        { seen := (ident a, ident b) :: st.seen
          diffs := st.diffs ++ (nodeDiffs fmt tol (h a) (h b)).map fun r => { path, reason := r } }

/-- database.py:154-261 `_differences` of the objects `a` (`self`) and `b` (`other`). -/
def differences {n : Nat} (h : Fin n → Node (Fin n)) (ident : Fin n → Nat) (fmt : Bool) (tol : Rat)
    (a b : Fin n) : Option (List Diff) :=
  (compare h ident fmt tol (n * n + 1) a b [] {}).map (·.diffs)

/-- database.py:139-152 `is_similar`. -/
def isSimilar {n : Nat} (h : Fin n → Node (Fin n)) (ident : Fin n → Nat) (fmt : Bool) (tol : Rat)
    (a b : Fin n) : Option Bool :=
  (differences h ident fmt tol a b).map (·.isEmpty)

end Cantools.Similar
