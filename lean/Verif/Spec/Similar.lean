import Verif.Model.Similar

/-
When two databases are similar: whatever sequence of accesses one follows from both, one finds
compatible things.
-/

namespace Cantools.Spec.Similar
open Cantools Cantools.Similar

variable {α : Type}

/-- The two numbers differ by at most the tolerance, relative to the first if that is large. -/
def Close (tol x y : Rat) : Prop :=
  if 1 < |x| then |1 - y / x| ≤ tol else |y - x| ≤ tol

/-- Is attribute `n` one of the names that have to be the same on both sides? -/
def listed (fmt : Bool) (n : String) : Bool := fmt || !(n == "dbc" || n == "autosar")

/-- Is attribute `n` part of the comparison?  The public attributes are, except that the list of
messages of a database is replaced by the messages by frame id, and the list of signals of a message
by the signals by name. -/
def compared (fmt : Bool) (attrs : List (String × α)) (n : String) : Bool :=
  let has := fun k => (attrs.map (·.1)).contains k
  let byId := has "messages" && has "_frame_id_to_message"
  let byName := has "signals" && has "_signal_dict"
  if n == "_frame_id_to_message" then byId
  else if n == "_signal_dict" then byName
  else listed fmt n && !(n.toList.head? == some '_') &&
    !(n == "messages" && byId) && !(n == "signals" && byName)

/-- The object found by one access. -/
def step (fmt : Bool) : Node α → Access → Option α
  | .seq _ items, .index i => items[i]?
  | .dict _ items, .key k => dictGet? items k
  | .obj _ attrs, .attr n => if compared fmt attrs n then dictGet? attrs n else none
  | _, _ => none

/-- The object found by a sequence of accesses. -/
def walk (h : α → Node α) (fmt : Bool) (a : α) : List Access → Option α
  | [] => some a
  | x :: path => (step fmt (h a) x).bind fun b => walk h fmt b path

/-- Two objects look the same, apart from the objects they refer to. -/
def Compatible (fmt : Bool) (tol : Rat) : Node α → Node α → Prop
  | .opaque t, .opaque t' => t = t'
  | .atom t v, .atom t' v' => t = t' ∧ v = v'
  | .float x, .float y => Close tol x y
  | .seq t xs, .seq t' ys => t = t' ∧ xs.length = ys.length
  | .dict t xs, .dict t' ys => t = t' ∧ ∀ k, k ∈ xs.map (·.1) ↔ k ∈ ys.map (·.1)
  | .obj t xs, .obj t' ys =>
    t = t' ∧ (xs.map (·.1)).filter (listed fmt) = (ys.map (·.1)).filter (listed fmt)
  | _, _ => False

/-- Two compatible objects, or nothing on both sides. -/
def Agree (h : α → Node α) (fmt : Bool) (tol : Rat) : Option α → Option α → Prop
  | some x, some y => Compatible fmt tol (h x) (h y)
  | none, none => True
  | _, _ => False

/-- Following any sequence of accesses from `a` and from `b` leads to compatible objects, or to
nothing on both sides. -/
def SimilarTo (h : α → Node α) (fmt : Bool) (tol : Rat) (a b : α) : Prop :=
  ∀ path, Agree h fmt tol (walk h fmt a path) (walk h fmt b path)

/-- No object has two attributes of the same name. -/
def DistinctNames (h : α → Node α) : Prop :=
  ∀ x t attrs, h x = .obj t attrs → (attrs.map (·.1)).Nodup

end Cantools.Spec.Similar
