import Verif.Model.CUnit

/-
What a body of a generated function refers to.
-/

namespace Cantools.C

/-- The kinds of helpers that a statement calls. -/
def Stmt.calls : Stmt → List (Bool × Nat)
  | .pack _ w g => [(g.left, w)]
  | .unpack _ _ w g => [(g.left, w)]
  | _ => []

/-- The variables and members in a statement. -/
def Stmt.places : Stmt → List Place
  | .memcpy a b => [a, b]
  | .assign a b => [a, b]
  | .pack v _ _ => [v]
  | .unpack v _ _ _ => [v]
  | .extend v _ _ => [v]

mutual
/-- The kinds of helpers that a body calls, also in the cases of its `switch` statements. -/
def Code.calls : Code Stmt → List (Bool × Nat)
  | .nil => []
  | .op a rest => a.calls ++ rest.calls
  | .switch _ cases rest => cases.calls ++ rest.calls
def Cases.calls : Cases Stmt → List (Bool × Nat)
  | .nil => []
  | .cons _ body rest => body.calls ++ rest.calls
end

mutual
/-- The variables and members in a body; a `switch` is on the member of the selector. -/
def Code.places : Code Stmt → List Place
  | .nil => []
  | .op a rest => a.places ++ rest.places
  | .switch n cases rest => .member (camelToSnake n.toList) :: (cases.places ++ rest.places)
def Cases.places : Cases Stmt → List Place
  | .nil => []
  | .cons _ body rest => body.places ++ rest.places
end

/-- The names of the helpers that the functions call. -/
def calledNames (d : Definitions) : List Chars :=
  (d.packs.flatMap fun f => f.body.calls.map (helperName true)) ++
    d.unpacks.flatMap fun f => f.body.calls.map (helperName false)

end Cantools.C
