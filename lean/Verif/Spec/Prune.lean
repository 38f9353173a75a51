/-
What shortening a list of names means (C16).
-/

namespace Cantools.Spec

/-- ASCII letter or underscore. -/
def Letter (c : Char) : Prop := c.isAlpha = true ∨ c = '_'

/-- ASCII letter, digit or underscore. -/
def Word (c : Char) : Prop := c.isAlphanum = true ∨ c = '_'

/-- A Python (ASCII) identifier. -/
def Identifier (l : List Char) : Prop := ∃ c r, l = c :: r ∧ Letter c ∧ ∀ d ∈ r, Word d

/-- All names begin with `p`, which ends with an underscore, and what follows is an identifier. -/
def Strippable (names : List (List Char)) (p : List Char) : Prop :=
  p.getLast? = some '_' ∧ ∀ n ∈ names, ∃ t, n = p ++ t ∧ Identifier t

end Cantools.Spec
