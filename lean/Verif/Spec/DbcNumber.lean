import Verif.Model.DbcFile

/-
Names in a DBC file, and what is assumed about the text of floating point numbers.
-/

namespace Cantools.Spec
open Cantools Cantools.Dbc

/-- A name: letters, digits and underscores, not starting with a digit. -/
def Ident (w : Chars) : Prop :=
  w ≠ [] ∧ (∀ c ∈ w, isWordChar c = true) ∧ ∀ c, w.head? = some c → isDigit c = false

/-- A name that is not a keyword. -/
def Name (w : Chars) : Prop := Ident w ∧ w ∉ keywords

/-- Decimal digits. -/
def Digits (d : Chars) : Prop := d ≠ [] ∧ ∀ c ∈ d, isDigit c = true

/-- A decimal point with digits. -/
def fracText : Option Chars → Chars
  | none => []
  | some f => '.' :: f

/-- An exponent with its sign. -/
def exText : Option (Char × Chars) → Chars
  | none => []
  | some (s, e) => 'e' :: s :: e

/-- A number: sign, digits, perhaps a decimal point with digits, perhaps an exponent. -/
def numberText (negative : Bool) (d : Chars) (frac : Option Chars) (ex : Option (Char × Chars)) : Chars :=
  (if negative then ['-'] else []) ++ (d ++ (fracText frac ++ exText ex))

/-- The text of a floating point number: a number with a decimal point or an exponent. -/
def FloatSyntax (t : Chars) : Prop :=
  ∃ negative d frac ex, t = numberText negative d frac ex ∧ Digits d ∧
    (∀ f, frac = some f → Digits f) ∧ (∀ s e, ex = some (s, e) → (s = '+' ∨ s = '-') ∧ Digits e) ∧
    (frac.isSome = true ∨ ex.isSome = true)

/-- What python's `float` and `str` of finite numbers give: the text of a number is read back as that
number and has a decimal point or an exponent; the text of an integer is read as the number `float`
makes of that integer; integers of at most 53 bits are represented exactly. -/
structure FloatLaws {F : Type} (T : FloatText F) : Prop where
  syntax_ : ∀ f, FloatSyntax (T.show_ f)
  read_show : ∀ f, T.read (T.show_ f) = .ok f
  read_int : ∀ i : Int, T.read (intText i) = .ok (T.ofInt i)
  value_int : ∀ i : Int, i.natAbs ≤ 2 ^ 53 → T.value (T.ofInt i) = i
  show_int : ∀ i : Int, i.natAbs ≤ 2 ^ 53 → readDecimal (T.show_ (T.ofInt i)) = .ok i

end Cantools.Spec
