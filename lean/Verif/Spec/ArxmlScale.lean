import Verif.Model.ArxmlScale
import Mathlib.Data.Nat.Digits.Defs

/-!
What the numbers and the `COMPU-METHOD`s of an ARXML file say.
-/

namespace Cantools.Spec

open Regex (Chars)
open ArxmlScale (FloatRead CompuScale CompuMethod Coeffs)

/-- The digits `0`–`9`, `a`–`f`. -/
def digitText (ds : List Nat) : Chars := ds.map Nat.digitChar

/-- A sign and the integer it makes of a number. -/
inductive Sign : Chars → (Nat → Int) → Prop
  | none : Sign [] fun n => (n : Int)
  | plus : Sign ['+'] fun n => (n : Int)
  | minus : Sign ['-'] fun n => -(n : Int)

/-- `w` (in lower case) is an integer of an ARXML file, as in C: decimal, octal with a leading zero,
hexadecimal or binary; in addition `true`, `false` and nothing at all stand for 1, 0 and 0.  The most
significant digit comes first. -/
inductive IntegerText : Chars → Int → Prop
  | empty : IntegerText [] 0
  | yes : IntegerText ['t', 'r', 'u', 'e'] 1
  | no : IntegerText ['f', 'a', 'l', 's', 'e'] 0
  | decimal {sign f d ds} (h : Sign sign f) (hd : 0 < d) (hds : ∀ x ∈ d :: ds, x < 10) :
      IntegerText (sign ++ digitText (d :: ds)) (f (Nat.ofDigits 10 (d :: ds).reverse))
  | zero {sign f} (h : Sign sign f) : IntegerText (sign ++ ['0']) 0
  | octal {sign f ds} (h : Sign sign f) (hne : ds ≠ []) (hds : ∀ x ∈ ds, x < 8) :
      IntegerText (sign ++ '0' :: digitText ds) (f (Nat.ofDigits 8 ds.reverse))
  | hexadecimal {sign f ds} (h : Sign sign f) (hne : ds ≠ []) (hds : ∀ x ∈ ds, x < 16) :
      IntegerText (sign ++ '0' :: 'x' :: digitText ds) (f (Nat.ofDigits 16 ds.reverse))
  | binary {sign f ds} (h : Sign sign f) (hne : ds ≠ []) (hds : ∀ x ∈ ds, x < 2) :
      IntegerText (sign ++ '0' :: 'b' :: digitText ds) (f (Nat.ofDigits 2 ds.reverse))

/-- `w` (in lower case) looks like a decimal number with a decimal point or an exponent. -/
def FractionText (w : Chars) : Prop :=
  (∀ c ∈ w, ('0' ≤ c ∧ c ≤ '9') ∨ c ∈ ['+', '-', '.', 'e']) ∧ ('.' ∈ w ∨ 'e' ∈ w)

/-- `w` (in lower case) stands for the number `q`: an integer, or a floating point number whose value
`float` knows. -/
inductive NumberText (F : FloatRead) (w : Chars) : Rat → Prop
  | integer {i : Int} (h : IntegerText w i) : NumberText F w i
  | fraction {q : Rat} (h : FractionText w) (hq : F.float w = some q) : NumberText F w q

/-- A sign before an octal number. -/
def SignedOctal (w : Chars) : Prop :=
  ∃ c d r, w = c :: '0' :: d :: r ∧ (c = '+' ∨ c = '-') ∧ '0' ≤ d ∧ d ≤ '9'

/-- A superfluous zero before a number with a decimal point or an exponent. -/
def PaddedFraction (w : Chars) : Prop :=
  FractionText w ∧ ∃ d r, w = '0' :: d :: r ∧ '0' ≤ d ∧ d ≤ '9'

/-- The text `t` of an element stands for `q`: letter case and blanks around it do not matter. -/
def ElementText (F : FloatRead) (t : Chars) (q : Rat) : Prop :=
  ∃ a w b, t = a ++ w ++ b ∧ (∀ c ∈ a ++ b, c ∈ [' ', '\t', '\n', '\r']) ∧
    NumberText F (w.map Char.toLower) q

/-- The two ways of writing a number that are not understood. -/
def Awkward (t : Chars) : Prop :=
  ∃ a w b, t = a ++ w ++ b ∧ (∀ c ∈ a ++ b, c ∈ [' ', '\t', '\n', '\r']) ∧
    (SignedOctal (w.map Char.toLower) ∨ PaddedFraction (w.map Char.toLower))

/-- The number a text stands for, written in a way that is understood. -/
def PlainNumber (F : FloatRead) (t : Chars) (q : Rat) : Prop := ElementText F t q ∧ ¬ Awkward t

/-- What a scale says about the raw values of its interval: a name, or the physical value
`(v0 + v1 * raw) / d`. -/
inductive ScaleBody where
  | name (n : String)
  | linear (v0 v1 d : Rat)

/-- The contents of a `COMPU-SCALE`; a missing limit does not restrict the interval. -/
structure ScaleContent where
  lower : Option Rat
  upper : Option Rat
  body : ScaleBody

/-- The raw value belongs to the interval of the scale. -/
def ScaleContent.Contains (c : ScaleContent) (raw : Rat) : Prop :=
  (∀ l, c.lower = some l → l ≤ raw) ∧ ∀ u, c.upper = some u → raw ≤ u

/-- The text of a limit. -/
def LimitText (F : FloatRead) : Option Chars → Option Rat → Prop
  | none, none => True
  | some t, some q => PlainNumber F t q
  | _, _ => False

/-- The element `s` says `c`.  Without coefficients the physical value is the raw value. -/
inductive ScaleSays (F : FloatRead) (s : CompuScale) : ScaleContent → Prop
  | name {l u n} (hl : LimitText F s.lower l) (hu : LimitText F s.upper u) (hv : s.vt = some n) :
      ScaleSays F s { lower := l, upper := u, body := .name n }
  | plain {l u} (hl : LimitText F s.lower l) (hu : LimitText F s.upper u) (hv : s.vt = none)
      (hc : s.coeffs = none) : ScaleSays F s { lower := l, upper := u, body := .linear 0 1 1 }
  | rational {l u t0 t1 td v0 v1 d} (hl : LimitText F s.lower l) (hu : LimitText F s.upper u)
      (hv : s.vt = none) (hc : s.coeffs = some { numerators := [t0, t1], denominators := [td] })
      (h0 : PlainNumber F t0 v0) (h1 : PlainNumber F t1 v1) (hd : PlainNumber F td d)
      (hne : d ≠ 0) : ScaleSays F s { lower := l, upper := u, body := .linear v0 v1 d }

/-- The scale gives a name to a single integer. -/
def NamesOne (c : ScaleContent) : Prop :=
  ∃ (n : String) (i : Int), c.body = .name n ∧ c.lower = some (i : Rat) ∧ c.upper = some (i : Rat)

/-- The scale is an increasing linear function on an interval that is not empty. -/
def Increasing (c : ScaleContent) : Prop :=
  ∃ v0 v1 d, c.body = .linear v0 v1 d ∧ 0 < v1 / d ∧
    ∀ l u, c.lower = some l → c.upper = some u → l ≤ u

/-- The compu methods that are loaded without loss: names of single numbers, no number having two,
and at most one linear function, an increasing one. -/
structure SupportedScales (cs : List ScaleContent) : Prop where
  each : ∀ c ∈ cs, NamesOne c ∨ Increasing c
  names : cs.Pairwise fun c c' => NamesOne c → NamesOne c' → c.lower ≠ c'.lower
  one : cs.Pairwise fun c c' => ¬ (Increasing c ∧ Increasing c')

/-- The scales a category allows. -/
def CategoryAllows : ArxmlScale.Category → List ScaleContent → Prop
  | .texttable, cs => ∀ c ∈ cs, NamesOne c
  | .linear, cs => cs.length ≤ 1 ∧ ∀ c ∈ cs, Increasing c
  | .linearAndTexttable, _ => True
  | .other, _ => False

/-- The value the user sees for a raw value according to the scale. -/
def ScaleShows (c : ScaleContent) (raw : Int) (v : Value) : Prop :=
  match c.body with
  | .name n => v = .named { value := raw, name := n }
  | .linear v0 v1 d => v = .num ((v0 + v1 * raw) / d)

end Cantools.Spec
