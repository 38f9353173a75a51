import Verif.Spec.Layout

/-
Independent specification of the picture of a message: how to read the text.  A text is its list of
lines.
-/

namespace Cantools.Spec.Picture
open Cantools Cantools.Spec

/-- The character in a row and a column; right of the end of a line everything is blank. -/
def charAt (lines : List (List Char)) (r c : Nat) : Char := (lines.getD r []).getD c ' '

/-- The first of the three columns of bit `j` of a byte: bit 7 is leftmost, at column `left`, and
there is a separator between two bits. -/
def column (left j : Nat) : Nat := left + 4 * (7 - j)

/-- What the three characters `a`, `b`, `c` of the payload bit with sawtooth number `p` have to be:
blank if no signal is there, `XXX` if two signals are there, and otherwise a part of an arrow with
its head at the most significant bit and its tail at the least significant bit of the signal. -/
structure Shows (sigs : List Signal) (p : Nat) (a b c : Char) : Prop where
  unused : (∀ s ∈ sigs, ¬ Occupies s p) → a = ' ' ∧ b = ' ' ∧ c = ' '
  one : ∀ l₁ s l₂, sigs = l₁ ++ s :: l₂ → Occupies s p → (∀ t ∈ l₁ ++ l₂, ¬ Occupies t p) →
    a = (if bitPos s (s.length - 1) = p then '<' else '-') ∧ b = '-' ∧
    c = (if bitPos s 0 = p then 'x' else '-')
  overlap : ∀ l₁ s l₂ t l₃, sigs = l₁ ++ s :: (l₂ ++ t :: l₃) → Occupies s p → Occupies t p →
    a = 'X' ∧ b = 'X' ∧ c = 'X'

/-- What the separator `x` between the payload bits `p + 1` and `p` of one byte has to be: `|` only
if no signal goes on from one to the other, `-` only if some signal does, and `X` only between two
overlapping bits. -/
structure Separates (sigs : List Signal) (p : Nat) (x : Char) : Prop where
  known : x = '|' ∨ x = '-' ∨ x = 'X'
  bar : x = '|' → ∀ s ∈ sigs, ¬ (Occupies s (p + 1) ∧ Occupies s p)
  dash : x = '-' → ∃ s ∈ sigs, Occupies s (p + 1) ∧ Occupies s p
  cross : x = 'X' → ∀ q, q = p ∨ q = p + 1 →
    ∃ l₁ s l₂ t l₃, sigs = l₁ ++ s :: (l₂ ++ t :: l₃) ∧ Occupies s q ∧ Occupies t q

/-- The text shows the bits of `count` bytes: byte `k` is in row `row k`, bit 7 begins in column
`left`. -/
structure ShowsBits (lines : List (List Char)) (length : Nat) (sigs : List Signal)
    (count left : Nat) (row : Nat → Nat) : Prop where
  /-- All bytes of the message and of its signals are there, and no others. -/
  enough : length ≤ count ∧ ∀ s ∈ sigs, ∀ p, Occupies s p → p / 8 < count
  tight : count = length ∨ ∃ s ∈ sigs, ∃ p, Occupies s p ∧ p / 8 + 1 = count
  /-- The bits are numbered in the row above the rule above the first byte. -/
  heading : row 0 = 4 ∧ ∀ j, j < 8 → charAt lines 2 (column left j + 1) = Nat.digitChar j
  rows : ∀ k, row k < row (k + 1)
  /-- Nothing follows, except for blank lines if there are fewer than eight. -/
  finish : lines.length = max 8 (row count) ∧ ∀ r, row count ≤ r → ∀ c, 2 ≤ c → charAt lines r c = ' '
  /-- The bytes are numbered. -/
  number : ∀ k, k < count → ∃ n, ((lines.getD (row k) []).drop 2).take (left - 4) =
    List.replicate n ' ' ++ Nat.toDigits 10 k
  cells : ∀ k, k < count → ∀ j, j < 8 → Shows sigs (8 * k + j) (charAt lines (row k) (column left j))
    (charAt lines (row k) (column left j + 1)) (charAt lines (row k) (column left j + 2))
  separators : ∀ k, k < count → ∀ j, j < 7 →
    Separates sigs (8 * k + j) (charAt lines (row k) (column left j - 1))

/-- The bit below which the name of a signal is written: the one at the end that is furthest down in
the picture. -/
def endBit (s : Signal) : Nat :=
  match s.byteOrder with
  | .big => bitPos s 0
  | .little => bitPos s (s.length - 1)

/-- The names of the signals that end in byte `k` (`below`, in some order) are written in the rows
after the byte and the rule below it, each from the middle of the bit where the signal ends, with a
vertical line that leads down to it through the rows of the other names. -/
structure ShowsNames (lines : List (List Char)) (sigs : List Signal) (left : Nat)
    (row : Nat → Nat) (k : Nat) (below : List Signal) : Prop where
  all : below.Perm (sigs.filter fun s => endBit s / 8 = k)
  order : below.Pairwise fun s t => endBit s ≤ endBit t
  rows : row k + 2 + below.length ≤ row (k + 1) ∧ row (k + 1) ≤ row k + 3 + below.length
  names : ∀ i s, below[i]? = some s →
    (lines.getD (row k + 2 + i) []).drop (column left (endBit s % 8) + 1) =
      "+-- ".toList ++ s.name.toList
  lines : ∀ i s t, below[i]? = some s → t ∈ below → endBit s < endBit t →
    charAt lines (row k + 2 + i) (column left (endBit t % 8) + 1) = '|'

/-- The last character of the name is visible. -/
def VisibleEnd (name : String) : Prop := ∃ l c, name.toList = l ++ [c] ∧ c.isWhitespace = false

end Cantools.Spec.Picture
