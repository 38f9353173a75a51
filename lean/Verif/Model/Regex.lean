/-
A backtracking matcher for the part of python's `re` that logreader.py uses.  Not part of cantools;
it models the documented semantics of the `re` module: alternatives from left to right, greedy
repetitions longest first, lazy ones shortest first, and the first successful way is taken.

Simplification: the character classes `\d`, `\s` and `\w` are restricted to ASCII.
-/

namespace Cantools.Regex

abbrev Chars := List Char

/-- Values of the named groups. -/
abbrev Groups := List (String × Chars)

def isDigit (c : Char) : Bool := decide ('0' ≤ c ∧ c ≤ '9')
def isSpace (c : Char) : Bool :=
  c == ' ' || decide ('\t' ≤ c ∧ c ≤ '\r') || decide ('\x1c' ≤ c ∧ c ≤ '\x1f')
def isUpperHex (c : Char) : Bool := isDigit c || decide ('A' ≤ c ∧ c ≤ 'F')
def isHex (c : Char) : Bool := isUpperHex c || decide ('a' ≤ c ∧ c ≤ 'f')
def isWord (c : Char) : Bool :=
  isDigit c || decide ('A' ≤ c ∧ c ≤ 'Z') || decide ('a' ≤ c ∧ c ≤ 'z') || c == '_'

/-- Regular expressions. -/
inductive Re where
  /-- Matches the empty string. -/
  | eps
  /-- One character of a class. -/
  | cls (p : Char → Bool)
  | seq (a b : Re)
  | alt (a b : Re)
  /-- `r*` or `r*?`. -/
  | star (greedy : Bool) (r : Re)
  /-- `(?P<name>r)`. -/
  | group (name : String) (r : Re)
  /-- `$`: the end, or before a final newline. -/
  | eos

/-- What is left to match. -/
abbrev Cont := Chars → Groups → Option Groups

/-- Repetition of a matcher; an iteration has to consume something.  `fuel` bounds the number of
iterations, the length of the text is always enough. -/
def iterate (f : Cont → Cont) (greedy : Bool) (k : Cont) : Nat → Cont
  | 0, s, g => k s g
  | fuel + 1, s, g =>
    let more := f (fun s' g' => if s'.length < s.length then iterate f greedy k fuel s' g' else none) s g
    if greedy then more.orElse fun _ => k s g else (k s g).orElse fun _ => more

/-- Match `r` at the beginning of the text and then go on with `k`. -/
def Re.run : Re → Cont → Cont
  | .eps, k => k
  | .cls p, k => fun s g =>
    match s with
    | [] => none
    | c :: r => if p c then k r g else none
  | .seq a b, k => a.run (b.run k)
  | .alt a b, k => fun s g => (a.run k s g).orElse fun _ => b.run k s g
  | .star greedy r, k => fun s g => iterate r.run greedy k s.length s g
  | .group name r, k => fun s g =>
    r.run (fun s' g' => k s' (g' ++ [(name, s.take (s.length - s'.length))])) s g
  | .eos, k => fun s g => if s = [] ∨ s = ['\n'] then k s g else none

/-- `pattern.match(line)`: the groups of the match, if there is one. -/
def Re.match? (r : Re) (line : Chars) : Option Groups := r.run (fun _ g => some g) line []

/-! Abbreviations -/

def Re.plus (greedy : Bool) (r : Re) : Re := .seq r (.star greedy r)
def Re.opt (r : Re) : Re := .alt r .eps
def Re.chr (c : Char) : Re := .cls fun x => x == c
def Re.text : Chars → Re
  | [] => .eps
  | c :: r => .seq (.chr c) (Re.text r)
def Re.times : Nat → Re → Re
  | 0, _ => .eps
  | n + 1, r => .seq r (Re.times n r)
def Re.all : List Re → Re
  | [] => .eps
  | r :: l => .seq r (Re.all l)

/-- `\d` -/
def Re.d : Re := .cls isDigit
/-- `\s` -/
def Re.s : Re := .cls isSpace
/-- `\S` -/
def Re.S : Re := .cls fun c => !isSpace c
/-- `\w` -/
def Re.w : Re := .cls isWord
/-- `[0-9A-F]` -/
def Re.hex : Re := .cls isUpperHex
/-- `.` -/
def Re.any : Re := .cls fun c => c != '\n'

end Cantools.Regex
