import Verif.Model.Message

/-
database/utils.py:322-425: shortening the names in value tables.  Names are handled as lists of
characters.
-/

namespace Cantools

/-- The regular expression class `[A-Za-z_]`. -/
def isLetterU (c : Char) : Bool :=
  (65 ≤ c.toNat && c.toNat ≤ 90) || (97 ≤ c.toNat && c.toNat ≤ 122) || c == '_'

/-- The regular expression class `[0-9A-Za-z_]`. -/
def isWordU (c : Char) : Bool := isLetterU c || (48 ≤ c.toNat && c.toNat ≤ 57)

/-- What `$` leaves out: it matches at the end and before a newline at the end. -/
def dropNewline (l : List Char) : List Char :=
  match l.getLast? with
  | some '\n' => l.dropLast
  | _ => l

/-- utils.py:354 `re.match(r'^[0-9A-Za-z_]*?_([A-Za-z_]+)$', …).group(1)`: the shortest prefix of
word characters that is followed by an underscore and one or more letters or underscores. -/
def singleSuffix : List Char → Option (List Char)
  | [] => none
  | c :: r =>
    if c == '_' && !(dropNewline r).isEmpty && (dropNewline r).all isLetterU then
      some (dropNewline r)
    else if isWordU c then singleSuffix r
    else none

/-- utils.py:392 `valid_name_re`: `^[a-zA-Z_][a-zA-Z0-9_]*$`. -/
def validName (l : List Char) : Bool :=
  match dropNewline l with
  | [] => false
  | c :: r => isLetterU c && r.all isWordU

/-- The longest common prefix of two names. -/
def commonPrefix2 : List Char → List Char → List Char
  | a :: as, b :: bs => if a = b then a :: commonPrefix2 as bs else []
  | _, _ => []

/-- `os.path.commonprefix` (utils.py:370): the longest common prefix of all names. -/
def commonPrefix : List (List Char) → List Char
  | [] => []
  | [a] => a
  | a :: b :: r => commonPrefix2 a (commonPrefix (b :: r))

/-- utils.py:371-384 `full_prefix[0:full_prefix.rfind('_')]`. -/
def beforeLastU (l : List Char) : Option (List Char) :=
  match l.reverse.dropWhile (· ≠ '_') with
  | [] => none
  | _ :: r => some r.reverse

/-- `str.split('_')`. -/
def splitU : List Char → List (List Char)
  | [] => [[]]
  | c :: r =>
    if c = '_' then [] :: splitU r
    else match splitU r with
      | [] => [[c]]
      | s :: rest => (c :: s) :: rest

/-- `'_'.join(…)`. -/
def joinU : List (List Char) → List Char
  | [] => []
  | [s] => s
  | s :: t :: r => s ++ '_' :: joinU (t :: r)

/-- utils.py:393-402: the loop over `i` from the number of segments down to 0; the result is `n`. -/
def pickPrefix (segs names : List (List Char)) : Nat → Option Nat
  | 0 => none
  | i + 1 =>
    let n := (joinU (segs.take (i + 1)) ++ ['_']).length
    if names.all fun x => validName (x.drop n) then some n else pickPrefix segs names i

/-- utils.py:369-402: the number of characters removed from every name of a table with several
entries (0 where the function returns early). -/
def pruneLength (names : List (List Char)) : Nat :=
  match beforeLastU (commonPrefix names) with
  | none => 0
  | some [] => 0
  | some full => (pickPrefix (splitU full) names (splitU full).length).getD 0

/-- utils.py:347-410: the names after pruning, in the order of the table. -/
def pruneNames (names : List (List Char)) : List (List Char) :=
  match names with
  | [x] => [(singleSuffix x).getD x]
  | _ => names.map fun x => x.drop (pruneLength names)

/-- utils.py:359-363, 405-410: set the text of a table entry. -/
def Choice.setName : Choice → String → Choice
  | .str _, s => .str s
  | .named v, s => .named { v with name := s }

/-- utils.py:322-410 on the dictionary `signal.choices`. -/
def pruneTable (cs : Choices) : Choices :=
  (cs.zip (pruneNames (cs.map fun e => e.2.toStr.toList))).map fun p =>
    (p.1.1, p.1.2.setName (String.ofList p.2))

/-- utils.py:322-410 `prune_signal_choices`: the entries of the dictionary are changed in place, so
the inverse table of the conversion object (conversion.py:274-276) stays as it was. -/
def Conversion.prune : Conversion → Conversion
  | .base b => .base b
  | .named s o cs inv b => .named s o (pruneTable cs) inv b

/-- utils.py:322-410 `prune_signal_choices`. -/
def Signal.prune (s : Signal) : Signal := { s with conversion := s.conversion.prune }

mutual
/-- The codec tree refers to the same signal objects as the message, so pruning changes it too. -/
def Codec.prune : Codec → Codec
  | .mk signals muxes => .mk (signals.map Signal.prune) muxes.prune
def Muxes.prune : Muxes → Muxes
  | .nil => .nil
  | .cons n b r => .cons n b.prune r.prune
def Branches.prune : Branches → Branches
  | .nil => .nil
  | .cons i c r => .cons i c.prune r.prune
end

/-- utils.py:413-425 `prune_database_choices` on one (not container) message. -/
def Message.prune (m : Message) : Message :=
  { m with signals := m.signals.map Signal.prune, codec := m.codec.prune }

end Cantools
