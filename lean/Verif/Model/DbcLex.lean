import Verif.Model.Dbc

/-
database/can/formats/dbc.py: the tokens of a DBC file and its grammar.

The grammar is written with the combinators of the package `textparser`, which is not part of the
repository.  The combinators are modelled after their documentation; what they give is a tree of
strings and lists.
-/

namespace Cantools.Dbc
open Cantools

/-! ### Tokens -/

/-- A token: its kind and its text. -/
structure Tok where
  kind : String
  value : Chars
  deriving DecidableEq, Repr

/-- `\d`; python also accepts decimal digits of other scripts. -/
def isDigit (c : Char) : Bool := decide ('0' ≤ c) && decide (c ≤ '9')

/-- dbc.py:378 `[A-Za-z0-9_]`. -/
def isWordChar (c : Char) : Bool :=
  (decide ('A' ≤ c) && decide (c ≤ 'Z')) || (decide ('a' ≤ c) && decide (c ≤ 'z')) || isDigit c ||
    decide (c = '_')

/-- dbc.py:376 `[ \r\n\t]`. -/
def isBlank (c : Char) : Bool :=
  decide (c = ' ') || decide (c = '\r') || decide (c = '\n') || decide (c = '\t')

/-- dbc.py:324-360 `keywords`. -/
def keywords : List Chars :=
  ["BA_", "BA_DEF_", "BA_DEF_DEF_", "BA_DEF_DEF_REL_", "BA_DEF_REL_", "BA_DEF_SGTYPE_", "BA_REL_",
   "BA_SGTYPE_", "BO_", "BO_TX_BU_", "BS_", "BU_", "BU_BO_REL_", "BU_EV_REL_", "BU_SG_REL_", "CAT_",
   "CAT_DEF_", "CM_", "ENVVAR_DATA_", "EV_", "EV_DATA_", "FILTER", "NS_", "NS_DESC_", "SG_",
   "SG_MUL_VAL_", "SGTYPE_", "SGTYPE_VAL_", "SIG_GROUP_", "SIG_TYPE_REF_", "SIG_VALTYPE_",
   "SIGTYPE_VALTYPE_", "VAL_", "VAL_TABLE_", "VERSION"].map (·.toList)

/-- dbc.py:376 `[ \r\n\t]+|//.*?\n`: what is left after white space or a comment. -/
def lexSkip (s : Chars) : Option Chars :=
  match s with
  | '/' :: '/' :: r => (r.dropWhile (· ≠ '\n')).tail? 
  | c :: r => if isBlank c then some (r.dropWhile isBlank) else none
  | [] => none

/-- A sign at the start of a text. -/
def takeSign : Chars → Chars × Chars
  | '-' :: r => (['-'], r)
  | '+' :: r => (['+'], r)
  | r => ([], r)

/-- A decimal point at the start of a text. -/
def takePoint : Chars → Chars × Chars
  | '.' :: r => (['.'], r)
  | r => ([], r)

/-- `([eE][+-]?\d+)?` at the start of a text. -/
def takeExponent (s : Chars) : Chars × Chars :=
  match s with
  | [] => ([], [])
  | c :: r =>
    if c = 'e' ∨ c = 'E' then
      let (sign, r1) := takeSign r
      let (d, r2) := r1.span isDigit
      if d = [] then ([], s) else (c :: (sign ++ d), r2)
    else ([], s)

/-- dbc.py:377 `[-+]?\d+\.?\d*([eE][+-]?\d+)?`: the number and what follows it.  All that comes
after the first digits may be empty, so that the greedy match never has to go back. -/
def lexNumber (s : Chars) : Option (Chars × Chars) :=
  let (sign, r) := takeSign s
  let (d, r1) := r.span isDigit
  if d = [] then none
  else
    let (point, r2) := takePoint r1
    let (frac, r3) := r2.span isDigit
    let (exp, r4) := takeExponent r3
    some (sign ++ (d ++ (point ++ (frac ++ exp))), r4)

/-- dbc.py:378 `[A-Za-z0-9_]+`. -/
def lexWord (s : Chars) : Option (Chars × Chars) :=
  let (w, r) := s.span isWordChar
  if w = [] then none else some (w, r)

/-- dbc.py:362-373, 380-389: the kind of a token of one character. -/
def punct? : Char → Option String
  | '(' => some "("
  | ')' => some ")"
  | '[' => some "["
  | ']' => some "]"
  | ',' => some ","
  | '|' => some "|"
  | '@' => some "@"
  | '+' => some "+/-"
  | '-' => some "+/-"
  | ';' => some ";"
  | ':' => some ":"
  | _ => none

/-- dbc.py:406-407: the kind of a word. -/
def kindOf (w : Chars) : String := if w ∈ keywords then String.ofList w else "WORD"

/-- dbc.py:395-414: one round of the loop: the token, if it is one, and the rest of the text.  The
alternatives of the regular expression are tried in order; `TokenizeError` if only `MISMATCH` is
left. -/
def lexStep (s : Chars) : Except Err (Option Tok × Chars) :=
  match lexSkip s with
  | some r => .ok (none, r)
  | none =>
    match lexNumber s with
    | some (v, r) => .ok (some ⟨"NUMBER", v⟩, r)
    | none =>
      match lexWord s with
      | some (w, r) => .ok (some ⟨kindOf w, w⟩, r)
      | none =>
        match readString s with
        | some (t, r) => .ok (some ⟨"STRING", t⟩, r)
        | none =>
          match s with
          | [] => .error .error
          | c :: r =>
            match punct? c with
            | some k => .ok (some ⟨k, [c]⟩, r)
            | none => .error .error

/-- dbc.py:395-416: the loop, with at most `fuel` rounds. -/
def tokenizeLoop : Nat → Chars → Except Err (List Tok)
  | _, [] => .ok []
  | 0, _ :: _ => .error .recursionError
  | fuel + 1, c :: s =>
    match lexStep (c :: s) with
    | .error e => .error e
    | .ok (t, r) => (tokenizeLoop fuel r).map (t.toList ++ ·)

/-- dbc.py:323-416 `tokenize`: every round takes at least one character. -/
def tokenize (s : Chars) : Except Err (List Tok) := tokenizeLoop s.length s

/-! ### textparser -/

/-- What a pattern matches: the text of a token, or a list. -/
inductive Tree where
  | str (s : Chars)
  | list (l : List Tree)

/-- A pattern: what it matches at the start of a list of tokens, and the tokens that are left. -/
abbrev Pattern := List Tok → Option (Tree × List Tok)

/-- A token of a given kind. -/
def tokP (kind : String) : Pattern
  | [] => none
  | t :: r => if t.kind = kind then some (.str t.value, r) else none

/-- The patterns one after the other. -/
def seqAll : List Pattern → List Tok → Option (List Tree × List Tok)
  | [], s => some ([], s)
  | p :: ps, s =>
    match p s with
    | none => none
    | some (t, r) =>
      match seqAll ps r with
      | none => none
      | some (ts, r) => some (t :: ts, r)

/-- `Sequence(…)`. -/
def seqP (ps : List Pattern) : Pattern := fun s => (seqAll ps s).map fun r => (.list r.1, r.2)

/-- `choice(…)`: the first pattern that matches.  (If the patterns start with different kinds of
tokens textparser selects one with the next token, which gives the same.) -/
def choiceP : List Pattern → Pattern
  | [], _ => none
  | p :: ps, s =>
    match p s with
    | some r => some r
    | none => choiceP ps s

/-- As often as possible, at most `fuel` times. -/
def manyAll (p : Pattern) : Nat → List Tok → List Tree × List Tok
  | 0, s => ([], s)
  | fuel + 1, s =>
    match p s with
    | none => ([], s)
    | some (t, r) => let (ts, r') := manyAll p fuel r; (t :: ts, r')

/-- `ZeroOrMore(…)`; every pattern it is used with takes a token. -/
def manyP (p : Pattern) : Pattern := fun s =>
  let (ts, r) := manyAll p s.length s
  some (.list ts, r)

/-- `OneOrMore(…)`. -/
def someP (p : Pattern) : Pattern := fun s =>
  match manyAll p s.length s with
  | ([], _) => none
  | (ts, r) => some (.list ts, r)

/-- `Optional(…)`: a list with at most one element. -/
def optP (p : Pattern) : Pattern := fun s =>
  match p s with
  | none => some (.list [], s)
  | some (t, r) => some (.list [t], r)

/-- `DelimitedList(…)` with commas, which are not part of the result. -/
def delimP (p : Pattern) : Pattern := fun s =>
  match p s with
  | none => none
  | some (t, r) =>
    let (ts, r') := manyAll (fun s =>
      match s with
      | [] => none
      | c :: s => if c.kind = "," then p s else none) r.length r
    some (.list (t :: ts), r')

/-- `Any()`. -/
def anyP : Pattern
  | [] => none
  | t :: r => some (.str t.value, r)

/-- `AnyUntil(…)`: all tokens up to the place where the pattern matches. -/
def anyUntilAll (p : Pattern) : List Tok → Option (List Tree × List Tok)
  | [] => none
  | t :: r =>
    match p (t :: r) with
    | some _ => some ([], t :: r)
    | none =>
      match anyUntilAll p r with
      | none => none
      | some (ts, r') => some (.str t.value :: ts, r')

/-- `AnyUntil(…)`. -/
def anyUntilP (p : Pattern) : Pattern := fun s => (anyUntilAll p s).map fun r => (.list r.1, r.2)

/-! ### The grammar (dbc.py:418-538) -/

/-- dbc.py:419. -/
def versionP : Pattern := seqP [tokP "VERSION", tokP "STRING"]
/-- dbc.py:421. -/
def nsP : Pattern := seqP [tokP "NS_", tokP ":", anyUntilP (seqP [anyP, tokP ":"])]
/-- dbc.py:423. -/
def bsP : Pattern := seqP [tokP "BS_", tokP ":"]
/-- dbc.py:425. -/
def nodesP : Pattern := seqP [tokP "BU_", tokP ":", manyP (tokP "WORD")]
/-- dbc.py:427-433. -/
def signalP : Pattern := seqP
  [tokP "SG_", choiceP [seqP [tokP "WORD", tokP "WORD"], seqP [tokP "WORD"]], tokP ":",
   tokP "NUMBER", tokP "|", tokP "NUMBER", tokP "@", tokP "NUMBER", tokP "+/-",
   tokP "(", tokP "NUMBER", tokP ",", tokP "NUMBER", tokP ")",
   tokP "[", tokP "NUMBER", tokP "|", tokP "NUMBER", tokP "]",
   tokP "STRING", delimP (tokP "WORD")]
/-- dbc.py:435-436. -/
def messageP : Pattern := seqP
  [tokP "BO_", tokP "NUMBER", tokP "WORD", tokP ":", tokP "NUMBER", tokP "WORD", manyP signalP]
/-- dbc.py:438-441. -/
def envvarP : Pattern := seqP
  [tokP "EV_", tokP "WORD", tokP ":", tokP "NUMBER", tokP "[", tokP "NUMBER", tokP "|",
   tokP "NUMBER", tokP "]", tokP "STRING", tokP "NUMBER", tokP "NUMBER", tokP "WORD", tokP "WORD",
   tokP ";"]
/-- dbc.py:443-451. -/
def commentP : Pattern := seqP
  [tokP "CM_",
   choiceP [seqP [tokP "SG_", tokP "NUMBER", tokP "WORD", tokP "STRING"],
            seqP [tokP "BO_", tokP "NUMBER", tokP "STRING"],
            seqP [tokP "EV_", tokP "WORD", tokP "STRING"],
            seqP [tokP "BU_", tokP "WORD", tokP "STRING"],
            tokP "STRING"],
   tokP ";"]
/-- dbc.py:453-459. -/
def attrDefP : Pattern := seqP
  [tokP "BA_DEF_", optP (choiceP [tokP "SG_", tokP "BO_", tokP "EV_", tokP "BU_"]), tokP "STRING",
   tokP "WORD", optP (choiceP [delimP (tokP "STRING"), manyP (tokP "NUMBER")]), tokP ";"]
/-- dbc.py:461-462. -/
def attrDefaultP : Pattern := seqP
  [tokP "BA_DEF_DEF_", tokP "STRING", choiceP [tokP "NUMBER", tokP "STRING"], tokP ";"]
/-- dbc.py:464-471. -/
def attrP : Pattern := seqP
  [tokP "BA_", tokP "STRING",
   manyP (choiceP [seqP [tokP "BO_", tokP "NUMBER"], seqP [tokP "SG_", tokP "NUMBER", tokP "WORD"],
                   seqP [tokP "BU_", tokP "WORD"], seqP [tokP "EV_", tokP "WORD"]]),
   choiceP [tokP "NUMBER", tokP "STRING"], tokP ";"]
/-- dbc.py:473-479. -/
def relDefP : Pattern := seqP
  [tokP "BA_DEF_REL_", optP (choiceP [tokP "BU_SG_REL_", tokP "BU_BO_REL_"]), tokP "STRING",
   tokP "WORD", optP (choiceP [delimP (tokP "STRING"), someP (tokP "NUMBER")]), tokP ";"]
/-- dbc.py:481-482. -/
def relDefaultP : Pattern := seqP
  [tokP "BA_DEF_DEF_REL_", tokP "STRING", choiceP [tokP "NUMBER", tokP "STRING"], tokP ";"]
/-- dbc.py:484-486. -/
def signalRelP : Pattern := seqP
  [tokP "BA_REL_", tokP "STRING", tokP "BU_SG_REL_", tokP "WORD", tokP "SG_", tokP "NUMBER",
   tokP "WORD", choiceP [tokP "NUMBER", tokP "STRING"], tokP ";"]
/-- dbc.py:488-490. -/
def messageRelP : Pattern := seqP
  [tokP "BA_REL_", tokP "STRING", tokP "BU_BO_REL_", tokP "WORD", tokP "NUMBER",
   choiceP [tokP "NUMBER", tokP "STRING"], tokP ";"]
/-- dbc.py:492-497. -/
def choicesP : Pattern := seqP
  [tokP "VAL_", optP (tokP "NUMBER"), tokP "WORD", manyP (seqP [tokP "NUMBER", tokP "STRING"]),
   tokP ";"]
/-- dbc.py:499-500. -/
def valueTableP : Pattern := seqP
  [tokP "VAL_TABLE_", tokP "WORD", manyP (seqP [tokP "NUMBER", tokP "STRING"]), tokP ";"]
/-- dbc.py:502-503. -/
def signalTypeP : Pattern := seqP
  [tokP "SIG_VALTYPE_", tokP "NUMBER", tokP "WORD", tokP ":", tokP "NUMBER", tokP ";"]
/-- dbc.py:505-511. -/
def muxValuesP : Pattern := seqP
  [tokP "SG_MUL_VAL_", tokP "NUMBER", tokP "WORD", tokP "WORD",
   delimP (seqP [tokP "NUMBER", tokP "NUMBER"]), tokP ";"]
/-- dbc.py:513-514. -/
def sendersP : Pattern := seqP
  [tokP "BO_TX_BU_", tokP "NUMBER", tokP ":", delimP (tokP "WORD"), tokP ";"]
/-- dbc.py:516-517. -/
def signalGroupP : Pattern := seqP
  [tokP "SIG_GROUP_", tokP "NUMBER", tokP "WORD", tokP "NUMBER", tokP ":", manyP (tokP "WORD"),
   tokP ";"]

/-- dbc.py:519-538: one entry of a file. -/
def entryP : Pattern := choiceP
  [messageP, commentP, attrDefP, valueTableP, choicesP, attrP, signalRelP, messageRelP, relDefP,
   attrDefaultP, relDefaultP, signalGroupP, signalTypeP, muxValuesP, sendersP, envvarP, nodesP, nsP,
   bsP, versionP]

/-- dbc.py:519-538 `Grammar(OneOrMoreDict(…))`: all entries; at least one, and nothing is left. -/
def parseEntries (tokens : List Tok) : Except Err (List Tree) :=
  match manyAll entryP tokens.length tokens with
  | ([], _) => .error .error
  | (ts, []) => .ok ts
  | _ => .error .error

end Cantools.Dbc
