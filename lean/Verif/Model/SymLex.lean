import Verif.Model.DbcFile
import Verif.Model.Regex

/-
database/can/formats/sym.py: the tokens of a SYM file and its grammar.

As for DBC files, the combinators of the package `textparser` are modelled after their documentation.
What they give is a tree of lists and strings in python; here it is a record for every kind of line.
-/

namespace Cantools.Sym
open Cantools Cantools.Dbc

/-! ### Tokens -/

/-- sym.py:56-73 `KEYWORDS`. -/
def keywords : List Chars :=
  ["FormatVersion", "Title", "UniqueVariables", "FloatDecimalPlaces", "BRS", "Enum", "Sig", "ID", "Len",
   "Mux", "CycleTime", "Timeout", "MinInterval", "Color", "Var", "Type"].map (·.toList)

/-- sym.py:111 `//.*?\n`: the comment with its end of line, and what follows it. -/
def lexComment : Chars → Option (Chars × Chars)
  | '/' :: '/' :: r =>
    match r.span (· ≠ '\n') with
    | (body, '\n' :: rest) => some ('/' :: '/' :: (body ++ ['\n']), rest)
    | _ => none
  | _ => none

/-- A minus sign at the start of a text. -/
def takeMinus : Chars → Chars × Chars
  | '-' :: r => (['-'], r)
  | r => ([], r)

/-- `[+-]?\d+`, all of a text. -/
def isExponent (s : Chars) : Bool :=
  let d := (takeSign s).2
  !d.isEmpty && d.all isDigit

/-- `-?\d+\.?[0-9A-F]*([eE][+-]?\d+)?`, all of a text.  An `E` is one of the digits or, if a sign
follows, the start of the exponent. -/
def isHexBody (s : Chars) : Bool :=
  let (d, r1) := (takeMinus s).2.span isDigit
  let (x, r3) := (takePoint r1).2.span Regex.isUpperHex
  !d.isEmpty &&
    match r3 with
    | [] => true
    | 'e' :: r => isExponent r
    | r => decide (x.getLast? = some 'E') && isExponent r

/-- sym.py:112: what comes before the `h` contains no `h`, so that the match ends at the first one. -/
def lexHex (s : Chars) : Option (Chars × Chars) :=
  match s.span (· ≠ 'h') with
  | (body, 'h' :: rest) => if isHexBody body then some (body ++ ['h'], rest) else none
  | _ => none

/-- `(\.\d+)?` at the start of a text. -/
def takeFraction (s : Chars) : Chars × Chars :=
  match s with
  | '.' :: r =>
    let (d, r1) := r.span isDigit
    if d = [] then ([], s) else ('.' :: d, r1)
  | _ => ([], s)

/-- sym.py:113 `-?\d+(\.\d+)?([eE][+-]?\d+)?`. -/
def lexNumber (s : Chars) : Option (Chars × Chars) :=
  let (sign, r) := takeMinus s
  let (d, r1) := r.span isDigit
  if d = [] then none
  else
    let (frac, r2) := takeFraction r1
    let (exp, r3) := takeExponent r2
    some (sign ++ (d ++ (frac ++ exp)), r3)

/-- sym.py:115 `/u:("(\\"|[^"])*?"|\S+)`. -/
def lexUnit : Chars → Option (Chars × Chars)
  | '/' :: 'u' :: ':' :: r =>
    match (match r with
      | '"' :: t => matchString t
      | _ => none) with
    | some (t, rest) => some ('/' :: 'u' :: ':' :: '"' :: (t ++ ['"']), rest)
    | none =>
      let (w, rest) := r.span fun c => !Regex.isSpace c
      if w = [] then none else some ('/' :: 'u' :: ':' :: w, rest)
  | _ => none

/-- sym.py:76-105, 116-142: the tokens with a fixed text, which is their kind too. -/
def literals : List String :=
  ["/f:", "/o:", "/min:", "/max:", "/spn:", "/d:", "/ln:", "/e:", "/p:",
   "-m", "-h", "-b", "-s", "-t", "-v", "-p", "(", ")", "[", "]", ",", "=",
   "{ENUMS}", "{SIGNALS}", "{SEND}", "{RECEIVE}", "{SENDRECEIVE}"]

/-- What follows a prefix. -/
def stripPrefix : Chars → Chars → Option Chars
  | [], s => some s
  | c :: p, d :: s => if c = d then stripPrefix p s else none
  | _ :: _, [] => none

/-- The first token with a fixed text that matches. -/
def lexLiteral (s : Chars) : Option (Tok × Chars) :=
  literals.findSome? fun l => (stripPrefix l.toList s).map fun r => (⟨l, l.toList⟩, r)

/-- sym.py:143 `[^\s=\(\]\-]`. -/
def isWordC (c : Char) : Bool :=
  !Regex.isSpace c && !(decide (c = '=') || decide (c = '(') || decide (c = ']') || decide (c = '-'))

/-- sym.py:160-161: the kind of a word. -/
def kindOf (w : Chars) : String := if w ∈ keywords then String.ofList w else "WORD"

/-- sym.py:149-168: one round of the loop: the token, if it is one, and the rest of the text.  The
alternatives of the regular expression are tried in order; `TokenizeError` if only `MISMATCH` is
left. -/
def lexStep (s : Chars) : Except Err (Option Tok × Chars) :=
  match s with
  | [] => .error .error
  | c :: r =>
    if isBlank c then .ok (none, r.dropWhile isBlank)
    else
      match lexComment s with
      | some (v, r) => .ok (some ⟨"COMMENT", v⟩, r)
      | none =>
        match lexHex s with
        | some (v, r) => .ok (some ⟨"HEXNUMBER", v⟩, r)
        | none =>
          match lexNumber s with
          | some (v, r) => .ok (some ⟨"NUMBER", v⟩, r)
          | none =>
            match readString s with
            | some (v, r) => .ok (some ⟨"STRING", v⟩, r)
            | none =>
              match lexUnit s with
              | some (v, r) => .ok (some ⟨"/u:", v⟩, r)
              | none =>
                match lexLiteral s with
                | some (t, r) => .ok (some t, r)
                | none =>
                  let (w, rest) := s.span isWordC
                  if w = [] then .error .error else .ok (some ⟨kindOf w, w⟩, rest)

/-- sym.py:149-170: the loop, with at most `fuel` rounds. -/
def tokenizeLoop : Nat → Chars → Except Err (List Tok)
  | _, [] => .ok []
  | 0, _ :: _ => .error .recursionError
  | fuel + 1, c :: s =>
    match lexStep (c :: s) with
    | .error e => .error e
    | .ok (t, r) => (tokenizeLoop fuel r).map (t.toList ++ ·)

/-- sym.py:75-170 `tokenize`: every round takes at least one character. -/
def tokenize (s : Chars) : Except Err (List Tok) := tokenizeLoop s.length s

/-! ### The grammar (sym.py:172-265) -/

/-- A pattern: what it matches at the start of a list of tokens, and the tokens that are left. -/
abbrev P (α : Type) := List Tok → Option (α × List Tok)

/-- A token of a given kind. -/
def tok (kind : String) : P Chars
  | [] => none
  | t :: r => if t.kind = kind then some (t.value, r) else none

/-- `Any()`. -/
def anyTok : P Chars
  | [] => none
  | t :: r => some (t.value, r)

/-- sym.py:173 `word`. -/
def word : P Chars
  | [] => none
  | t :: r => if t.kind = "WORD" ∨ t.kind.toList ∈ keywords then some (t.value, r) else none

/-- One pattern after the other. -/
def andThen {α β : Type} (p : P α) (f : α → P β) : P β := fun s =>
  match p s with
  | none => none
  | some (a, r) => f a r

/-- A result. -/
def result {α : Type} (a : α) : P α := fun s => some (a, s)

/-- The first pattern that matches. -/
def orElse {α : Type} (p q : P α) : P α := fun s =>
  match p s with
  | some r => some r
  | none => q s

/-- `choice(…)`. -/
def oneOf {α : Type} : List (P α) → P α
  | [] => fun _ => none
  | p :: ps => orElse p (oneOf ps)

/-- `Optional(…)`. -/
def opt {α : Type} (p : P α) : P (Option α) := fun s =>
  match p s with
  | none => some (none, s)
  | some (a, r) => some (some a, r)

/-- As often as possible, at most `fuel` times. -/
def manyLoop {α : Type} (p : P α) : Nat → List Tok → List α × List Tok
  | 0, s => ([], s)
  | fuel + 1, s =>
    match p s with
    | none => ([], s)
    | some (a, r) => let (l, r') := manyLoop p fuel r; (a :: l, r')

/-- `ZeroOrMore(…)`; every pattern it is used with takes a token. -/
def many {α : Type} (p : P α) : P (List α) := fun s => some (manyLoop p s.length s)

/-- A token that says nothing. -/
def skip {α : Type} (kind : String) (p : P α) : P α := andThen (tok kind) fun _ => p

/-- An option of a signal: sym.py:186-195. -/
inductive SigOption where
  /-- the text of the token, with `/u:` -/
  | unit (text : Chars)
  | factor (text : Chars)
  | offset (text : Chars)
  | min (text : Chars)
  | max (text : Chars)
  | spn (text : Chars)
  | enum (name : Chars)
  /-- `/d:`, `/ln:`, `/p:`, which are ignored -/
  | ignored (key : String) (text : Chars)
  deriving DecidableEq, Repr

/-- sym.py:186-195, 201-210, 216-224; `/spn:` is only allowed for signals. -/
def sigOption (spn : Bool) : P SigOption := oneOf <|
  [andThen (tok "/u:") fun t => result (.unit t),
   skip "/f:" <| andThen (tok "NUMBER") fun t => result (.factor t),
   skip "/o:" <| andThen (tok "NUMBER") fun t => result (.offset t),
   skip "/min:" <| andThen (tok "NUMBER") fun t => result (.min t),
   skip "/max:" <| andThen (tok "NUMBER") fun t => result (.max t),
   skip "/d:" <| andThen (oneOf [tok "NUMBER", tok "WORD"]) fun t => result (.ignored "/d:" t),
   skip "/ln:" <| andThen (tok "STRING") fun t => result (.ignored "/ln:" t),
   skip "/e:" <| andThen word fun t => result (.enum t),
   skip "/p:" <| andThen (tok "NUMBER") fun t => result (.ignored "/p:" t)] ++
  if spn then [skip "/spn:" <| andThen (tok "NUMBER") fun t => result (.spn t)] else []

/-- A line of the section `{SIGNALS}`. -/
structure SigLine where
  name : Chars
  type : Chars
  length : Option Chars
  motorola : Bool
  options : List SigOption
  comment : Option Chars
  deriving DecidableEq, Repr

/-- sym.py:197-211. -/
def sigLine : P SigLine :=
  skip "Sig" <| skip "=" <| andThen anyTok fun name => andThen word fun type =>
  andThen (opt (tok "NUMBER")) fun length => andThen (opt (oneOf [tok "-h", tok "-b"])) fun _ =>
  andThen (opt (tok "-m")) fun m => andThen (many (sigOption true)) fun options =>
  andThen (opt (tok "COMMENT")) fun comment =>
  result { name := name, type := type, length := length, motorola := m.isSome, options := options
           comment := comment }

/-- A variable of a message. -/
structure VarLine where
  name : Chars
  type : Chars
  start : Chars
  length : Chars
  flags : List Chars
  options : List SigOption
  comment : Option Chars
  deriving DecidableEq, Repr

/-- The selector of a message. -/
structure MuxLine where
  name : Chars
  start : Chars
  length : Chars
  id : Chars
  flags : List Chars
  comment : Option Chars
  deriving DecidableEq, Repr

/-- The frame ids of a message. -/
structure IdLine where
  first : Chars
  last : Option Chars
  comment : Option Chars
  deriving DecidableEq, Repr

/-- A line of a message. -/
inductive Line where
  | id (l : IdLine)
  | len (text : Chars)
  | mux (l : MuxLine)
  | cycleTime (text : Chars) (p : Option Chars)
  | timeout (text : Chars)
  | minInterval (text : Chars)
  | color (text : Chars)
  | var (l : VarLine)
  | sig (name start : Chars)
  | type (text : Chars)
  deriving DecidableEq, Repr

/-- sym.py:213-225. -/
def varLine : P VarLine :=
  skip "Var" <| skip "=" <| andThen anyTok fun name => andThen word fun type =>
  andThen (tok "NUMBER") fun start => skip "," <| andThen (tok "NUMBER") fun length =>
  andThen (many (oneOf [tok "-v", tok "-m", tok "-s", tok "-h"])) fun flags =>
  andThen (many (sigOption false)) fun options => andThen (opt (tok "COMMENT")) fun comment =>
  result { name := name, type := type, start := start, length := length, flags := flags
           options := options, comment := comment }

/-- sym.py:229-231. -/
def idLine : P IdLine :=
  skip "ID" <| skip "=" <| andThen (tok "HEXNUMBER") fun first => andThen (opt (tok "HEXNUMBER")) fun last =>
  andThen (opt (tok "COMMENT")) fun comment => result { first := first, last := last, comment := comment }

/-- sym.py:233-236. -/
def muxLine : P MuxLine :=
  skip "Mux" <| skip "=" <| andThen anyTok fun name => andThen (tok "NUMBER") fun start => skip "," <|
  andThen (tok "NUMBER") fun length => andThen (oneOf [tok "NUMBER", tok "HEXNUMBER"]) fun id =>
  andThen (many (oneOf [tok "-t", tok "-m"])) fun flags => andThen (opt (tok "COMMENT")) fun comment =>
  result { name := name, start := start, length := length, id := id, flags := flags, comment := comment }

/-- sym.py:228-243. -/
def line : P Line := oneOf
  [andThen idLine fun l => result (.id l),
   skip "Len" <| skip "=" <| andThen (tok "NUMBER") fun t => result (.len t),
   andThen muxLine fun l => result (.mux l),
   skip "CycleTime" <| skip "=" <| andThen (tok "NUMBER") fun t => andThen (opt (tok "-p")) fun p =>
     result (.cycleTime t p),
   skip "Timeout" <| skip "=" <| andThen (tok "NUMBER") fun t => result (.timeout t),
   skip "MinInterval" <| skip "=" <| andThen (tok "NUMBER") fun t => result (.minInterval t),
   skip "Color" <| skip "=" <| andThen (tok "HEXNUMBER") fun t => result (.color t),
   andThen varLine fun l => result (.var l),
   skip "Sig" <| skip "=" <| andThen anyTok fun n => andThen (tok "NUMBER") fun t => result (.sig n t),
   skip "Type" <| skip "=" <| andThen anyTok fun t => result (.type t)]

/-- A message: its name and its lines.  (In python the lines are a dictionary by their keyword.) -/
structure Block where
  name : Chars
  lines : List Line
  deriving DecidableEq, Repr

/-- sym.py:227-243. -/
def block : P Block :=
  skip "[" <| andThen anyTok fun name => skip "]" <| andThen (many line) fun lines =>
  result { name := name, lines := lines }

/-- An enumeration: its name, its numbers and their names. -/
structure EnumLine where
  name : Chars
  values : List (Chars × Chars)
  deriving DecidableEq, Repr

/-- sym.py:180. -/
def enumValue : P (Chars × Chars) :=
  andThen (tok "NUMBER") fun n => skip "=" <| andThen (tok "STRING") fun t => result (n, t)

/-- sym.py:180-184. -/
def enumLine : P EnumLine :=
  skip "Enum" <| skip "=" <| andThen word fun name => skip "(" <|
  andThen (opt (andThen enumValue fun v => andThen (many (skip "," <| andThen (opt (tok "COMMENT")) fun _ =>
    enumValue)) fun vs => result (v :: vs))) fun values =>
  skip ")" <| andThen (opt (tok "COMMENT")) fun _ => result { name := name, values := values.getD [] }

/-- A section with its rows; comments between the rows are `none`. -/
inductive Section where
  | enums (rows : List (Option EnumLine))
  | signals (rows : List (Option SigLine))
  | send (rows : List (Option Block))
  | receive (rows : List (Option Block))
  | sendReceive (rows : List (Option Block))
  deriving DecidableEq, Repr

/-- The rows of a section. -/
def rows {α : Type} (p : P α) : P (List (Option α)) :=
  many (oneOf [andThen p fun a => result (some a), andThen (tok "COMMENT") fun _ => result none])

/-- sym.py:245-255. -/
def section_ : P Section := oneOf
  [skip "{ENUMS}" <| andThen (rows enumLine) fun l => result (.enums l),
   skip "{SIGNALS}" <| andThen (rows sigLine) fun l => result (.signals l),
   skip "{SEND}" <| andThen (rows block) fun l => result (.send l),
   skip "{RECEIVE}" <| andThen (rows block) fun l => result (.receive l),
   skip "{SENDRECEIVE}" <| andThen (rows block) fun l => result (.sendReceive l)]

/-- sym.py:175-178, 259-262: the settings at the start of a file, which say nothing here. -/
def setting : P Unit := oneOf
  [skip "UniqueVariables" <| skip "=" <| andThen word fun _ => result (),
   skip "FloatDecimalPlaces" <| skip "=" <| andThen (tok "NUMBER") fun _ => result (),
   skip "Title" <| skip "=" <| andThen (tok "STRING") fun _ => result (),
   skip "BRS" <| skip "=" <| andThen word fun _ => result ()]

/-- A file: version and sections. -/
structure Doc where
  version : Chars
  sections : List Section
  deriving DecidableEq, Repr

/-- sym.py:174, 257-263. -/
def document : P Doc :=
  andThen (opt (tok "COMMENT")) fun _ => skip "FormatVersion" <| skip "=" <| andThen (tok "NUMBER") fun version =>
  skip "COMMENT" <| andThen (many setting) fun _ => andThen (many section_) fun sections =>
  result { version := version, sections := sections }

/-- The whole text has to match. -/
def parse (tokens : List Tok) : Except Err Doc :=
  match document tokens with
  | some (d, []) => .ok d
  | _ => .error .error

end Cantools.Sym
