import Verif.Model.CHeader

/-
subparsers/generate_c_source.py: the command `generate_c_source`.
-/

namespace Cantools.C
open Cantools

/-- generate_c_source.py:69-124 `add_subparser`: the arguments. -/
structure CommandArgs where
  infile : Chars
  databaseName : Option Chars := none
  noFloatingPoint : Bool := false
  bitFields : Bool := false
  encoding : Option Chars := none
  prune : Bool := false
  noStrict : Bool := false
  generateFuzzer : Bool := false
  outputDirectory : Chars := ['.']
  useFloat : Bool := false
  useRound : Bool := false
  node : Option Chars := none
  deriving DecidableEq, Repr

/-- The results of `generate` (c_source.py:1757-1870). -/
structure Texts where
  header : Chars
  source : Chars
  fuzzer : Chars
  makefile : Chars
  deriving DecidableEq, Repr

/-- What the command depends on: `load_file` (infile, encoding, prune_choices, strict), `generate` with its arguments in
order, and the errors of creating a directory and of opening a file for writing.  Simplification: what has been opened can
also be written, and the input is read before anything is written. -/
structure CommandEnv (Db E : Type) where
  load : Chars → Option Chars → Bool → Bool → Except E Db
  generate : Db → Chars → Chars → Chars → Chars → Bool → Bool → Bool → Option Chars → Bool → Except E Texts
  makedirs : Chars → Option E
  openWrite : Chars → Option E

/-- `os.path.basename` (generate_c_source.py:16). -/
def baseName (path : Chars) : Chars := (path.reverse.takeWhile (· != '/')).reverse

/-- `os.path.splitext(…)[0]` of a name without directories (generate_c_source.py:17): leading dots belong to the stem. -/
def stemOf (base : Chars) : Chars :=
  let dots := base.takeWhile (· == '.')
  let rest := base.dropWhile (· == '.')
  if rest.any (· == '.') then dots ++ ((rest.reverse.dropWhile (· != '.')).drop 1).reverse else base

/-- `os.path.join` of two parts (generate_c_source.py:41). -/
def joinPath (dir name : Chars) : Chars :=
  if name.head? = some '/' then name
  else if dir = [] ∨ dir.getLast? = some '/' then dir ++ name
  else dir ++ '/' :: name

/-- generate_c_source.py:15-20: the database name. -/
def commandName (a : CommandArgs) : Chars :=
  match a.databaseName with
  | none => camelToSnake (stemOf (baseName a.infile))
  | some n => n

/-- One step of the output. -/
inductive Step where
  | write (path text : Chars)
  | print (line : Chars)
  deriving DecidableEq, Repr

/-- generate_c_source.py:41-66: what is written and printed. -/
def outputSteps (a : CommandArgs) (t : Texts) : List Step :=
  let name := commandName a
  let h := joinPath a.outputDirectory (name ++ ".h".toList)
  let c := joinPath a.outputDirectory (name ++ ".c".toList)
  let fc := joinPath a.outputDirectory (name ++ "_fuzzer.c".toList)
  let mk := joinPath a.outputDirectory (name ++ "_fuzzer.mk".toList)
  [.write h t.header, .write c t.source,
    .print ("Successfully generated ".toList ++ h ++ " and ".toList ++ c ++ ".".toList)] ++
  if a.generateFuzzer then
    [.write fc t.fuzzer, .write mk t.makefile,
      .print ("Successfully generated ".toList ++ fc ++ " and ".toList ++ mk ++ ".".toList), .print [],
      .print ("Run \"make -f ".toList ++ (name ++ "_fuzzer.mk".toList) ++
        "\" to build and run the fuzzer. Requires a".toList),
      .print "recent version of clang.".toList]
  else []

/-- The files, what has been printed, and the exception that ended the command. -/
structure CommandState (E : Type) where
  files : Chars → Option Chars
  printed : List Chars := []
  error : Option E := none

/-- The steps in order; an exception ends the command (generate_c_source.py:43-66). -/
def runSteps {Db E : Type} (env : CommandEnv Db E) : List Step → CommandState E → CommandState E
  | [], s => s
  | .print l :: r, s => runSteps env r { s with printed := s.printed ++ [l] }
  | .write p t :: r, s =>
    match env.openWrite p with
    | some e => { s with error := some e }
    | none => runSteps env r { s with files := fun q => if q = p then some t else s.files q }

/-- generate_c_source.py:9-66 `_do_generate_c_source`. -/
def command {Db E : Type} (env : CommandEnv Db E) (a : CommandArgs) (files : Chars → Option Chars) : CommandState E :=
  match env.load a.infile a.encoding a.prune (!a.noStrict) with
  | .error e => { files, error := some e }
  | .ok db =>
    let name := commandName a
    match env.generate db name (name ++ ".h".toList) (name ++ ".c".toList) (name ++ "_fuzzer.c".toList)
        (!a.noFloatingPoint) a.bitFields a.useFloat a.node a.useRound with
    | .error e => { files, error := some e }
    | .ok t =>
      match env.makedirs a.outputDirectory with
      | some e => { files, error := some e }
      | none => runSteps env (outputSteps a t) { files }

end Cantools.C
