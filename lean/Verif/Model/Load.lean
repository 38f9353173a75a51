import Verif.Model.Base

/-
database/__init__.py: loading databases from strings and files, with and without the cache.

The parsers themselves are parameters here (the parts of them that are modelled are in `Model/Dbc`).
-/

namespace Cantools.Load
open Cantools

/-- The database formats. -/
inductive Format where
  | arxml | dbc | kcd | sym | cdd
  deriving DecidableEq, Repr

/-- The argument `database_format` as a string. -/
def Format.ofString : String → Option Format
  | "arxml" => some .arxml
  | "dbc" => some .dbc
  | "kcd" => some .kcd
  | "sym" => some .sym
  | "cdd" => some .cdd
  | _ => none

/-- Argument `sort_signals`: `None`, a string, a function of `cantools.database.utils`, or a function
of the user, which can be pickled or not (lambdas and local functions cannot). -/
inductive SortArg where
  | noSort
  | text (s : String)
  | builtin (name : String)
  | custom (name : String) (picklable : Bool)
  deriving DecidableEq, Repr

/-- The options that all parsers get (database/__init__.py:272-277). -/
structure Options where
  frameIdMask : Option Int := none
  pruneChoices : Bool := false
  strict : Bool := true
  sort : SortArg := .builtin "sort_signals_by_start_bit"
  deriving DecidableEq, Repr

/-- What the parsers do: `Can` and `Diag` are the database classes, `E` the exceptions. -/
structure Parsers (Can Diag E : Type) where
  /-- `add_arxml_string`, `add_dbc_string`, `add_kcd_string`, `add_sym_string` on a new database. -/
  can : Format → Options → String → Except E Can
  /-- `prune_database_choices`. -/
  prune : Can → Except E Can
  /-- `add_cdd_string` on a new database. -/
  cdd : String → Except E Diag

/-- A loaded database. -/
inductive Loaded (Can Diag : Type) where
  | can (db : Can)
  | diag (db : Diag)
  deriving DecidableEq, Repr

/-- The exceptions of `load_string`: errors.py:22-64 `UnsupportedDatabaseFormatError`. -/
inductive LoadError (E : Type) where
  | valueError
  | unsupported (arxml dbc kcd sym cdd : Option E)
  deriving DecidableEq, Repr

variable {Can Diag E : Type}

/-- database/__init__.py:320-337 `load_can_database`. -/
def loadCanDatabase (P : Parsers Can Diag E) (o : Options) (text : String) (f : Format) :
    Except E (Loaded Can Diag) := do
  let db ← P.can f o text
  let db ← (if o.pruneChoices then P.prune db else pure db : Except E Can)
  pure (.can db)

/-- database/__init__.py:339-369: one of the `try` blocks: return the database, or remember the
exception. -/
def attempt (wanted : Bool) (r : Except E (Loaded Can Diag)) : Option (Loaded Can Diag) × Option E :=
  if wanted then
    match r with
    | .ok db => (some db, none)
    | .error e => (none, some e)
  else (none, none)

/-- database/__init__.py:269-383 `load_string`. -/
def loadString (P : Parsers Can Diag E) (o : Options) (format : Option String) (text : String) :
    Except (LoadError E) (Loaded Can Diag) :=
  if format.all fun f => (Format.ofString f).isSome then
    let wanted (f : Format) : Bool := format.all fun s => decide (Format.ofString s = some f)
    match attempt (wanted .arxml) (loadCanDatabase P o text .arxml) with
    | (some db, _) => .ok db
    | (none, eArxml) =>
    match attempt (wanted .dbc) (loadCanDatabase P o text .dbc) with
    | (some db, _) => .ok db
    | (none, eDbc) =>
    match attempt (wanted .kcd) (loadCanDatabase P o text .kcd) with
    | (some db, _) => .ok db
    | (none, eKcd) =>
    match attempt (wanted .sym) (loadCanDatabase P o text .sym) with
    | (some db, _) => .ok db
    | (none, eSym) =>
    match attempt (wanted .cdd) ((P.cdd text).map .diag) with
    | (some db, _) => .ok db
    | (none, eCdd) => .error (.unsupported eArxml eDbc eKcd eSym eCdd)
  else .error .valueError

/-! ### Files and the cache -/

/-- The extension of a file name without the dot, in lower case (`os.path.splitext(…)[1][1:].lower()`,
database/__init__.py:33): empty if the last component has no dot, or only leading ones. -/
def extension (filename : List Char) : List Char :=
  let base := (filename.reverse.takeWhile (· != '/')).reverse
  let stem := base.dropWhile (· == '.')
  if stem.any (· == '.') then (stem.reverse.takeWhile (· != '.')).reverse.map Char.toLower else []

/-- database/__init__.py:30-45 `_resolve_database_format_and_encoding`. -/
def resolve (format encoding : Option String) (filename : String) : String × String :=
  let f := format.getD (String.ofList (extension filename.toList))
  (f, encoding.getD (if f = "dbc" ∨ f = "sym" then "cp1252" else "utf-8"))

/-- The arguments of `load_file` apart from the cache directory. -/
structure Request where
  filename : String
  format : Option String := none
  encoding : Option String := none
  options : Options := {}
  deriving DecidableEq, Repr

/-- database/__init__.py:156-165: the cache key. -/
structure Key where
  format : String
  encoding : String
  options : Options
  filename : String
  mtime : Nat
  deriving DecidableEq, Repr

/-- The files: contents and modification time. -/
abbrev Files (Content : Type) := String → Option (Content × Nat)

/-- The exceptions of `load_file`. -/
inductive FileError (E : Type) where
  | fileNotFound
  | load (e : LoadError E)
  /-- The database cannot be pickled. -/
  | pickle
  deriving DecidableEq, Repr

/-- What `load_file` depends on: the parsers, how a file is read with an encoding
(`errors='replace'`, so this never fails), and which databases can be pickled. -/
structure Env (Can Diag E Content : Type) where
  parsers : Parsers Can Diag E
  read : String → Content → String
  picklable : Loaded Can Diag → Bool

variable {Content : Type}

/-- database/__init__.py:171-177: open, read and parse. -/
def loadUncached (env : Env Can Diag E Content) (r : Request) (files : Files Content) :
    Except (FileError E) (Loaded Can Diag) :=
  let fe := resolve r.format r.encoding r.filename
  match files r.filename with
  | none => .error .fileNotFound
  | some (c, _) =>
    (loadString env.parsers r.options (some fe.1) (env.read fe.2 c)).mapError .load

/-- database/__init__.py:155: only these are cached with a key. -/
def SortArg.hasKey : SortArg → Bool
  | .custom _ _ => false
  | _ => true

/-- The cache: the key may be `None`. -/
abbrev Cache (Can Diag : Type) := List (Option Key × Loaded Can Diag)

/-- database/__init__.py:47-182 `load_file` with a cache directory.  `stat` are the files when the
modification time is read, `opened` those when the file is opened.  Databases are compared by value:
pickling and unpickling gives the same database. -/
def loadCached (env : Env Can Diag E Content) (r : Request) (stat opened : Files Content)
    (cache : Cache Can Diag) : Except (FileError E) (Loaded Can Diag) × Cache Can Diag :=
  let fe := resolve r.format r.encoding r.filename
  let key : Except (FileError E) (Option Key) :=
    if r.options.sort.hasKey then
      match stat r.filename with
      | none => .error .fileNotFound
      | some (_, t) => .ok (some ⟨fe.1, fe.2, r.options, r.filename, t⟩)
    else .ok none
  match key with
  | .error e => (.error e, cache)
  | .ok key =>
    match dictGet? cache key with
    | some db => (.ok db, cache)
    | none =>
      match loadUncached env r opened with
      | .error e => (.error e, cache)
      | .ok db => if env.picklable db then (.ok db, dictSet cache key db) else (.error .pickle, cache)

end Cantools.Load
