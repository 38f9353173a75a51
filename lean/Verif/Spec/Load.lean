import Verif.Model.Load

/-
Independent specification of loading databases.
-/

namespace Cantools.Spec
open Cantools Load

variable {Can Diag E Content : Type}

/-- What the parser of one format makes of a text, with the choices pruned if asked for. -/
def parsed (P : Parsers Can Diag E) (o : Options) (text : String) : Format → Except E (Loaded Can Diag)
  | .cdd => (P.cdd text).map .diag
  | f => match P.can f o text with
    | .error e => .error e
    | .ok db => (if o.pruneChoices then P.prune db else .ok db).map .can

/-- The formats in the order in which they are tried. -/
def order : List Format := [.arxml, .dbc, .kcd, .sym, .cdd]

/-- The names of the formats. -/
def _root_.Cantools.Load.Format.text : Format → String
  | .arxml => "arxml" | .dbc => "dbc" | .kcd => "kcd" | .sym => "sym" | .cdd => "cdd"

/-- The error of one format. -/
def only (f : Format) (e : E) : LoadError E :=
  .unsupported (if f = .arxml then some e else none) (if f = .dbc then some e else none)
    (if f = .kcd then some e else none) (if f = .sym then some e else none)
    (if f = .cdd then some e else none)

/-- The documented format of a file extension; `none` for unknown ones. -/
def documentedFormat (ext : String) : Option Format :=
  if ext = "arxml" then some .arxml else if ext = "dbc" then some .dbc
  else if ext = "kcd" then some .kcd else if ext = "sym" then some .sym
  else if ext = "cdd" then some .cdd else none

/-! ### Histories of a cache directory -/

/-- Files, the time of the last modification of any file, and the cache directory. -/
structure World (Can Diag Content : Type) where
  files : Files Content
  clock : Nat
  cache : Cache Can Diag

/-- A change of a file: new contents, or removal.  Every change takes place at a new time. -/
structure Change (Content : Type) where
  filename : String
  content : Option Content

/-- The files after a change. -/
def World.change (w : World Can Diag Content) (c : Change Content) : World Can Diag Content :=
  { w with
    files := fun n => if n = c.filename then c.content.map fun x => (x, w.clock + 1) else w.files n
    clock := w.clock + 1 }

/-- The files after some changes. -/
def World.changes (w : World Can Diag Content) (cs : List (Change Content)) :
    World Can Diag Content :=
  cs.foldl World.change w

/-- A call of `load_file`; `during` are the changes made between reading the modification time and
opening the file. -/
def World.load (env : Env Can Diag E Content) (w : World Can Diag Content) (r : Request)
    (during : List (Change Content)) : Except (FileError E) (Loaded Can Diag) × World Can Diag Content :=
  let w' := w.changes during
  let x := loadCached env r w.files w'.files w.cache
  (x.1, { w' with cache := x.2 })

/-- All states of files and cache directory, starting with an empty cache. -/
inductive WorldReached (env : Env Can Diag E Content) : World Can Diag Content → Prop
  | start {w : World Can Diag Content} : w.cache = [] →
      (∀ n c t, w.files n = some (c, t) → t ≤ w.clock) → WorldReached env w
  | change {w : World Can Diag Content} (c : Change Content) : WorldReached env w →
      WorldReached env (w.change c)
  | load {w : World Can Diag Content} (r : Request) (during : List (Change Content)) :
      WorldReached env w → r.options.sort.hasKey = true → WorldReached env (w.load env r during).2

end Cantools.Spec
