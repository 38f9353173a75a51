import Verif.Model.CSource
import Verif.Model.CHeader

/-
database/can/c_source.py: the generated source file as a translation unit: helper functions, variables and the names
that the bodies of the pack and unpack functions use.  What the bodies compute is in `CSource.lean`.
-/

namespace Cantools.C
open Cantools

/-- Something a statement reads or writes: a variable of the function, or a member of the struct (`src_p->…`,
`dst_p->…`). -/
inductive Place where
  | var (name : Chars)
  | member (name : Chars)
  deriving DecidableEq, Repr

/-- A line of a body (c_source.py:975-998, 1107-1137). -/
inductive Stmt where
  /-- `memcpy(&target, &source, sizeof(…));` -/
  | memcpy (target source : Place)
  /-- `target = (type)source;` -/
  | assign (target source : Place)
  /-- `dst_p[…] |= pack_…_shift_u…(value, …);` -/
  | pack (value : Place) (width : Nat) (seg : Segment)
  /-- `target = unpack_…_shift_u…(src_p[…], …);`, or `|=` -/
  | unpack (target : Place) (first : Bool) (width : Nat) (seg : Segment)
  /-- `if ((place & …) != 0) { place |= …; }` -/
  | extend (place : Place) (bit mask : Nat)
  deriving DecidableEq, Repr

/-- What is collected while bodies are written: the variables, each with the width of its type, and the set
`helper_kinds` of directions and widths. -/
structure Collected where
  vars : List (Nat × Chars) := []
  kinds : List (Bool × Nat) := []
  deriving DecidableEq, Repr

/-- `set.add`; a set is a list without duplicates. -/
def setAdd {α : Type} [DecidableEq α] (s : List α) (a : α) : List α := if a ∈ s then s else s ++ [a]

/-- c_source.py:977-984, 1100-1105: whether the signal has a variable. -/
def hasVariable (s : Signal) : Bool := s.conversion.isFloat || s.isSigned

def snakeOf (s : Signal) : Chars := camelToSnake s.name.toList

/-- The place that the helpers of a signal work on. -/
def placeOf (s : Signal) : Place := if hasVariable s then .var (snakeOf s) else .member (snakeOf s)

/-- c_source.py:983, 1102: `variable_lines.append(variable)`. -/
def addVariable (s : Signal) (st : Collected) : Collected :=
  if hasVariable s then { st with vars := st.vars ++ [(typeLength s, snakeOf s)] } else st

/-- c_source.py:1002, 1120: `helper_kinds.add((shift_direction, cg_signal.type_length))` for every segment. -/
def addKinds (s : Signal) (segs : List Segment) (st : Collected) : Collected :=
  { st with kinds := segs.foldl (fun ks g => setAdd ks (g.left, typeLength s)) st.kinds }

/-- c_source.py:970-1003 `_format_pack_code_signal`. -/
def packText (sigs : List Signal) (name : String) (st : Collected) : Except Err (List Stmt × Collected) := do
  let s ← getSignal sigs name
  let conversion :=
    if s.conversion.isFloat then [Stmt.memcpy (.var (snakeOf s)) (.member (snakeOf s))]
    else if s.isSigned then [Stmt.assign (.var (snakeOf s)) (.member (snakeOf s))]
    else []
  pure (conversion ++ (segments s false).map fun g => .pack (placeOf s) (typeLength s) g,
    addKinds s (segments s false) (addVariable s st))

/-- c_source.py:1108-1119: the lines with the segments; the first one assigns. -/
def unpackCalls (s : Signal) : Bool → List Segment → List Stmt
  | _, [] => []
  | first, g :: r => .unpack (placeOf s) first (typeLength s) g :: unpackCalls s false r

/-- c_source.py:1093-1138 `_format_unpack_code_signal`. -/
def unpackText (sigs : List Signal) (name : String) (st : Collected) : Except Err (List Stmt × Collected) := do
  let s ← getSignal sigs name
  let ext ← signExtension s
  let conversion :=
    if s.conversion.isFloat then [Stmt.memcpy (.member (snakeOf s)) (.var (snakeOf s))]
    else if s.isSigned then
      (match ext with
        | some (bit, mask) => [Stmt.extend (.var (snakeOf s)) bit mask]
        | none => []) ++ [Stmt.assign (.member (snakeOf s)) (.var (snakeOf s))]
    else []
  pure (unpackCalls s true (segments s true) ++ conversion,
    addKinds s (segments s true) (addVariable s st))

/-
c_source.py:1005-1036 `_format_pack_code_level` with 930-967 `_format_pack_code_mux`, and 1141-1187
`_format_unpack_code_level` with 1054-1090 `_format_unpack_code_mux`.  (The cases are in dictionary order instead of
sorted by id.)
-/
mutual
def linesLevel (gen : String → Collected → Except Err (List Stmt × Collected)) (skip : String → Except Err Bool) :
    SigTree → Collected → Except Err ((List Stmt × Code Stmt) × Collected)
  | .nil, st => .ok (([], .nil), st)
  | .leaf n rest, st => do
    let sk ← skip n
    let here ← (if sk then pure ([], st) else gen n st : Except Err (List Stmt × Collected))
    let r ← linesLevel gen skip rest here.2
    pure ((here.1 ++ r.1.1, r.1.2), r.2)
  | .mux n branches rest, st => do
    let a ← gen n st
    let cases ← linesCases gen skip branches a.2
    let r ← linesLevel gen skip rest cases.2
    pure ((a.1 ++ r.1.1, .switch n cases.1 r.1.2), r.2)
def linesCases (gen : String → Collected → Except Err (List Stmt × Collected)) (skip : String → Except Err Bool) :
    TreeBranches → Collected → Except Err (Cases Stmt × Collected)
  | .nil, st => .ok (.nil, st)
  | .cons i tree rest, st => do
    let b ← linesLevel gen skip tree st
    let r ← linesCases gen skip rest b.2
    pure (.cons i (Code.ops b.1.1 b.1.2) r.1, r.2)
end

/-- c_source.py:1039-1051 `_format_pack_code`, 1190-1203 `_format_unpack_code`: variables, body and helper kinds.
`sorted(set(variable_lines))`: the order of the declarations does not matter and is that of the first occurrences. -/
def formatCode (gen : String → Collected → Except Err (List Stmt × Collected)) (skip : String → Except Err Bool)
    (tree : SigTree) (kinds : List (Bool × Nat)) : Except Err ((List (Nat × Chars) × Code Stmt) × List (Bool × Nat)) := do
  let r ← linesLevel gen skip tree { kinds }
  pure ((r.2.vars.foldl setAdd [], Code.ops r.1.1 r.1.2), r.2.kinds)

/-- A message with its signal tree. -/
structure UnitMessage where
  info : GenMessage
  tree : SigTree

/-- A generated pack or unpack function (c_source.py:509-541). -/
structure UnitFunction where
  message : GenMessage
  locals : List (Nat × Chars)
  body : Code Stmt

/-- c_source.py:510-513, 527-530: the parameters of pack and unpack functions. -/
def parameterNames : List Chars := ["dst_p".toList, "src_p".toList, "size".toList]

/-- What `_generate_definitions` collects. -/
structure Definitions where
  packs : List UnitFunction := []
  unpacks : List UnitFunction := []
  packKinds : List (Bool × Nat) := []
  unpackKinds : List (Bool × Nat) := []

/-- c_source.py:1167, 1471-1472: whether a signal is left out of an unpack function. -/
def notReceived (o : Options) (signals : List GenSignal) (name : String) : Except Err Bool :=
  match signals.find? fun s => s.signal.name == name with
  | some s => .ok (!isReceiver o s)
  | none => .error .keyError

/-- c_source.py:1639-1674: one message.  The bodies are also written for functions that are left out because of the
node. -/
def defineMessage (o : Options) (d : Definitions) (m : UnitMessage) : Except Err Definitions :=
  let sigs := m.info.signals.map (·.signal)
  if 0 < m.info.length then do
    let p ← formatCode (packText sigs) (fun _ => .ok false) m.tree d.packKinds
    let u ← formatCode (unpackText sigs) (notReceived o m.info.signals) m.tree d.unpackKinds
    pure {
      packs := d.packs ++ if isSender o m.info then [⟨m.info, p.1.1, p.1.2⟩] else []
      unpacks := d.unpacks ++ if receives o m.info then [⟨m.info, u.1.1, u.1.2⟩] else []
      packKinds := p.2
      unpackKinds := u.2 }
  else .ok d

/-- c_source.py:1557-1689 `_generate_definitions`: the functions with a body that uses helpers or variables. -/
def defineAll (o : Options) (ms : List UnitMessage) : Except Err Definitions := ms.foldlM (defineMessage o) {}

/-- Names of helpers (c_source.py:470, 480, 490, 500). -/
def helperName (packing : Bool) (k : Bool × Nat) : Chars :=
  ((if packing then "pack_" else "unpack_") ++ (if k.1 then "left" else "right") ++ "_shift_u" ++ toString k.2).toList

/-- c_source.py:1692-1722 `_generate_helpers`: the names of the helpers that are defined (not sorted). -/
def helperNames (d : Definitions) : List Chars :=
  d.packKinds.map (helperName true) ++ d.unpackKinds.map (helperName false)

end Cantools.C
