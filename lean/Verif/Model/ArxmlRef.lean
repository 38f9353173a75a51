import Verif.Model.Kcd
import Verif.Model.DecodeCommand

/-!
References between the elements of an ARXML file: arxml/system_loader.py:2005-2304.

An element is identified by its position: the indices of the children on the way from the root.  All
elements are in the name space of the document, so tags are compared without it.
-/

namespace Cantools.ArxmlRef

open Kcd (Xml)
open Regex (Chars)

/-- The way from the root to an element. -/
abbrev Pos := List Nat

/-- The element at a position. -/
def at? : Xml → Pos → Option Xml
  | x, [] => some x
  | x, i :: p => (x.children[i]?).bind fun c => at? c p

/-- system_loader.py:2099-2103: the dictionaries for references. -/
structure Refs where
  pathOf : List (Pos × Chars) := []
  nodeAt : List (Chars × Pos) := []
  defaults : List (Chars × Chars) := []
  bases : List (Chars × List (Chars × Chars)) := []

/-- `f'{x}'` of the text of an element. -/
def textOrNone (t : Option String) : Chars := (t.getD "None").toList

/-- system_loader.py:2112-2116: the path of an element. -/
def elemPath (path : Chars) (x : Xml) : Chars :=
  match x.find? "SHORT-NAME" with
  | some n => path ++ '/' :: textOrNone n.text
  | none => path

/-- system_loader.py:2127-2130: the path of the package. -/
def packagePath (pkg : Chars) (x : Xml) : Chars :=
  if x.tag = "AR-PACKAGE" then pkg ++ '/' :: textOrNone ((x.find? "SHORT-NAME").bind Xml.text) else pkg

/-- `elem.find(tag).text.strip()`. -/
def requiredText (x : Xml) (tag : String) : Except Err Chars :=
  match (x.find? tag).bind Xml.text with
  | some t => .ok (DecodeCommand.strip t.toList)
  | none => .error .attributeError

/-- `elem.find(tag)`, and `text.strip().lower() == "true"` if it is there. -/
def flag (x : Xml) (tag : String) : Except Err Bool :=
  match x.find? tag with
  | none => .ok false
  | some c =>
    match c.text with
    | some t => .ok ((DecodeCommand.strip t.toList).map Char.toLower = "true".toList)
    | none => .error .attributeError

/-- system_loader.py:2132-2173: a reference base of the package `pkg`. -/
def addBase (pkg : Chars) (x : Xml) (r : Refs) : Except Err Refs := do
  let name ← requiredText x "SHORT-LABEL"
  let path ← requiredText x "PACKAGE-REF"
  let isDefault ← flag x "IS-DEFAULT"
  let r ←
    if isDefault then
      if (dictGet? r.defaults pkg).isSome then .error .valueError
      else .ok { r with defaults := dictSet r.defaults pkg path }
    else .ok r
  let isGlobal ← flag x "IS-GLOBAL"
  if isGlobal then .error .valueError
  else
    let known := (dictGet? r.bases pkg).getD []
    if (dictGet? known name).isSome then .error .valueError
    else .ok { r with bases := dictSet r.bases pkg (dictSet known name path) }

/-- system_loader.py:2109-2173: what is done for one element, whose path (and the path of whose
package) is given. -/
def addElem (pos : Pos) (path pkg : Chars) (x : Xml) (r : Refs) : Except Err Refs := do
  let r ←
    if (x.find? "SHORT-NAME").isSome then
      if (dictGet? r.nodeAt path).isSome then .error .valueError
      else .ok { r with nodeAt := dictSet r.nodeAt path pos }
    else .ok r
  let r := { r with pathOf := dictSet r.pathOf pos path }
  if x.tag = "REFERENCE-BASE" then addBase pkg x r else .ok r

mutual
/-- system_loader.py:2105-2177 `add_sub_references`. -/
def addSub (pos : Pos) (path pkg : Chars) (r : Refs) : Xml → Except Err Refs
  | .elem tag attrs text children => do
    let x := Xml.elem tag attrs text children
    let r ← addElem pos (elemPath path x) (packagePath pkg x) x r
    addSubs pos (elemPath path x) (packagePath pkg x) 0 r children
/-- system_loader.py:2175-2177: its loop over the children, from index `i` on. -/
def addSubs (pos : Pos) (path pkg : Chars) (i : Nat) (r : Refs) : List Xml → Except Err Refs
  | [] => .ok r
  | c :: cs => do
    let r ← addSub (pos ++ [i]) path pkg r c
    addSubs pos path pkg (i + 1) r cs
end

/-- system_loader.py:2098-2180 `_create_arxml_reference_dicts`. -/
def createDicts (root : Xml) : Except Err Refs := addSub [] [] [] {} root

/-! ### Following references -/

/-- `text.split("/")`. -/
def splitSlash : Chars → List Chars
  | [] => [[]]
  | c :: r =>
    if c = '/' then [] :: splitSlash r
    else match splitSlash r with
      | [] => [[c]]
      | h :: t => (c :: h) :: t

/-- `'/'.join(atoms)`. -/
def joinSlash : List Chars → Chars
  | [] => []
  | [a] => a
  | a :: r => a ++ '/' :: joinSlash r

/-- system_loader.py:2029-2035: an element that is not a package. -/
def notPackage (root : Xml) (r : Refs) (path : Chars) : Bool :=
  match (dictGet? r.nodeAt path).bind (at? root) with
  | some x => x.tag != "AR-PACKAGE"
  | none => false

/-- system_loader.py:2037-2059: the reference base of one package. -/
def baseOf (r : Refs) (base : Option Chars) (path : Chars) : Option Chars :=
  match base with
  | none => dictGet? r.defaults path
  | some b => dictGet? ((dictGet? r.bases path).getD []) b

/-- system_loader.py:2027-2059: the loop over the beginnings of the path, with `n` atoms and fewer. -/
def findBase (root : Xml) (r : Refs) (base : Option Chars) (atoms : List Chars) : Nat → Option Chars
  | 0 => none
  | n + 1 =>
    let path := joinSlash (atoms.take (n + 1))
    if notPackage root r path then findBase root r base atoms n
    else match baseOf r base path with
      | some t => some t
      | none => findBase root r base atoms n

/-- system_loader.py:2005-2065 `_get_absolute_arxml_path`. -/
def absolutePath (root : Xml) (r : Refs) (pos : Pos) (path : Chars) (base : Option Chars) :
    Except Err Chars :=
  if path.head? = some '/' then .ok path
  else do
    let atoms := splitSlash (← dictGet r.pathOf pos)
    match findBase root r base atoms atoms.length with
    | none => .error .valueError
    | some t => .ok (t ++ '/' :: path)

/-- system_loader.py:2067-2095 `_follow_arxml_reference`. -/
def follow (root : Xml) (r : Refs) (pos : Pos) (path : Chars) (dest : Option String)
    (base : Option Chars) : Except Err (Option Pos) := do
  let path ← absolutePath root r pos path base
  match dictGet? r.nodeAt path with
  | none => .ok none
  | some p =>
    match dest, at? root p with
    | some d, some x => if x.tag ≠ d then .ok none else .ok (some p)
    | _, _ => .ok (some p)

/-! ### Locations -/

/-- One atom of a location: system_loader.py:2238-2247. -/
structure Atom where
  tag : String
  isNodeset : Bool

/-- system_loader.py:2238-2247: the specifiers `&` and `*` of an atom. -/
def parseAtom (s : String) : Atom :=
  let l := s.toList
  let amp := '&' ∈ l.take 2
  let star := '*' ∈ l.take 2
  let l := if amp then l.drop 1 else l
  let l := if star then l.drop 1 else l
  { tag := String.ofList l, isNodeset := star }

/-- system_loader.py:2253-2274: the loop over the children of an element, from index `i` on. -/
def localResult (root : Xml) (r : Refs) (base : Pos) (tag : String) (i : Nat) :
    List Xml → Except Err (List Pos)
  | [] => .ok []
  | c :: cs =>
    if c.tag = tag then do
      pure ((base ++ [i]) :: (← localResult root r base tag (i + 1) cs))
    else if c.tag = tag ++ "-REF" then do
      match c.text with
      | none => .error .attributeError
      | some t =>
        match ← follow root r base t.toList (c.attr? "DEST") ((c.attr? "BASE").map String.toList) with
        | none => .error .valueError
        | some p => pure (p :: (← localResult root r base tag (i + 1) cs))
    else localResult root r base tag (i + 1) cs

/-- system_loader.py:2249-2281: one atom for all base elements. -/
def stepAll (root : Xml) (r : Refs) (a : Atom) (bases : List Pos) : Except Err (List Pos) := do
  let parts ← bases.mapM fun b => do
    let l ← localResult root r b a.tag 0 (((at? root b).map Xml.children).getD [])
    if !a.isNodeset && 1 < l.length then .error .valueError else pure l
  pure parts.flatten

/-- system_loader.py:2182-2285 `_get_arxml_children`, for a list of base elements. -/
def getChildren (root : Xml) (r : Refs) (bases : List Pos) : List String → Except Err (List Pos)
  | [] => .ok bases
  | s :: rest =>
    if bases = [] then .ok []
    else do getChildren root r (← stepAll root r (parseAtom s) bases) rest

/-- system_loader.py:2287-2304 `_get_unique_arxml_child`. -/
def getUnique (root : Xml) (r : Refs) (base : Pos) (location : List String) :
    Except Err (Option Pos) := do
  match ← getChildren root r [base] location with
  | [] => .ok none
  | [p] => .ok (some p)
  | _ => .error .valueError

end Cantools.ArxmlRef
