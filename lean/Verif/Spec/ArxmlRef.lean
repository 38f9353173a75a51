import Verif.Model.ArxmlRef
import Verif.Spec.Cdd

/-!
What references and locations in an ARXML document mean.  Elements are named by their positions
(`Pos`, the indices of the children on the way from the root; `at?` is the element there).
-/

namespace Cantools.Spec

open Kcd (Xml)
open Regex (Chars)
open ArxmlRef (Pos at?)

/-- The name of an element, if it has one. -/
def shortName (x : Xml) : List String := ((kids x "SHORT-NAME").take 1).map fun c => c.text.getD ""

/-- The names of the elements from the root to a position. -/
def namesTo : Xml → Pos → List String
  | x, [] => shortName x
  | x, i :: p => shortName x ++ ((x.children[i]?).map fun c => namesTo c p).getD []

/-- A path as text: `/A/B/C`. -/
def pathText (ns : List String) : Chars := ns.flatMap fun n => '/' :: n.toList

/-- The named element at `p` has this path. -/
def HasPath (root : Xml) (p : Pos) (t : Chars) : Prop :=
  ∃ x, at? root p = some x ∧ shortName x ≠ [] ∧ t = pathText (namesTo root p)

def IsPackage (root : Xml) (q : Pos) : Prop := ∃ x, at? root q = some x ∧ x.tag = "AR-PACKAGE"

/-- The innermost package around a position. -/
def Innermost (root : Xml) (q p : Pos) : Prop :=
  IsPackage root q ∧ q <+: p ∧ ∀ q', IsPackage root q' → q' <+: p → q' <+: q

/-- A word without blanks, possibly with blanks around it. -/
def Padded (t s : Chars) : Prop :=
  ∃ a b, t = a ++ s ++ b ∧ (∀ c ∈ a ++ b, c ∈ [' ', '\t', '\n', '\r']) ∧
    ∀ c ∈ s, 33 ≤ c.toNat ∧ c.toNat < 127

/-- The first child with a tag has this text. -/
def FirstText (x : Xml) (tag : String) (s : Chars) : Prop :=
  ∃ c r t, kids x tag = c :: r ∧ c.text = some t ∧ Padded t.toList s

/-- A flag: missing ones are false, letter case does not matter. -/
def FlagSays (x : Xml) (tag : String) (b : Bool) : Prop :=
  (kids x tag = [] ∧ b = false) ∨
    ∃ s, FirstText x tag s ∧ (b = true ↔ s.map Char.toLower = ['t', 'r', 'u', 'e'])

/-- A reference base. -/
structure BaseDecl where
  label : Chars
  target : Chars
  isDefault : Bool
  isGlobal : Bool

structure BaseSays (x : Xml) (d : BaseDecl) : Prop where
  label : FirstText x "SHORT-LABEL" d.label
  target : FirstText x "PACKAGE-REF" d.target
  isDefault : FlagSays x "IS-DEFAULT" d.isDefault
  isGlobal : FlagSays x "IS-GLOBAL" d.isGlobal

/-- The element at `p` declares a reference base of the package at `q`. -/
def Declares (root : Xml) (q : Pos) (d : BaseDecl) (p : Pos) : Prop :=
  (∃ x, at? root p = some x ∧ x.tag = "REFERENCE-BASE" ∧ BaseSays x d) ∧ Innermost root q p

/-- What the schema of ARXML files guarantees: names are not empty elements and contain no slash,
packages have names and are only contained in packages, reference bases belong to packages and are
complete. -/
structure Regular (root : Xml) : Prop where
  names : ∀ p x, at? root p = some x → ∀ c ∈ kids x "SHORT-NAME", ∃ t, c.text = some t ∧ '/' ∉ t.toList
  packages : ∀ p x, at? root p = some x → x.tag = "AR-PACKAGE" → shortName x ≠ [] ∧
    ∀ q y, q <+: p → at? root q = some y → shortName y ≠ [] → y.tag = "AR-PACKAGE"
  bases : ∀ p x, at? root p = some x → x.tag = "REFERENCE-BASE" →
    (∃ q, q <+: p ∧ IsPackage root q) ∧ ∃ d, BaseSays x d

/-- The documents that are accepted: paths are unique, so are the labels and the default in a
package; there are no global reference bases. -/
structure RefsAccepted (root : Xml) : Prop where
  paths : ∀ p p' t, HasPath root p t → HasPath root p' t → p = p'
  labels : ∀ q d d' p p', Declares root q d p → Declares root q d' p' → d.label = d'.label → p = p'
  defaults : ∀ q d d' p p', Declares root q d p → Declares root q d' p' →
    d.isDefault = true → d'.isDefault = true → p = p'
  noGlobal : ∀ q d p, Declares root q d p → d.isGlobal = false

/-- A reference base is meant: the one with the label, or the default one. -/
def Meant (base : Option Chars) (d : BaseDecl) : Prop :=
  match base with
  | some b => d.label = b
  | none => d.isDefault = true

/-- The target of the reference base that is meant at a position: it is declared in the closest
package around the position that declares one. -/
def BaseFor (root : Xml) (pos : Pos) (base : Option Chars) (target : Chars) : Prop :=
  ∃ q, q <+: pos ∧ (∃ p d, Declares root q d p ∧ Meant base d ∧ d.target = target) ∧
    ∀ q', q' <+: pos → q.length < q'.length → ∀ p d, Declares root q' d p → ¬ Meant base d

/-- The absolute path a reference stands for. -/
def AbsoluteText (root : Xml) (pos : Pos) (text : Chars) (base : Option Chars) (abs : Chars) : Prop :=
  if text.head? = some '/' then abs = text
  else ∃ target, BaseFor root pos base target ∧ abs = target ++ '/' :: text

/-- A reference at `pos` leads to the element at `p`. -/
def Leads (root : Xml) (pos : Pos) (text : Chars) (dest : Option String) (base : Option Chars) (p : Pos) :
    Prop :=
  ∃ abs, AbsoluteText root pos text base abs ∧ HasPath root p abs ∧
    ∀ d, dest = some d → ∃ x, at? root p = some x ∧ x.tag = d

/-! ### Locations -/

/-- An atom of a location: a tag, whether several elements are allowed (`*`), and whether references
are followed (`&`). -/
structure LocAtom where
  tag : String
  many : Bool
  refs : Bool

/-- How an atom is written. -/
def AtomText (s : String) (a : LocAtom) : Prop :=
  (∀ c ∈ a.tag.toList, c ≠ '&' ∧ c ≠ '*') ∧
    (s.toList = (if a.many then ['*'] else []) ++ (if a.refs then ['&'] else []) ++ a.tag.toList ∨
      s.toList = (if a.refs then ['&'] else []) ++ (if a.many then ['*'] else []) ++ a.tag.toList)

/-- The children an atom is about. -/
def Wanted (a : LocAtom) (c : Xml) : Prop := c.tag = a.tag ∨ (a.refs = true ∧ c.tag = a.tag ++ "-REF")

/-- The element a child of `b` stands for: itself or the one it refers to. -/
def StandsFor (root : Xml) (b : Pos) (a : LocAtom) (i : Nat) (p : Pos) : Prop :=
  ∃ c, at? root (b ++ [i]) = some c ∧
    if c.tag = a.tag then p = b ++ [i]
    else ∃ t, c.text = some t ∧
      Leads root b t.toList (c.attr? "DEST") ((c.attr? "BASE").map String.toList) p

/-- The elements an atom gives for one element, in the order of its children. -/
def Found (root : Xml) (b : Pos) (a : LocAtom) (l : List Pos) : Prop :=
  ∃ is : List Nat, is.Pairwise (· < ·) ∧
    (∀ i, i ∈ is ↔ ∃ c, at? root (b ++ [i]) = some c ∧ Wanted a c) ∧
    List.Forall₂ (StandsFor root b a) is l

/-- The elements at a location, starting from the elements `bs`. -/
inductive Locate (root : Xml) : List LocAtom → List Pos → List Pos → Prop
  | done {bs} : Locate root [] bs bs
  | step {a as bs parts l} (h : List.Forall₂ (fun b l => Found root b a l ∧ (a.many = false → l.length ≤ 1)) bs parts)
      (hr : Locate root as parts.flatten l) : Locate root (a :: as) bs l

/-- On the way along a location there are no references where the location does not allow them. -/
def NoStrayAt (root : Xml) (atoms : List LocAtom) (bs : List Pos) : Prop :=
  ∀ as a as' ps, atoms = as ++ a :: as' → Locate root as bs ps → a.refs = false →
    ∀ b ∈ ps, ∀ i x, at? root (b ++ [i]) = some x → x.tag ≠ a.tag ++ "-REF"

end Cantools.Spec
