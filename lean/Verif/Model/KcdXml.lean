import Verif.Model.Kcd
import Verif.Model.Regex

/-!
The text of KCD files: `ElementTree.tostring` and `ElementTree.fromstring` of python's
`xml.etree.ElementTree`, and `_indent_xml`.

The writer is modelled for elements without tail.  The reader knows elements, attributes, character
references and the predefined entities; a document with a prolog, comments, processing instructions
or `CDATA` sections is rejected here, and `]]>` and characters that are not ASCII are allowed
everywhere.  Prefixes are left as they are: the name space is that of the root element.  White space
after an element (its tail) is dropped by the reader, since nothing looks at it.
-/

namespace Cantools.Kcd

open Regex (Chars)

/-! ### Writing -/

/-- xml.etree.ElementTree `_escape_cdata`, for one character. -/
def escapeTextChar (c : Char) : Chars :=
  if c = '&' then "&amp;".toList else if c = '<' then "&lt;".toList
  else if c = '>' then "&gt;".toList else [c]

/-- xml.etree.ElementTree `_escape_cdata`. -/
def escapeText (s : Chars) : Chars := s.flatMap escapeTextChar

/-- xml.etree.ElementTree `_escape_attrib`, for one character. -/
def escapeAttrChar (c : Char) : Chars :=
  if c = '&' then "&amp;".toList else if c = '<' then "&lt;".toList
  else if c = '>' then "&gt;".toList else if c = '"' then "&quot;".toList
  else if c = '\r' then "&#13;".toList else if c = '\n' then "&#10;".toList
  else if c = '\t' then "&#09;".toList else [c]

/-- xml.etree.ElementTree `_escape_attrib`. -/
def escapeAttr (s : Chars) : Chars := s.flatMap escapeAttrChar

/-- The attributes of an element, each after a blank. -/
def attrsText (attrs : List (String × String)) : Chars := attrs.flatMap fun a =>
  ' ' :: (a.1.toList ++ ('=' :: '"' :: (escapeAttr a.2.toList ++ ['"'])))

/-- kcd.py:249 `"\n" + level * indent`. -/
def newLine (level : Nat) : Chars := '\n' :: List.replicate (2 * level) ' '

/-- kcd.py:252-253: the text of an element with children. -/
def indentText (level : Nat) (text : Option String) : Chars :=
  if (text.getD "").toList.all Regex.isSpace then newLine (level + 1) else (text.getD "").toList

/-
xml.etree.ElementTree `_serialize_xml` after kcd.py:248-264 `_indent_xml`: an element on the given
level, without its tail; and its children with their tails.
-/
mutual
def writeElem (level : Nat) : Xml → Chars
  | .elem tag attrs text [] =>
    '<' :: (tag.toList ++ (attrsText attrs ++
      (if (text.getD "").toList = [] then " />".toList
       else '>' :: (escapeText (text.getD "").toList ++ ('<' :: '/' :: (tag.toList ++ ['>']))))))
  | .elem tag attrs text (c :: r) =>
    '<' :: (tag.toList ++ (attrsText attrs ++ ('>' :: (escapeText (indentText level text) ++
      (writeChildren level (c :: r) ++ ('<' :: '/' :: (tag.toList ++ ['>'])))))))
def writeChildren (level : Nat) : List Xml → Chars
  | [] => []
  | [c] => writeElem (level + 1) c ++ newLine level
  | c :: d :: r => writeElem (level + 1) c ++ (newLine (level + 1) ++ writeChildren level (d :: r))
end

/-- kcd.py:26 `NAMESPACE`. -/
def namespace_ : String := "http://kayak.2codeornot2code.org/1.0"

/-- kcd.py:447-451: the attributes of the root element. -/
def rootAttrs : List (String × String) :=
  [("xmlns:xsi", "http://www.w3.org/2001/XMLSchema-instance"), ("xmlns", namespace_),
   ("xsi:noNamespaceSchemaLocation", "Definition.xsd")]

def withAttrs (attrs : List (String × String)) : Xml → Xml
  | .elem t _ x c => .elem t attrs x c

/-- kcd.py:438-463 `dump_string`. -/
def dumpString (T : NumText) (sort : List KSignal → List KSignal) (db : KDatabase) :
    Except Err Chars := do
  let x ← dump T sort db
  pure (writeElem 0 (withAttrs rootAttrs x) ++ newLine 0)

/-! ### Reading -/

def isXmlSpace (c : Char) : Bool := c == ' ' || c == '\t' || c == '\n' || c == '\r'

/-- The characters of names; any character that is not ASCII is taken for one. -/
def isNameChar (c : Char) : Bool :=
  decide ('0' ≤ c ∧ c ≤ '9') || decide ('A' ≤ c ∧ c ≤ 'Z') || decide ('a' ≤ c ∧ c ≤ 'z') ||
    c == '_' || c == ':' || c == '-' || c == '.' || decide (128 ≤ c.toNat)

/-- Names do not begin with a digit, `-` or `.`. -/
def isName : Chars → Bool
  | [] => false
  | c :: r => (c :: r).all isNameChar && !(decide ('0' ≤ c ∧ c ≤ '9') || c == '-' || c == '.')

/-- The characters of an XML document. -/
def isXmlChar (c : Char) : Bool :=
  c == '\t' || c == '\n' || c == '\r' ||
    (decide (' ' ≤ c) && decide (c.toNat ≠ 0xfffe) && decide (c.toNat ≠ 0xffff))

/-- Ends of lines are passed on as `\n`. -/
def normalizeLines : Chars → Chars
  | [] => []
  | '\r' :: '\n' :: r => '\n' :: normalizeLines r
  | c :: r => (if c = '\r' then '\n' else c) :: normalizeLines r

/-- The character a reference stands for, from the text between `&` and `;`. -/
def reference (e : Chars) : Option Char :=
  if e = "amp".toList then some '&'
  else if e = "lt".toList then some '<'
  else if e = "gt".toList then some '>'
  else if e = "quot".toList then some '"'
  else if e = "apos".toList then some '\''
  else
    let code := match e with
      | '#' :: 'x' :: c :: r => readDigits 16 hex? (c :: r) 0
      | '#' :: c :: r => readDigits 10 digit? (c :: r) 0
      | _ => none
    code.bind fun n =>
      if n.isValidChar ∧ isXmlChar (Char.ofNat n) = true then some (Char.ofNat n) else none

/-- Text without markup; `pending` is the beginning of a reference, in reverse.  In the value of an
attribute white space becomes a blank. -/
def resolve (attr : Bool) : Option Chars → Chars → Option Chars
  | none, [] => some []
  | some _, [] => none
  | none, c :: r =>
    if c = '&' then resolve attr (some []) r
    else (resolve attr none r).map fun t => (if attr && isXmlSpace c then ' ' else c) :: t
  | some e, c :: r =>
    if c = ';' then (reference e.reverse).bind fun d => (resolve attr none r).map fun t => d :: t
    else resolve attr (some (c :: e)) r

/-- The attributes of a start tag and the rest, which begins with `>` or `/`. -/
def parseAttrs : Nat → Chars → Option (List (String × String) × Chars)
  | 0, _ => none
  | n + 1, s =>
    let r := s.dropWhile isXmlSpace
    match r with
    | '>' :: r' => some ([], '>' :: r')
    | '/' :: r' => some ([], '/' :: r')
    | r =>
      if r.length = s.length then none
      else
        let (name, r1) := r.span isNameChar
        if isName name = false then none
        else
          match r1.dropWhile isXmlSpace with
          | '=' :: r2 =>
            match r2.dropWhile isXmlSpace with
            | q :: r3 =>
              if q = '"' ∨ q = '\'' then
                let (value, r4) := r3.span (· != q)
                if '<' ∈ value then none
                else
                  match r4 with
                  | [] => none
                  | _ :: r5 =>
                    (resolve true none value).bind fun v => (parseAttrs n r5).bind fun p =>
                      if p.1.any (fun a => a.1 == String.ofList name) then none
                      else some ((String.ofList name, String.ofList v) :: p.1, p.2)
              else none
            | [] => none
          | _ => none

/-- An end tag after `</`, for an element with the given tag. -/
def endTag (tag : Chars) (s : Chars) : Option Chars :=
  let (tag', r) := s.span isNameChar
  if tag' = tag then
    match r.dropWhile isXmlSpace with
    | '>' :: r' => some r'
    | _ => none
  else none

/-
An element and the rest; the contents of an element: the text before the first child, the children
and the rest after `</`.
-/
mutual
def parseElem : Nat → Chars → Option (Xml × Chars)
  | 0, _ => none
  | n + 1, s =>
    match s with
    | '<' :: r =>
      let (tag, r1) := r.span isNameChar
      if isName tag = false then none
      else
        (parseAttrs (r1.length + 1) r1).bind fun p =>
          match p.2 with
          | '/' :: '>' :: r3 => some (.elem (String.ofList tag) p.1 none [], r3)
          | '>' :: r3 =>
            (parseContent n r3).bind fun q => (endTag tag q.2.2).bind fun r4 =>
              some (.elem (String.ofList tag) p.1
                (if q.1 = [] then none else some (String.ofList q.1)) q.2.1, r4)
          | _ => none
    | _ => none
def parseContent : Nat → Chars → Option (Chars × List Xml × Chars)
  | 0, _ => none
  | n + 1, s =>
    let (raw, r) := s.span (· != '<')
    (resolve false none raw).bind fun text =>
      match r with
      | '<' :: '/' :: r1 => some (text, [], r1)
      | '<' :: r1 =>
        (parseElem n ('<' :: r1)).bind fun p => (parseContent n p.2).bind fun q =>
          some (text, p.1 :: q.2.1, q.2.2)
      | _ => none
end

/-- `ElementTree.fromstring`; `none` stands for `ParseError`. -/
def parseDocument (s : Chars) : Option Xml :=
  if s.all isXmlChar then
    let t := (normalizeLines s).dropWhile isXmlSpace
    (parseElem (t.length + 1) t).bind fun p => if p.2.all isXmlSpace then some p.1 else none
  else none

/-- kcd.py:466-504 `load_string`; `ParseError` is an `Error` here.  The root element has to be in the
name space. -/
def loadString (T : NumText) (s : Chars) : Except Err KDatabase :=
  match parseDocument s with
  | none => .error .error
  | some x => if x.attr? "xmlns" = some namespace_ then load T x else .error .valueError

end Cantools.Kcd
