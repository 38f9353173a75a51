import Verif.Model.Kcd
import Verif.Spec.Did
import Verif.Spec.ArxmlScale

/-!
What a CDD file says about its diagnostic identifiers.
-/

namespace Cantools.Spec

open Kcd (Xml NumText)

/-- The children with a tag. -/
def kids (x : Xml) (tag : String) : List Xml := x.children.filter fun c => c.tag = tag

/-- A decimal number, most significant digit first. -/
inductive DecimalText : String → Int → Prop
  | nat {ds : List Nat} (hne : ds ≠ []) (hds : ∀ d ∈ ds, d < 10) :
      DecimalText (String.ofList (digitText ds)) (Nat.ofDigits 10 ds.reverse : Nat)
  | neg {ds : List Nat} (hne : ds ≠ []) (hds : ∀ d ∈ ds, d < 10) :
      DecimalText (String.ofList ('-' :: digitText ds)) (-(Nat.ofDigits 10 ds.reverse : Nat))

/-- A name for the raw values from `first` to `last`. -/
structure CddLabel where
  first : Int
  last : Int
  text : String

/-- A data type: number of bits, byte order, whether numbers are signed, number of elements, names,
unit and linear function. -/
structure CddType where
  bits : Nat
  order : ByteOrder
  signed : Bool := false
  count : Nat := 1
  labels : List CddLabel := []
  unit : Option String := none
  factor : Rat := 1
  offset : Rat := 0

/-- A data object of a DID. -/
structure CddObject where
  name : String
  type : CddType

/-- A DID. -/
structure CddDid where
  identifier : Int
  name : String
  objects : List CddObject

/-- A limit of a label, possibly in parentheses. -/
def LabelLimit (t : String) (i : Int) : Prop :=
  ∃ s, DecimalText s i ∧ (t = s ∨ t = "(" ++ s ++ ")")

/-- A `TEXTMAP` element. -/
def LabelSays (x : Xml) (l : CddLabel) : Prop :=
  (∃ t, x.attr? "s" = some t ∧ LabelLimit t l.first) ∧ (∃ t, x.attr? "e" = some t ∧ LabelLimit t l.last) ∧
    ∃ n v r, kids x "TEXT" = [n] ∧ kids n "TUV" = v :: r ∧ v.text = some l.text

/-- An attribute that is a number if it is there. -/
def NumberAttr (x : Xml) (name : String) : Prop :=
  ∀ t, x.attr? name = some t → ∃ i, DecimalText t i

/-- A child of `DATATYPES`.  `enc="sgn"` marks signed numbers; `qty="field"` fields of as many
elements as `minsz` and `maxsz` say. -/
structure TypeSays (T : NumText) (x : Xml) (t : CddType) : Prop where
  pos : 0 < t.bits
  id : ∃ i, x.attr? "id" = some i
  name : ∃ n v r, kids x "NAME" = [n] ∧ kids n "TUV" = v :: r
  ctype : ∃ c, kids x "CVALUETYPE" = [c] ∧
    (∃ s, c.attr? "bl" = some s ∧ DecimalText s t.bits) ∧
    c.attr? "bo" = some (match t.order with | .big => "21" | .little => "12") ∧
    (t.signed = true ↔ c.attr? "enc" = some "sgn") ∧
    NumberAttr c "minsz" ∧ NumberAttr c "maxsz" ∧
    (c.attr? "qty" ≠ some "field" → t.count = 1) ∧
    (c.attr? "qty" = some "field" → ∃ s, c.attr? "minsz" = some s ∧ c.attr? "maxsz" = some s ∧
      DecimalText s t.count)
  unit : match t.unit with
    | none => kids x "PVALUETYPE" = [] ∨ ∃ p, kids x "PVALUETYPE" = [p] ∧ kids p "UNIT" = []
    | some u => ∃ p q, kids x "PVALUETYPE" = [p] ∧ kids p "UNIT" = [q] ∧ q.text = some u
  labels : List.Forall₂ LabelSays (kids x "TEXTMAP") t.labels
  comp : (kids x "COMP" = [] ∧ t.factor = 1 ∧ t.offset = 0) ∨
    ∃ c f o, kids x "COMP" = [c] ∧ c.attr? "f" = some f ∧ c.attr? "o" = some o ∧
      T.read f = .ok t.factor ∧ T.read o = .ok t.offset

/-- The elements that define data types. -/
def typeDefs (doc : Xml) : List Xml := (kids doc "DATATYPES").flatMap Xml.children

/-- The shared definitions of DIDs. -/
def sharedDids (doc : Xml) : List Xml := (kids doc "DIDS").flatMap fun d => kids d "DID"

/-- A `DATAOBJ` element, whose type is defined in the document. -/
def ObjectSays (T : NumText) (doc x : Xml) (o : CddObject) : Prop :=
  (∃ q, kids x "QUAL" = [q] ∧ q.text = some o.name) ∧
    ∃ d ∈ typeDefs doc, (∃ i, x.attr? "dtref" = some i ∧ d.attr? "id" = some i) ∧ TypeSays T d o.type

/-- The data objects an element of a DID stands for: itself, the members of a union's structures, or
the data objects of a shared DID. -/
def standsFor (doc c : Xml) : List Xml :=
  if c.tag = "DATAOBJ" then [c]
  else if c.tag = "UNION" then (kids c "STRUCT").flatMap fun s => kids s "DATAOBJ"
  else if c.tag = "DIDDATAREF" then
    ((sharedDids doc).filter fun d => d.attr? "id" = c.attr? "didRef").flatMap fun d =>
      (kids d "STRUCTURE").flatMap fun s => kids s "DATAOBJ"
  else []

/-- The parts of a DID, in the order of the document. -/
def didParts (x : Xml) : List Xml := (kids x "SIMPLECOMPCONT").flatMap Xml.children

/-- A `DIAGINST` element: its data objects are those of its parts, in the order of the document. -/
structure DidSays (T : NumText) (doc x : Xml) (d : CddDid) : Prop where
  identifier : ∃ v s, kids x "STATICVALUE" = [v] ∧ v.attr? "v" = some s ∧ DecimalText s d.identifier
  name : ∃ q, kids x "QUAL" = [q] ∧ q.text = some d.name
  known : ∀ c ∈ didParts x, c.tag = "DIDDATAREF" →
    ∃ s ∈ sharedDids doc, ∃ i, s.attr? "id" = some i ∧ c.attr? "didRef" = some i
  objects : List.Forall₂ (ObjectSays T doc) ((didParts x).flatMap (standsFor doc)) d.objects

/-- The first variant of the first ECU. -/
def firstVariant (doc : Xml) : List Xml := ((kids doc "ECU").take 1).flatMap fun e => (kids e "VAR").take 1

/-- The elements that describe the DIDs of the first variant. -/
def instances (doc : Xml) : List Xml :=
  (firstVariant doc).flatMap fun v => (kids v "DIAGCLASS").flatMap fun c => kids c "DIAGINST"

/-- The document `doc` below the root element describes these DIDs: all data types are described
correctly and ids are unique. -/
structure CddSays (T : NumText) (root doc : Xml) (dids : List CddDid) : Prop where
  document : kids root "ECUDOC" = [doc]
  types : ∀ d ∈ typeDefs doc, ∃ t, TypeSays T d t
  typeIds : ((typeDefs doc).map fun d => d.attr? "id").Nodup
  shared : (kids doc "DIDS").length ≤ 1
  sharedIds : ((sharedDids doc).map fun d => d.attr? "id").Nodup
  sharedId : ∀ d ∈ sharedDids doc, ∃ i, d.attr? "id" = some i
  variant : firstVariant doc ≠ []
  dids : List.Forall₂ (DidSays T doc) (instances doc) dids

/-! ### What is supported -/

/-- Unsigned single numbers with names for single raw values. -/
structure SupportedType (t : CddType) : Prop where
  unsigned : t.signed = false
  single : t.count = 1
  labels : ∀ l ∈ t.labels, l.first = l.last
  unique : (t.labels.map (·.first)).Nodup

/-- The kinds of parts: data objects, then unions, then references. -/
def partRank (c : Xml) : Nat :=
  if c.tag = "DATAOBJ" then 0 else if c.tag = "UNION" then 1 else if c.tag = "DIDDATAREF" then 2 else 3

/-- Data objects come before unions and references, unions before references. -/
def PartsOrdered (x : Xml) : Prop :=
  ((didParts x).filter fun c => partRank c < 3).Pairwise fun a b => partRank a ≤ partRank b

/-! ### The loaded DIDs -/

/-- The value a data object shows for a raw number: its name, otherwise the physical value. -/
def ObjectShows (t : CddType) (raw : Int) (v : Value) : Prop :=
  (∃ l ∈ t.labels, l.first ≤ raw ∧ raw ≤ l.last ∧ v = .str l.text) ∨
    ((∀ l ∈ t.labels, ¬ (l.first ≤ raw ∧ raw ≤ l.last)) ∧ v = .num (t.factor * raw + t.offset))

/-- The bits of an object. -/
def CddType.size (t : CddType) : Nat := t.bits * t.count

/-- The bit offset of the `i`-th object. -/
def objectOffset (os : List CddObject) (i : Nat) : Nat := ((os.take i).map (·.type.size)).sum

/-- A loaded data object. -/
structure ObjectLoaded (o : CddObject) (x : Data) : Prop where
  name : x.name = o.name
  bits : x.length = o.type.size
  order : x.byteOrder = o.type.order
  unit : x.unit = o.type.unit
  shows_ : ∀ raw : Int, ObjectShows o.type raw (x.conversion.rawToScaled raw true)

/-- A loaded DID: the same objects, as many bytes as they need. -/
structure DidLoaded (c : CddDid) (d : Did) : Prop where
  identifier : d.identifier = c.identifier
  name : d.name = c.name
  objects : List.Forall₂ ObjectLoaded c.objects d.datas
  length : objectOffset c.objects c.objects.length ≤ 8 * d.length ∧
    8 * d.length < objectOffset c.objects c.objects.length + 8

/-- The place of bit `j` of a number of `n` bits at bit offset `o`: big endian numbers inside a byte
are like little endian ones, otherwise their last byte is the least significant one. -/
def objectBit (o n : Nat) : ByteOrder → Nat → Nat
  | .little, j => o + j
  | .big, j => if o % 8 + n ≤ 8 then o + j else o + n - 8 * (j / 8 + 1) + j % 8

/-- The number written at bit offset `o` of a payload. -/
def RawAt (data : Bytes) (o : Nat) (t : CddType) (raw : Nat) : Prop :=
  raw < 2 ^ t.size ∧ ∀ j, j < t.size → payloadBit data (objectBit o t.size t.order j) = raw.testBit j

/-- The DIDs whose objects can be found in a payload: distinct names, and each object is addressable
by a start bit. -/
structure Placeable (c : CddDid) : Prop where
  nodup : (c.objects.map (·.name)).Nodup
  addressable : ∀ i o, c.objects[i]? = some o →
    Addressable (objectOffset c.objects i) o.type.size o.type.order

/-- The last element of a list with a property. -/
def IsLast {α : Type} (p : α → Prop) (l : List α) (a : α) : Prop :=
  ∃ before after, l = before ++ a :: after ∧ p a ∧ ∀ b ∈ after, ¬ p b

end Cantools.Spec
