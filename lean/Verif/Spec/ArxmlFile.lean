import Verif.Model.ArxmlFile
import Verif.Spec.ArxmlRef
import Verif.Spec.ArxmlScale
import Verif.Spec.Arxml

/-!
What an AUTOSAR 4 system description says about frames, their PDUs and signals.  Locations and
references mean what `Verif.Spec.ArxmlRef` says, numbers and compu methods what
`Verif.Spec.ArxmlScale` says.
-/

namespace Cantools.Spec.SystemFile

open Kcd (Xml)
open Regex (Chars)
open ArxmlRef (Pos at?)
open ArxmlScale (FloatRead)

/-! ### Locations -/

/-- An element of this name. -/
def elem (t : String) : LocAtom := ⟨t, false, false⟩
/-- An element of this name or a reference to one. -/
def ref (t : String) : LocAtom := ⟨t, false, true⟩
/-- All elements of this name. -/
def elems (t : String) : LocAtom := ⟨t, true, false⟩
/-- All elements of this name and references to such. -/
def refs (t : String) : LocAtom := ⟨t, true, true⟩

/-- There is no element (`none`) or this one at the location. -/
def At (root : Xml) (b : Pos) (loc : List LocAtom) (o : Option Pos) : Prop := Locate root loc [b] o.toList

/-- The text of the element at a location. -/
def TextAt (root : Xml) (b : Pos) (loc : List LocAtom) (t : String) : Prop :=
  ∃ p x, At root b loc (some p) ∧ at? root p = some x ∧ x.text = some t

/-- The text of an element that may be missing. -/
def OptTextAt (root : Xml) (b : Pos) (loc : List LocAtom) : Option String → Prop
  | none => At root b loc none
  | some t => TextAt root b loc t

/-- The number at a location. -/
def NumberAt (F : FloatRead) (root : Xml) (b : Pos) (loc : List LocAtom) (q : Rat) : Prop :=
  ∃ t, TextAt root b loc t ∧ PlainNumber F t.toList q

/-- A number that may be missing. -/
def OptNumberAt (F : FloatRead) (root : Xml) (b : Pos) (loc : List LocAtom) : Option Rat → Prop
  | none => At root b loc none
  | some q => NumberAt F root b loc q

/-- The number in an element. -/
def NumberIn (F : FloatRead) (root : Xml) (p : Pos) (q : Rat) : Prop :=
  ∃ x t, at? root p = some x ∧ x.text = some t ∧ PlainNumber F t.toList q

/-! ### Compu methods -/

/-- The `COMPU-SCALE` at `p` says `c`. -/
inductive ScaleAt (F : FloatRead) (root : Xml) (p : Pos) : ScaleContent → Prop
  | name {l u n} (hl : OptNumberAt F root p [elem "LOWER-LIMIT"] l)
      (hu : OptNumberAt F root p [elem "UPPER-LIMIT"] u)
      (hv : TextAt root p [ref "COMPU-CONST", elem "VT"] n) :
      ScaleAt F root p { lower := l, upper := u, body := .name n }
  | plain {l u} (hl : OptNumberAt F root p [elem "LOWER-LIMIT"] l)
      (hu : OptNumberAt F root p [elem "UPPER-LIMIT"] u)
      (hv : At root p [ref "COMPU-CONST", elem "VT"] none) (hc : At root p [ref "COMPU-RATIONAL-COEFFS"] none) :
      ScaleAt F root p { lower := l, upper := u, body := .linear 0 1 1 }
  | rational {l u c p0 p1 pd v0 v1 d} (hl : OptNumberAt F root p [elem "LOWER-LIMIT"] l)
      (hu : OptNumberAt F root p [elem "UPPER-LIMIT"] u)
      (hv : At root p [ref "COMPU-CONST", elem "VT"] none) (hc : At root p [ref "COMPU-RATIONAL-COEFFS"] (some c))
      (hn : Locate root [ref "COMPU-NUMERATOR", refs "V"] [c] [p0, p1])
      (hd : Locate root [ref "COMPU-DENOMINATOR", refs "V"] [c] [pd])
      (h0 : NumberIn F root p0 v0) (h1 : NumberIn F root p1 v1) (h2 : NumberIn F root pd d) (hne : d ≠ 0) :
      ScaleAt F root p { lower := l, upper := u, body := .linear v0 v1 d }

/-- The text of `CATEGORY`. -/
inductive CategoryText : String → ArxmlScale.Category → Prop
  | texttable : CategoryText "TEXTTABLE" .texttable
  | linear : CategoryText "LINEAR" .linear
  | linearAndTexttable : CategoryText "SCALE_LINEAR_AND_TEXTTABLE" .linearAndTexttable

/-- Where the scales are; a linear function has one. -/
def scalesLocation : ArxmlScale.Category → List LocAtom
  | .linear => [elem "COMPU-INTERNAL-TO-PHYS", elem "COMPU-SCALES", ref "COMPU-SCALE"]
  | _ => [ref "COMPU-INTERNAL-TO-PHYS", elem "COMPU-SCALES", refs "COMPU-SCALE"]

/-- The compu method at `p` has these scales: `none` if values are shown as they are. -/
inductive MethodSays (F : FloatRead) (root : Xml) (p : Pos) : Option (ArxmlScale.Category × List ScaleContent) → Prop
  | missing (h : At root p [elem "CATEGORY"] none) : MethodSays F root p none
  | identical (h : TextAt root p [elem "CATEGORY"] "IDENTICAL") : MethodSays F root p none
  | scales {t k ps cs} (h : TextAt root p [elem "CATEGORY"] t) (hk : CategoryText t k)
      (hl : Locate root (scalesLocation k) [p] ps) (hs : List.Forall₂ (ScaleAt F root) ps cs)
      (hsup : SupportedScales cs) (hall : CategoryAllows k cs) : MethodSays F root p (some (k, cs))

/-! ### Signals -/

/-- What a document says about a signal. -/
structure SignalContent where
  name : String
  start : Nat
  length : Nat
  order : ByteOrder
  isSigned : Bool
  isFloat : Bool
  scales : Option (ArxmlScale.Category × List ScaleContent)
  unit : Option String
  initial : Option Int
  invalid : Option Int

/-- The byte order in an element: the last byte is the most significant one if nothing is said. -/
def OrderSays (root : Xml) (b : Pos) (tag : String) (o : ByteOrder) : Prop :=
  (At root b [elem tag] none ∧ o = .little) ∨
  (TextAt root b [elem tag] "MOST-SIGNIFICANT-BYTE-LAST" ∧ o = .little) ∨
  (TextAt root b [elem tag] "MOST-SIGNIFICANT-BYTE-FIRST" ∧ o = .big)

/-- The base type of an I-signal. -/
def baseType : List LocAtom :=
  [ref "NETWORK-REPRESENTATION-PROPS", elem "SW-DATA-DEF-PROPS-VARIANTS", ref "SW-DATA-DEF-PROPS-CONDITIONAL",
    ref "BASE-TYPE"]

/-- Signedness and whether the signal is a floating point number: unsigned integers are the default. -/
inductive TypeSays (root : Xml) (i : Pos) : Bool → Bool → Prop
  | default (h : At root i baseType none) : TypeSays root i false false
  | unsigned {b} (h : At root i baseType (some b)) (he : TextAt root b [ref "BASE-TYPE-ENCODING"] "NONE") :
      TypeSays root i false false
  | twosComplement {b} (h : At root i baseType (some b)) (he : TextAt root b [ref "BASE-TYPE-ENCODING"] "2C") :
      TypeSays root i true false
  | ieee {b} (h : At root i baseType (some b)) (he : TextAt root b [ref "BASE-TYPE-ENCODING"] "IEEE754") :
      TypeSays root i false true

/-- The compu method of a system signal. -/
def compuMethodOf : List LocAtom :=
  [ref "PHYSICAL-PROPS", elem "SW-DATA-DEF-PROPS-VARIANTS", ref "SW-DATA-DEF-PROPS-CONDITIONAL", ref "COMPU-METHOD"]

/-- The unit of a system signal. -/
def unitOf : List LocAtom :=
  [elem "PHYSICAL-PROPS", elem "SW-DATA-DEF-PROPS-VARIANTS", ref "SW-DATA-DEF-PROPS-CONDITIONAL", ref "UNIT",
    elem "DISPLAY-NAME"]

/-- The unit: that of the system signal, or else that of its compu method. -/
def UnitSays (root : Xml) (sys : Pos) (compu : Option Pos) (unit : Option String) : Prop :=
  (∃ t, (TextAt root sys unitOf t ∨
      (At root sys unitOf none ∧ ∃ c, compu = some c ∧ TextAt root c [ref "UNIT", elem "DISPLAY-NAME"] t)) ∧
    unit = if t = "NoUnit" then none else some t) ∨
  (unit = none ∧ At root sys unitOf none ∧ ∀ c, compu = some c → At root c [ref "UNIT", elem "DISPLAY-NAME"] none)

/-- Scales and unit from the system signal, if there is one. -/
inductive SystemSays (F : FloatRead) (root : Xml) :
    Option Pos → Option (ArxmlScale.Category × List ScaleContent) → Option String → Prop
  | none : SystemSays F root none none none
  | plain {s u} (hc : At root s compuMethodOf none) (hu : UnitSays root s none u) : SystemSays F root (some s) none u
  | method {s c m u} (hc : At root s compuMethodOf (some c)) (hm : MethodSays F root c m)
      (hu : UnitSays root s (some c) u) : SystemSays F root (some s) m u

/-- A word that is not a number. -/
structure Wording (F : FloatRead) (t : Regex.Chars) : Prop where
  some : t ≠ []
  letters : ∀ c ∈ t, 'a' ≤ c ∧ c ≤ 'z'
  notBoolean : t ≠ "true".toList ∧ t ≠ "false".toList
  notFloat : F.float t = none

/-- The initial value: a number, given directly or by a constant.  Words are not used. -/
inductive InitialSays (F : FloatRead) (root : Xml) (i : Pos) : Option Int → Prop
  | none (h : At root i [elem "INIT-VALUE", elem "NUMERICAL-VALUE-SPECIFICATION", elem "VALUE"] none)
      (h' : At root i [elem "INIT-VALUE", elem "CONSTANT-REFERENCE", ref "CONSTANT", elem "VALUE-SPEC",
        elem "NUMERICAL-VALUE-SPECIFICATION", elem "VALUE"] none) : InitialSays F root i none
  | direct {v : Int}
      (h : NumberAt F root i [elem "INIT-VALUE", elem "NUMERICAL-VALUE-SPECIFICATION", elem "VALUE"] v) :
      InitialSays F root i (some v)
  | constant {v : Int}
      (h : At root i [elem "INIT-VALUE", elem "NUMERICAL-VALUE-SPECIFICATION", elem "VALUE"] none)
      (h' : NumberAt F root i [elem "INIT-VALUE", elem "CONSTANT-REFERENCE", ref "CONSTANT", elem "VALUE-SPEC",
        elem "NUMERICAL-VALUE-SPECIFICATION", elem "VALUE"] v) : InitialSays F root i (some v)
  | word {t : String} (ht : Wording F t.toList)
      (h : TextAt root i [elem "INIT-VALUE", elem "NUMERICAL-VALUE-SPECIFICATION", elem "VALUE"] t) :
      InitialSays F root i none

/-- The `I-SIGNAL-TO-I-PDU-MAPPING` at `m` describes the signal `d`. -/
structure SignalSays (F : FloatRead) (root : Xml) (m i : Pos) (sys : Option Pos) (d : SignalContent) : Prop where
  signal : At root m [ref "I-SIGNAL"] (some i)
  system : At root i [ref "SYSTEM-SIGNAL"] sys
  isSignal : ∀ s x, sys = some s → at? root s = some x → x.tag = "SYSTEM-SIGNAL"
  name : TextAt root i [elem "SHORT-NAME"] d.name
  /-- names have no elements inside -/
  leaf : ∃ o, At root i [ref "SYSTEM-SIGNAL", elem "SHORT-NAME"] o ∧
    ∀ p x, o = some p → at? root p = some x → x.children = []
  start : NumberAt F root m [elem "START-POSITION"] d.start
  length : NumberAt F root i [elem "LENGTH"] d.length
  order : OrderSays root m "PACKING-BYTE-ORDER" d.order
  type : TypeSays root i d.isSigned d.isFloat
  scales : SystemSays F root sys d.scales d.unit
  /-- floating point numbers have no names -/
  float : d.isFloat = true → ∀ k cs, d.scales = some (k, cs) → k = .linear
  initial : InitialSays F root i d.initial
  invalid : OptNumberAt F root i [elem "NETWORK-REPRESENTATION-PROPS", elem "SW-DATA-DEF-PROPS-VARIANTS",
    elem "SW-DATA-DEF-PROPS-CONDITIONAL", elem "INVALID-VALUE", elem "NUMERICAL-VALUE-SPECIFICATION", elem "VALUE"]
    (d.invalid.map fun v : Int => (v : Rat))

/-- The mapping at `m` is about a group of signals. -/
def GroupSays (root : Xml) (m : Pos) : Prop :=
  At root m [ref "I-SIGNAL"] none ∨
    ∃ i s x, At root m [ref "I-SIGNAL"] (some i) ∧ At root i [ref "SYSTEM-SIGNAL"] (some s) ∧ at? root s = some x ∧
      x.tag ≠ "SYSTEM-SIGNAL"

/-- A conversion and limits do what the scales say: see C51. -/
structure ShowsScales (cs : List ScaleContent) (conv : Conversion) (mn mx : Option Rat) : Prop where
  shows : ∀ c ∈ cs, ∀ raw : Int, c.Contains raw → (Increasing c → ∀ c' ∈ cs, NamesOne c' → ¬ c'.Contains raw) →
    ScaleShows c raw (conv.rawToScaled raw true)
  names : ∀ c ∈ cs, ∀ n, c.body = .name n → (∀ c' ∈ cs, c'.body = .name n → c'.lower = c.lower) →
    ∀ i : Int, c.lower = some (i : Rat) → conv.scaledToRaw (.str n) = .ok (i : Rat)
  limits : ∀ c ∈ cs, ∀ v0 v1 d, c.body = .linear v0 v1 d → ∀ raw : Rat, c.Contains raw ↔
    (∀ l, mn = some l → l ≤ (v0 + v1 * raw) / d) ∧ (∀ u, mx = some u → (v0 + v1 * raw) / d ≤ u)
  others : (∀ c ∈ cs, NamesOne c) → mn = none ∧ mx = none ∧
    ∀ raw : Int, (∀ c ∈ cs, ¬ c.Contains raw) → conv.rawToScaled raw true = .num raw

/-- The signal of cantools for the described signal. -/
structure SignalIs (d : SignalContent) (s : Signal) : Prop where
  name : s.name = d.name
  start : s.start = d.start
  length : s.length = d.length
  order : s.byteOrder = d.order
  isSigned : s.isSigned = d.isSigned
  isFloat : s.conversion.isFloat = d.isFloat
  plain : PlainSignal s
  unscaled : d.scales = none → s.minimum = none ∧ s.maximum = none ∧
    ∀ raw : Rat, s.conversion.rawToScaled raw true = .num raw
  scaled : ∀ k cs, d.scales = some (k, cs) → ShowsScales cs s.conversion s.minimum s.maximum
  linear : ∀ cs, d.scales = some (.linear, cs) → ∀ c ∈ cs, ∀ v0 v1 den, c.body = .linear v0 v1 den →
    ∀ raw : Rat, s.conversion.rawToScaled raw true = .num ((v0 + v1 * raw) / den)

/-- The bits of a described signal: only its place, length, order and type matter. -/
def fieldOf (d : SignalContent) : Signal :=
  { name := d.name, start := d.start, length := d.length, byteOrder := d.order, isSigned := d.isSigned
    conversion := .factory 1 0 none d.isFloat }

/-- The user sees `v` for the number `raw` in the bits. -/
structure Shows (d : SignalContent) (raw : Rat) (v : Value) : Prop where
  plain : d.scales = none → v = .num raw
  scaled : ∀ k cs, d.scales = some (k, cs) → ∀ c ∈ cs, ∀ i : Int, raw = i → c.Contains i →
    (Increasing c → ∀ c' ∈ cs, NamesOne c' → ¬ c'.Contains i) → ScaleShows c i v
  linear : ∀ cs, d.scales = some (.linear, cs) → ∀ c ∈ cs, ∀ v0 v1 den, c.body = .linear v0 v1 den →
    v = .num ((v0 + v1 * raw) / den)
  others : ∀ k cs, d.scales = some (k, cs) → (∀ c ∈ cs, NamesOne c) → ∀ i : Int, raw = i →
    (∀ c ∈ cs, ¬ c.Contains i) → v = .num i

/-! ### PDUs -/

mutual
/-- What a document says about a PDU. -/
inductive PduContent where
  | plain (signals : List SignalContent)
  | secured (payload : PduContent)
  | multiplexed (signals : List SignalContent) (pos len : Nat) (order : ByteOrder) (alts : AltContents)
      (statics : PduContents)
inductive AltContents where
  | nil
  | cons (code : Int) (initial : Bool) (pdu : PduContent) (rest : AltContents)
inductive PduContents where
  | nil
  | cons (pdu : PduContent) (rest : PduContents)
end

mutual
/-- How many PDUs are inside each other. -/
def PduContent.depth : PduContent → Nat
  | .plain _ => 1
  | .secured p => p.depth + 1
  | .multiplexed _ _ _ _ alts statics => max alts.depth statics.depth + 1
def AltContents.depth : AltContents → Nat
  | .nil => 0
  | .cons _ _ p rest => max p.depth rest.depth
def PduContents.depth : PduContents → Nat
  | .nil => 0
  | .cons p rest => max p.depth rest.depth
end

/-- The mappings at the positions describe the signals (groups give none). -/
inductive SignalsSay (F : FloatRead) (root : Xml) : List Pos → List SignalContent → Prop
  | nil : SignalsSay F root [] []
  | group {m ms ds} (h : GroupSays root m) (hr : SignalsSay F root ms ds) : SignalsSay F root (m :: ms) ds
  | signal {m ms i sys d ds} (h : SignalSays F root m i sys d) (hr : SignalsSay F root ms ds) :
      SignalsSay F root (m :: ms) (d :: ds)

/-- The signals of a PDU itself. -/
def OwnSignals (F : FloatRead) (root : Xml) (p : Pos) (ds : List SignalContent) : Prop :=
  ∃ a b, Locate root [elem "I-SIGNAL-TO-PDU-MAPPINGS", refs "I-SIGNAL-TO-I-PDU-MAPPING"] [p] a ∧
    Locate root [elem "I-SIGNAL-TO-I-PDU-MAPPINGS", refs "I-SIGNAL-TO-I-PDU-MAPPING"] [p] b ∧
    SignalsSay F root (a ++ b) ds

def HasTag (root : Xml) (p : Pos) (t : String) : Prop := ∃ x, at? root p = some x ∧ x.tag = t

/-- The reference in the element at `r`, seen from `b`, leads to `p`. -/
def RefLeads (root : Xml) (b r p : Pos) : Prop :=
  ∃ x t, at? root r = some x ∧ x.text = some t ∧
    Leads root b t.toList (x.attr? "DEST") ((x.attr? "BASE").map String.toList) p

/-- An alternative of a multiplexed PDU: its code, whether it is the initial one, and its PDU. -/
structure AltSays (F : FloatRead) (root : Xml) (a : Pos) (code : Int) (initial : Bool) (p : Pos) : Prop where
  code : NumberAt F root a [elem "SELECTOR-FIELD-CODE"] code
  pdu : ∃ r, At root a [elem "I-PDU-REF"] (some r) ∧ RefLeads root a r p
  only : At root a [ref "I-PDU"] (some p)
  initial : (initial = true ∧ TextAt root a [elem "INITIAL-DYNAMIC-PART"] "true") ∨
    (initial = false ∧ TextAt root a [elem "INITIAL-DYNAMIC-PART"] "false") ∨
    (initial = false ∧ At root a [elem "INITIAL-DYNAMIC-PART"] none)

mutual
/-- The element at `p` describes the PDU. -/
def PduSays (F : FloatRead) (root : Xml) : PduContent → (p : Pos) → Prop
  | .plain ds, p =>
    (∃ t, HasTag root p t ∧ t ≠ "CONTAINER-I-PDU" ∧ t ≠ "SECURED-I-PDU" ∧ t ≠ "MULTIPLEXED-I-PDU") ∧
      OwnSignals F root p ds
  | .secured c, p =>
    HasTag root p "SECURED-I-PDU" ∧ ∃ q, At root p [ref "PAYLOAD", ref "I-PDU"] (some q) ∧ PduSays F root c q
  | .multiplexed ds pos len order alts statics, p =>
    HasTag root p "MULTIPLEXED-I-PDU" ∧ OwnSignals F root p ds ∧
      NumberAt F root p [elem "SELECTOR-FIELD-START-POSITION"] pos ∧
      NumberAt F root p [elem "SELECTOR-FIELD-LENGTH"] len ∧
      OrderSays root p "SELECTOR-FIELD-BYTE-ORDER" order ∧
      (∃ as, Locate root [elem "DYNAMIC-PARTS", elems "DYNAMIC-PART", elem "DYNAMIC-PART-ALTERNATIVES",
        elems "DYNAMIC-PART-ALTERNATIVE"] [p] as ∧ AltsSay F root alts as) ∧
      ∃ rs, Locate root [elem "STATIC-PARTS", elems "STATIC-PART", elem "I-PDU-REF"] [p] rs ∧
        StaticsSay F root p statics rs
/-- The alternatives at the positions. -/
def AltsSay (F : FloatRead) (root : Xml) : AltContents → List Pos → Prop
  | .nil, as => as = []
  | .cons code initial c rest, as =>
    ∃ a as', as = a :: as' ∧ (∃ p, AltSays F root a code initial p ∧ PduSays F root c p) ∧ AltsSay F root rest as'
/-- The static parts of the PDU at `b` to which the elements at the positions refer. -/
def StaticsSay (F : FloatRead) (root : Xml) (b : Pos) : PduContents → List Pos → Prop
  | .nil, rs => rs = []
  | .cons c rest, rs =>
    ∃ r rs', rs = r :: rs' ∧ (∃ p, RefLeads root b r p ∧ PduSays F root c p) ∧ StaticsSay F root b rest rs'
end

mutual
/-- The PDU of cantools for the described PDU. -/
def PduIs : PduContent → Arxml.Pdu → Prop
  | .plain ds, .plain ss => List.Forall₂ SignalIs ds ss
  | .secured c, .secured p => PduIs c p
  | .multiplexed ds pos len order alts statics, .multiplexed ss pos' len' order' alts' statics' =>
    List.Forall₂ SignalIs ds ss ∧ pos' = pos ∧ len' = len ∧ order' = order ∧ AltsAre alts alts' ∧
      PdusAre statics statics'
  | _, _ => False
def AltsAre : AltContents → Arxml.Alts → Prop
  | .nil, .nil => True
  | .cons code initial c rest, .cons code' initial' p rest' =>
    code' = code ∧ initial' = initial ∧ PduIs c p ∧ AltsAre rest rest'
  | _, _ => False
def PdusAre : PduContents → Arxml.Pdus → Prop
  | .nil, .nil => True
  | .cons c rest, .cons p rest' => PduIs c p ∧ PdusAre rest rest'
  | _, _ => False
end

/-- The signals of a PDU without alternatives. -/
def PduContent.signals? : PduContent → Option (List SignalContent)
  | .plain ds => some ds
  | .secured p => p.signals?
  | .multiplexed .. => none

mutual
/-- The places of the selector fields of a PDU and the PDUs inside. -/
def PduContent.selectors : PduContent → List Nat
  | .plain _ => []
  | .secured p => p.selectors
  | .multiplexed _ pos _ _ alts statics => pos :: (alts.selectors ++ statics.selectors)
def AltContents.selectors : AltContents → List Nat
  | .nil => []
  | .cons _ _ p rest => p.selectors ++ rest.selectors
def PduContents.selectors : PduContents → List Nat
  | .nil => []
  | .cons p rest => p.selectors ++ rest.selectors
end

mutual
/-- Different selector fields are at different places. -/
def PduContent.Tidy : PduContent → Prop
  | .plain _ => True
  | .secured p => p.Tidy
  | .multiplexed _ pos _ _ alts statics => alts.Tidy ∧ statics.Tidy ∧ pos ∉ alts.selectors
def AltContents.Tidy : AltContents → Prop
  | .nil => True
  | .cons _ _ p rest => p.Tidy ∧ rest.Tidy
def PduContents.Tidy : PduContents → Prop
  | .nil => True
  | .cons p rest => p.Tidy ∧ rest.Tidy
end

/-! ### Protection -/

/-- The signal groups of a PDU. -/
def signalGroups : List LocAtom :=
  [elem "I-SIGNAL-TO-PDU-MAPPINGS", elems "I-SIGNAL-TO-I-PDU-MAPPING", ref "I-SIGNAL-GROUP"]

/-- The end-to-end transformation of a signal group. -/
def transformation : List LocAtom :=
  [elem "TRANSFORMATION-I-SIGNAL-PROPSS", elem "END-TO-END-TRANSFORMATION-I-SIGNAL-PROPS",
    elem "END-TO-END-TRANSFORMATION-I-SIGNAL-PROPS-VARIANTS", elem "END-TO-END-TRANSFORMATION-I-SIGNAL-PROPS-CONDITIONAL"]

/-- The end-to-end protection of the PDU at `p`: that of its last signal group, for the length of the PDU. -/
inductive GroupE2eSays (F : FloatRead) (root : Xml) (p : Pos) : Option ArxmlFile.Loader.EndToEnd → Prop
  | noGroup (h : Locate root signalGroups [p] []) : GroupE2eSays F root p none
  | noProtection {gs g} (h : Locate root signalGroups [p] (gs ++ [g])) (hp : At root g transformation none) :
      GroupE2eSays F root p none
  | protection {gs g t ps e} (h : Locate root signalGroups [p] (gs ++ [g])) (hp : At root g transformation (some t))
      (hc : OptTextAt root t [ref "TRANSFORMER", elem "TRANSFORMATION-DESCRIPTIONS",
        elem "END-TO-END-TRANSFORMATION-DESCRIPTION", elem "PROFILE-NAME"] e.category)
      (hd : Locate root [elem "DATA-IDS", elems "DATA-ID"] [t] ps)
      (hi : List.Forall₂ (fun p (i : Int) => NumberIn F root p i) ps e.dataIds)
      (hl : NumberAt F root p [elem "LENGTH"] e.payloadLength) : GroupE2eSays F root p (some e)

/-- The properties of the secured PDU at `p` with its payload at `q`. -/
structure SecuredSays (F : FloatRead) (root : Xml) (p q : Pos) (s : ArxmlFile.Loader.SecOC) : Prop where
  payload : At root p [ref "PAYLOAD", ref "I-PDU"] (some q)
  payloadLength : NumberAt F root q [elem "LENGTH"] s.payloadLength
  authAlgorithm : OptTextAt root p [ref "AUTHENTICATION-PROPS", elem "SHORT-NAME"] s.authAlgorithm
  freshnessAlgorithm : OptTextAt root p [ref "FRESHNESS-PROPS", elem "SHORT-NAME"] s.freshnessAlgorithm
  dataId : OptNumberAt F root p [elem "SECURE-COMMUNICATION-PROPS", elem "DATA-ID"] (s.dataId.map fun i : Int => (i : Rat))
  authTxBits : OptNumberAt F root p [ref "AUTHENTICATION-PROPS", elem "AUTH-INFO-TX-LENGTH"]
    (s.authTxBits.map fun n : Nat => (n : Rat))
  freshnessBits : OptNumberAt F root p [ref "FRESHNESS-PROPS", elem "FRESHNESS-VALUE-LENGTH"]
    (s.freshnessBits.map fun n : Nat => (n : Rat))
  freshnessTxBits : OptNumberAt F root p [ref "FRESHNESS-PROPS", elem "FRESHNESS-VALUE-TX-LENGTH"]
    (s.freshnessTxBits.map fun n : Nat => (n : Rat))

/-- How the PDU at `p` is secured and what its end-to-end protection is.  A secured PDU without
end-to-end protection has that of its payload. -/
inductive ProtectionSays (F : FloatRead) (root : Xml) (p : Pos) :
    Option ArxmlFile.Loader.SecOC → Option ArxmlFile.Loader.EndToEnd → Prop
  | plain {t e} (h : HasTag root p t) (ht : t ≠ "SECURED-I-PDU") (he : GroupE2eSays F root p e) :
      ProtectionSays F root p none e
  | own {q s e} (h : HasTag root p "SECURED-I-PDU") (hs : SecuredSays F root p q s)
      (he : GroupE2eSays F root p (some e)) : ProtectionSays F root p (some s) (some e)
  | payload {q s e} (h : HasTag root p "SECURED-I-PDU") (hs : SecuredSays F root p q s)
      (hn : GroupE2eSays F root p none) (he : GroupE2eSays F root q e) : ProtectionSays F root p (some s) e

/-! ### Containers -/

/-- What a document says about a message in a container. -/
structure PartContent where
  headerId : Nat
  name : String
  length : Nat
  pdu : PduContent
  /-- the pattern of unused bits -/
  pattern : Int
  secoc : Option ArxmlFile.Loader.SecOC := none
  e2e : Option ArxmlFile.Loader.EndToEnd := none

/-- The pattern of the unused bits of the PDU at `p`. -/
def PatternSays (F : FloatRead) (root : Xml) (p : Pos) (pattern : Int) : Prop :=
  NumberAt F root p [elem "UNUSED-BIT-PATTERN"] (pattern : Rat) ∨
    (At root p [elem "UNUSED-BIT-PATTERN"] none ∧ pattern = 255)

/-- The PDU at `p` describes the message in a container. -/
structure PartSays (F : FloatRead) (root : Xml) (p : Pos) (d : PartContent) : Prop where
  name : TextAt root p [elem "SHORT-NAME"] d.name
  length : NumberAt F root p [elem "LENGTH"] d.length
  headerId : NumberAt F root p [elem "CONTAINED-I-PDU-PROPS", elem "HEADER-ID-SHORT-HEADER"] d.headerId
  pdu : PduSays F root d.pdu p
  pattern : PatternSays F root p d.pattern
  protection : ProtectionSays F root p d.secoc d.e2e

/-- The messages in the container at `p`.  Only containers with short headers have any. -/
inductive ContainerSays (F : FloatRead) (root : Xml) (p : Pos) : List PartContent → Prop
  | other {t} (h : TextAt root p [elem "HEADER-TYPE"] t) (ht : t ≠ "SHORT-HEADER") : ContainerSays F root p []
  | short {ps ds} (h : TextAt root p [elem "HEADER-TYPE"] "SHORT-HEADER")
      (hp : Locate root [elem "CONTAINED-PDU-TRIGGERING-REFS", refs "CONTAINED-PDU-TRIGGERING", ref "I-PDU"] [p] ps)
      (hs : List.Forall₂ (PartSays F root) ps ds) : ContainerSays F root p ds

/-! ### Frames -/

/-- What a document says about a frame. -/
structure FrameContent where
  bus : String
  frameId : Int
  isExtended : Bool
  isFd : Bool
  name : String
  length : Nat
  /-- the PDU and the pattern of its unused bits -/
  pdu : Option (PduContent × Int)
  secoc : Option ArxmlFile.Loader.SecOC := none
  e2e : Option ArxmlFile.Loader.EndToEnd := none
  /-- the messages in the frame, if it is a container -/
  contained : List PartContent := []

/-- The CAN behaviour: classical or flexible data rate. -/
def FdSays (root : Xml) (t : Pos) (fd : Bool) : Prop :=
  ∃ rx tx, OptTextAt root t [elem "CAN-FRAME-RX-BEHAVIOR"] rx ∧ OptTextAt root t [elem "CAN-FRAME-TX-BEHAVIOR"] tx ∧
    (fd = true ↔ rx = some "CAN-FD" ∨ tx = some "CAN-FD")

/-- Where in the frame at `f` the PDU begins. -/
def OffsetSays (F : FloatRead) (root : Xml) (f : Pos) (o : Nat) : Prop :=
  NumberAt F root f [elem "PDU-TO-FRAME-MAPPINGS", ref "PDU-TO-FRAME-MAPPING", elem "START-POSITION"] o

/-- The PDU of the frame at `f`, and the messages in it.  A container has no signals. -/
inductive FramePduSays (F : FloatRead) (root : Xml) (f : Pos) : Option (PduContent × Int) → List PartContent → Prop
  | none (h : At root f [elem "PDU-TO-FRAME-MAPPINGS", ref "PDU-TO-FRAME-MAPPING", ref "PDU"] none) :
      FramePduSays F root f none []
  | pdu {p r c pattern}
      (h : At root f [elem "PDU-TO-FRAME-MAPPINGS", ref "PDU-TO-FRAME-MAPPING", ref "PDU"] (some p))
      (hr : At root f [elem "PDU-TO-FRAME-MAPPINGS", ref "PDU-TO-FRAME-MAPPING", elem "PDU-REF"] (some r))
      (hl : RefLeads root r r p) (hp : PduSays F root c p)
      (hu : PatternSays F root p pattern) : FramePduSays F root f (some (c, pattern)) []
  | container {p r pattern parts}
      (h : At root f [elem "PDU-TO-FRAME-MAPPINGS", ref "PDU-TO-FRAME-MAPPING", ref "PDU"] (some p))
      (hr : At root f [elem "PDU-TO-FRAME-MAPPINGS", ref "PDU-TO-FRAME-MAPPING", elem "PDU-REF"] (some r))
      (hl : RefLeads root r r p) (ht : HasTag root p "CONTAINER-I-PDU") (hp : ContainerSays F root p parts)
      (hu : PatternSays F root p pattern) : FramePduSays F root f (some (.plain [], pattern)) parts

/-- How the frame at `f` is protected: as its PDU.  A PDU has a length. -/
inductive FrameProtection (F : FloatRead) (root : Xml) (f : Pos) :
    Option ArxmlFile.Loader.SecOC → Option ArxmlFile.Loader.EndToEnd → Prop
  | none (h : At root f [elem "PDU-TO-FRAME-MAPPINGS", ref "PDU-TO-FRAME-MAPPING", ref "PDU"] none) :
      FrameProtection F root f none none
  | pdu {p n s e} (h : At root f [elem "PDU-TO-FRAME-MAPPINGS", ref "PDU-TO-FRAME-MAPPING", ref "PDU"] (some p))
      (hl : NumberAt F root p [elem "LENGTH"] ((n : Nat) : Rat)) (hp : ProtectionSays F root p s e) :
      FrameProtection F root f s e

/-- The `CAN-FRAME-TRIGGERING` at `t` on the bus describes the frame `d`. -/
def FrameSays (F : FloatRead) (root : Xml) (trig : String × Pos) (d : FrameContent) : Prop :=
  d.bus = trig.1 ∧ ∃ f, At root trig.2 [ref "FRAME"] (some f) ∧
    NumberAt F root trig.2 [elem "IDENTIFIER"] d.frameId ∧
    (∃ o, OptTextAt root trig.2 [elem "CAN-ADDRESSING-MODE"] o ∧ (d.isExtended = true ↔ o = some "EXTENDED")) ∧
    FdSays root trig.2 d.isFd ∧
    TextAt root f [elem "SHORT-NAME"] d.name ∧
    NumberAt F root f [elem "FRAME-LENGTH"] d.length ∧
    FramePduSays F root f d.pdu d.contained ∧ FrameProtection F root f d.secoc d.e2e

/-- The PDU of cantools for the PDU of a frame. -/
inductive FramePduIs : Option (PduContent × Int) → Option Arxml.Pdu → Prop
  | none : FramePduIs none none
  | some {c pattern pdu} (h : PduIs c pdu) : FramePduIs (some (c, pattern)) (some pdu)

/-- The PDU in the frame of the triggering at `trig` begins at bit `8 * o`. -/
def PduAtByte (F : FloatRead) (root : Xml) (trig : Pos) (o : Nat) : Prop :=
  ∃ f, At root trig [ref "FRAME"] (some f) ∧ OffsetSays F root f (8 * o)

/-- The first child with a tag. -/
def FirstChild (x : Xml) (tag : String) (i : Nat) (c : Xml) : Prop :=
  x.children[i]? = some c ∧ c.tag = tag ∧ ∀ k < i, ∀ z, x.children[k]? = some z → z.tag ≠ tag

/-- A package: in the list of packages of the root, or of another package. -/
inductive PackageAt : Xml → Pos → Prop
  | here {x l y : Xml} {i j : Nat} (hl : FirstChild x "AR-PACKAGES" i l) (hy : l.children[j]? = some y)
      (ht : y.tag = "AR-PACKAGE") : PackageAt x [i, j]
  | inside {x l y : Xml} {i j : Nat} {s : Pos} (hl : FirstChild x "AR-PACKAGES" i l) (hy : l.children[j]? = some y)
      (ht : y.tag = "AR-PACKAGE") (h : PackageAt y s) : PackageAt x (i :: j :: s)

/-- All packages, in the order of the document. -/
def Packages (root : Xml) (qs : List Pos) : Prop := qs.Pairwise (· < ·) ∧ ∀ q, q ∈ qs ↔ PackageAt root q

/-- The frame triggerings of a cluster. -/
def triggerings : List LocAtom :=
  [elem "CAN-CLUSTER-VARIANTS", refs "CAN-CLUSTER-CONDITIONAL", elem "PHYSICAL-CHANNELS", refs "CAN-PHYSICAL-CHANNEL",
    elem "FRAME-TRIGGERINGS", refs "CAN-FRAME-TRIGGERING"]

/-- The name of the bus and the frame triggerings of the cluster at `c`. -/
def ClusterSays (root : Xml) (c : Pos) (l : List (String × Pos)) : Prop :=
  ∃ bus ts, TextAt root c [elem "SHORT-NAME"] bus ∧ Locate root triggerings [c] ts ∧ l = ts.map fun t => (bus, t)

/-- The frame triggerings of the clusters in a package. -/
def PackageSays (root : Xml) (q : Pos) (l : List (String × Pos)) : Prop :=
  ∃ cs parts, Locate root [elem "ELEMENTS", refs "CAN-CLUSTER"] [q] cs ∧
    List.Forall₂ (ClusterSays root) cs parts ∧ l = parts.flatten

/-- The frame triggerings of all clusters, with the name of the bus. -/
def Triggerings (root : Xml) (l : List (String × Pos)) : Prop :=
  ∃ qs parts, Packages root qs ∧ List.Forall₂ (PackageSays root) qs parts ∧ l = parts.flatten

/-- An element in a list of packages, as `PackageAt`. -/
inductive ListedAt : Xml → Pos → Prop
  | here {x l y : Xml} {i j : Nat} (hl : FirstChild x "AR-PACKAGES" i l) (hy : l.children[j]? = some y) :
      ListedAt x [i, j]
  | inside {x l y : Xml} {i j : Nat} {s : Pos} (hl : FirstChild x "AR-PACKAGES" i l) (hy : l.children[j]? = some y)
      (h : ListedAt y s) : ListedAt x (i :: j :: s)

/-- The byte order of the headers of containers that the system at `s` specifies. -/
def HeaderOrder (root : Xml) (s : Pos) (big : Bool) : Prop :=
  (At root s [elem "CONTAINER-I-PDU-HEADER-BYTE-ORDER"] none ∧ big = true) ∨
    ∃ t, TextAt root s [elem "CONTAINER-I-PDU-HEADER-BYTE-ORDER"] t ∧ (big = false ↔ t = "MOST-SIGNIFICANT-BYTE-LAST")

/-- The byte order of the headers of containers: what the systems in the packages specify, big endian if there is
none. -/
structure HeadersSay (root : Xml) (big : Bool) : Prop where
  systems : ∀ q, ListedAt root q → ∃ o, At root q [elem "ELEMENTS", elem "SYSTEM"] o ∧ ∀ s, o = some s → HeaderOrder root s big
  default : (∀ q, ListedAt root q → At root q [elem "ELEMENTS", elem "SYSTEM"] none) → big = true

/-- The names of elements to which there are no references. -/
def plainTags : List String :=
  ["CATEGORY", "LOWER-LIMIT", "UPPER-LIMIT", "VT", "COMPU-INTERNAL-TO-PHYS", "COMPU-SCALES",
    "SW-DATA-DEF-PROPS-VARIANTS", "SW-DATA-DEF-PROPS-CONDITIONAL", "PHYSICAL-PROPS", "DISPLAY-NAME", "INIT-VALUE",
    "NUMERICAL-VALUE-SPECIFICATION", "VALUE", "CONSTANT-REFERENCE", "VALUE-SPEC", "SHORT-NAME", "START-POSITION",
    "LENGTH", "PACKING-BYTE-ORDER", "NETWORK-REPRESENTATION-PROPS", "INVALID-VALUE", "I-SIGNAL-TO-PDU-MAPPINGS",
    "I-SIGNAL-TO-I-PDU-MAPPINGS", "SELECTOR-FIELD-CODE", "I-PDU-REF", "INITIAL-DYNAMIC-PART",
    "SELECTOR-FIELD-START-POSITION", "SELECTOR-FIELD-LENGTH", "SELECTOR-FIELD-BYTE-ORDER", "DYNAMIC-PARTS",
    "DYNAMIC-PART", "DYNAMIC-PART-ALTERNATIVES", "DYNAMIC-PART-ALTERNATIVE", "STATIC-PARTS", "STATIC-PART",
    "IDENTIFIER", "CAN-ADDRESSING-MODE", "CAN-FRAME-RX-BEHAVIOR", "CAN-FRAME-TX-BEHAVIOR", "FRAME-LENGTH",
    "PDU-TO-FRAME-MAPPINGS", "PDU-REF", "UNUSED-BIT-PATTERN", "CAN-CLUSTER-VARIANTS", "PHYSICAL-CHANNELS",
    "FRAME-TRIGGERINGS", "ELEMENTS", "I-SIGNAL-TO-I-PDU-MAPPING", "TRANSFORMATION-I-SIGNAL-PROPSS",
    "END-TO-END-TRANSFORMATION-I-SIGNAL-PROPS", "END-TO-END-TRANSFORMATION-I-SIGNAL-PROPS-VARIANTS",
    "END-TO-END-TRANSFORMATION-I-SIGNAL-PROPS-CONDITIONAL", "TRANSFORMATION-DESCRIPTIONS",
    "END-TO-END-TRANSFORMATION-DESCRIPTION", "PROFILE-NAME", "DATA-IDS", "DATA-ID", "SECURE-COMMUNICATION-PROPS",
    "AUTH-INFO-TX-LENGTH", "FRESHNESS-VALUE-LENGTH", "FRESHNESS-VALUE-TX-LENGTH", "HEADER-TYPE",
    "CONTAINED-PDU-TRIGGERING-REFS", "CONTAINED-I-PDU-PROPS", "HEADER-ID-SHORT-HEADER", "SYSTEM",
    "CONTAINER-I-PDU-HEADER-BYTE-ORDER", "ASSOCIATED-COM-I-PDU-GROUP-REFS", "COMMUNICATION-DIRECTION", "I-SIGNAL-I-PDUS",
    "I-SIGNAL-I-PDU-REF-CONDITIONAL", "NM-CONFIG", "NM-CLUSTERS", "CAN-NM-CLUSTER", "NM-NODES", "CAN-NM-NODE",
    "CONTROLLER-REF", "RX-NM-PDU-REFS", "TX-NM-PDU-REFS", "END-TO-END-PROTECTION-SET", "END-TO-END-PROTECTIONS",
    "END-TO-END-PROTECTION", "END-TO-END-PROFILE", "END-TO-END-PROTECTION-I-SIGNAL-I-PDUS",
    "END-TO-END-PROTECTION-I-SIGNAL-I-PDU", "PROTOCOL-VERSION", "BAUDRATE", "CAN-FD-BAUDRATE", "CAN-CLUSTER-CONDITIONAL"]

/-- What the schema guarantees about references: see `C53_children_partial`. -/
def NoStray (root : Xml) : Prop :=
  ∀ p x, at? root p = some x → ∀ t ∈ plainTags, x.tag ≠ t ++ "-REF"

/-- The pattern of the unused bits of a frame. -/
def FrameContent.patternNumber (d : FrameContent) : Int := (d.pdu.map (·.2)).getD 255

/-- The trailer of a secured frame. -/
def FrameContent.trailer (d : FrameContent) : Option Arxml.Trailer :=
  d.secoc.map fun s => { payloadLength := s.payloadLength, freshnessTx := s.freshnessTxBits, authTx := s.authTxBits }

/-- The trailer of a secured message in a container. -/
def PartContent.trailer (d : PartContent) : Option Arxml.Trailer :=
  d.secoc.map fun s => { payloadLength := s.payloadLength, freshnessTx := s.freshnessTxBits, authTx := s.authTxBits }

/-- What is known about a message in a container. -/
structure PartIs (frame : String) (d : PartContent) (l : ArxmlFile.Loader.Part) : Prop where
  headerId : l.headerId = d.headerId
  name : l.message.name = d.name
  length : l.message.length = d.length
  pattern : (l.message.unusedBitPattern.toNat : Int) = d.pattern
  signals : d.pdu.Tidy → ∃ pdu, PduIs d.pdu pdu ∧
    (l.message.signals.map fun s => { s with multiplexerSignal := none, multiplexerIds := none }).Perm
      (frameSignalsIn frame d.name (fun _ _ => true) pdu d.trailer)
  secoc : l.secoc = d.secoc
  e2e : l.e2e = d.e2e

/-- What is known about a message: see `PduIs` for its signals, which are not in order and know their
selectors. -/
structure MessageIs (d : FrameContent) (l : ArxmlFile.Loader.Loaded) : Prop where
  bus : l.bus = d.bus
  isFd : l.isFd = d.isFd
  frameId : l.message.frameId = d.frameId
  isExtended : l.message.isExtendedFrame = d.isExtended
  name : l.message.name = d.name
  length : l.message.length = d.length
  pattern : (l.message.unusedBitPattern.toNat : Int) = d.patternNumber
  empty : d.pdu = none → l.message.signals = []
  signals : ∀ c n, d.pdu = some (c, n) → c.Tidy → ∃ pdu, PduIs c pdu ∧
    (l.message.signals.map fun s => { s with multiplexerSignal := none, multiplexerIds := none }).Perm
      (frameSignalsIn d.name d.name (fun _ _ => true) pdu d.trailer)
  secoc : l.secoc = d.secoc
  e2e : l.e2e = d.e2e
  contained : List.Forall₂ (PartIs d.name) d.contained l.contained

/-- Why a message in a container cannot be made. -/
def PartFails (frame : String) (d : PartContent) (e : Err) : Prop :=
  (∃ pdu, PduIs d.pdu pdu ∧ Arxml.loadFrameSignals frame d.name pdu d.trailer = .error e) ∨
    (e = .valueError ∧ ¬ (0 ≤ d.pattern ∧ d.pattern < 256)) ∨
    ∃ pdu sigs, PduIs d.pdu pdu ∧ Arxml.loadFrameSignals frame d.name pdu d.trailer = .ok sigs ∧
      Message.create 1 d.name d.length sigs (UInt8.ofNat d.pattern.toNat) false true .default = .error e

/-- How many PDUs are inside each other in a frame. -/
def FrameContent.depth (d : FrameContent) : Nat :=
  max ((d.pdu.map fun c => c.1.depth).getD 0) ((d.contained.map fun c => c.pdu.depth + 1).foldr max 0)

/-- The document at `root` has these frame triggerings, which describe these frames. -/
structure Describes (F : FloatRead) (root : Xml) (trigs : List (String × Pos)) (ds : List FrameContent) : Prop where
  regular : Regular root
  accepted : RefsAccepted root
  plain : NoStray root
  packages : ∃ x ∈ root.children, x.tag = "AR-PACKAGES"
  triggerings : Triggerings root trigs
  frames : List.Forall₂ (FrameSays F root) trigs ds

end Cantools.Spec.SystemFile
