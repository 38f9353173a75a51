import Verif.Model.ArxmlRef
import Verif.Model.ArxmlScale
import Verif.Model.Arxml
import Verif.Model.Container

/-!
The frames of an AUTOSAR 4 system description: arxml/system_loader.py:138-172, 470-517, 638-1363,
1384-1587 and 1710-2003, for `autosar_version_newer(4)`.

Left out: containers as payload of secured PDUs, cycle times, comments and sets of end-to-end protections.  Nodes are in `ArxmlNodes`.  An element without text where one is needed is an error here, and so
is a negative place, length or header id.
-/

namespace Cantools.ArxmlFile

open Kcd (Xml)
open Regex (Chars)
open ArxmlRef (Pos at? Refs getUnique getChildren absolutePath follow createDicts)
open ArxmlScale (FloatRead parseNumber CompuScale CompuMethod Coeffs)

/-- system_loader.py:27-98: the loader, with its element tree, the dictionaries for references and
`float`. -/
structure Loader where
  root : Xml
  refs : Refs
  F : FloatRead

namespace Loader

variable (L : Loader)

/-- `self._get_unique_arxml_child(elem, location)`. -/
def unique (b : Pos) (loc : List String) : Except Err (Option Pos) := getUnique L.root L.refs b loc

/-- `self._get_arxml_children(elem, location)`. -/
def children (b : Pos) (loc : List String) : Except Err (List Pos) := getChildren L.root L.refs [b] loc

/-- `elem.text`. -/
def text? (p : Pos) : Option String := (at? L.root p).bind Xml.text

/-- `elem.text`, where it is used as a text. -/
def text (p : Pos) : Except Err String :=
  match L.text? p with
  | some t => .ok t
  | none => .error .attributeError

/-- The text of a unique child that has to be there. -/
def childText (b : Pos) (loc : List String) : Except Err String := do
  match ← L.unique b loc with
  | some p => L.text p
  | none => .error .attributeError

/-- The text of a unique child that may be missing. -/
def optText (b : Pos) (loc : List String) : Except Err (Option String) := do
  match ← L.unique b loc with
  | some p => pure (some (← L.text p))
  | none => pure none

/-- The text of a unique child that is compared with constants. -/
def compareText (b : Pos) (loc : List String) : Except Err (Option String) := do
  pure ((← L.unique b loc).bind L.text?)

/-- `parse_number_string` of the text of a child. -/
def number (b : Pos) (loc : List String) : Except Err Rat := do
  parseNumber L.F (← L.childText b loc).toList false

/-- A place or a length. -/
def nat (b : Pos) (loc : List String) : Except Err Nat := do
  let q ← L.number b loc
  if q.den = 1 ∧ 0 ≤ q.num then .ok q.num.toNat else .error .valueError

/-- A length that may be missing. -/
def optNat (b : Pos) (loc : List String) : Except Err (Option Nat) := do
  match ← L.optText b loc with
  | none => pure none
  | some t => do
    let q ← parseNumber L.F t.toList false
    if q.den = 1 ∧ 0 ≤ q.num then .ok (some q.num.toNat) else .error .valueError

/-- A number that may be missing. -/
def optInt (b : Pos) (loc : List String) : Except Err (Option Int) := do
  match ← L.optText b loc with
  | none => pure none
  | some t => do pure (some (← parseNumber L.F t.toList false).num)

/-! ### Signals -/

/-- system_loader.py:1845-1857 `_load_scale_limits`: one limit. -/
def readLimit (p : Pos) (tag : String) : Except Err (Option Chars) := do
  pure ((← L.optText p [tag]).map String.toList)

/-- system_loader.py:1772-1797: the texts of the coefficients. -/
def readCoeffs (p : Pos) : Except Err (Option Coeffs) := do
  match ← L.unique p ["&COMPU-RATIONAL-COEFFS"] with
  | none => pure none
  | some c =>
    let numerators ← (← L.children c ["&COMPU-NUMERATOR", "*&V"]).mapM L.text
    let denominators ← (← L.children c ["&COMPU-DENOMINATOR", "*&V"]).mapM L.text
    pure (some { numerators := numerators.map String.toList, denominators := denominators.map String.toList })

/-- system_loader.py:1755-1758, 1875-1880: the texts of a scale that gives a name. -/
def readNamed (p : Pos) (vt : Option String) : Except Err CompuScale := do
  pure { lower := ← L.readLimit p "LOWER-LIMIT", upper := ← L.readLimit p "UPPER-LIMIT", vt := vt }

/-- system_loader.py:1770-1800: the texts of a linear scale. -/
def readLinear (p : Pos) : Except Err CompuScale := do
  let coeffs ← L.readCoeffs p
  pure { lower := ← L.readLimit p "LOWER-LIMIT", upper := ← L.readLimit p "UPPER-LIMIT", coeffs := coeffs }

/-- The text `VT` of a scale. -/
def readName (p : Pos) : Except Err (Option String) := L.optText p ["&COMPU-CONST", "VT"]

/-- The texts of a compu method: what 1745-1915 read from its elements; the evaluation is
`ArxmlScale.loadSystemSignal`.  (Reading and evaluation alternate in python.) -/
def readCompuMethod (p : Pos) : Except Err CompuMethod := do
  match ← L.unique p ["CATEGORY"] with
  | none => pure { category := none, scales := [] }
  | some c =>
    let t := L.text? c
    if t = some "TEXTTABLE" then
      let scales ← L.children p ["&COMPU-INTERNAL-TO-PHYS", "COMPU-SCALES", "*&COMPU-SCALE"]
      pure { category := some .texttable, scales := ← scales.mapM fun s => do L.readNamed s (← L.readName s) }
    else if t = some "LINEAR" then
      let scales ← L.children p ["COMPU-INTERNAL-TO-PHYS", "COMPU-SCALES", "&COMPU-SCALE"]
      pure { category := some .linear, scales := ← scales.mapM L.readLinear }
    else if t = some "SCALE_LINEAR_AND_TEXTTABLE" then
      let scales ← L.children p ["&COMPU-INTERNAL-TO-PHYS", "COMPU-SCALES", "*&COMPU-SCALE"]
      pure { category := some .linearAndTexttable
             scales := ← scales.mapM fun s => do
              match ← L.readName s with
              | some n => L.readNamed s (some n)
              | none => L.readLinear s }
    else pure { category := some .other, scales := [] }

/-- system_loader.py:2339-2347 `_get_compu_method`. -/
def compuMethod (sys : Pos) : Except Err (Option Pos) :=
  L.unique sys ["&PHYSICAL-PROPS", "SW-DATA-DEF-PROPS-VARIANTS", "&SW-DATA-DEF-PROPS-CONDITIONAL", "&COMPU-METHOD"]

/-- system_loader.py:1721-1743 `_load_system_signal_unit`. -/
def loadUnit (sys : Pos) (compu : Option Pos) : Except Err (Option String) := do
  let res ← L.unique sys ["PHYSICAL-PROPS", "SW-DATA-DEF-PROPS-VARIANTS", "&SW-DATA-DEF-PROPS-CONDITIONAL", "&UNIT",
    "DISPLAY-NAME"]
  let res ←
    match res, compu with
    | none, some c => L.unique c ["&UNIT", "DISPLAY-NAME"]
    | res, _ => pure res
  pure ((res.bind L.text?).filter fun t => t ≠ "NoUnit")

/-- system_loader.py:1972-2003 `_load_signal_type`, 2356-2363 `_get_sw_base_type`: signedness and
whether it is a floating point number. -/
def loadSignalType (iSignal : Pos) : Except Err (Bool × Bool) := do
  match ← L.unique iSignal ["&NETWORK-REPRESENTATION-PROPS", "SW-DATA-DEF-PROPS-VARIANTS",
    "&SW-DATA-DEF-PROPS-CONDITIONAL", "&BASE-TYPE"] with
  | none => pure (false, false)
  | some b =>
    match ← L.unique b ["&BASE-TYPE-ENCODING"] with
    | none => .error .valueError
    | some e =>
      match L.text? e with
      | some "2C" | some "1C" | some "SM" => pure (true, false)
      | some "IEEE754" => pure (false, true)
      | _ => pure (false, false)

/-- system_loader.py:1532-1542 `_load_signal_name`: `len(elem)` is the number of children. -/
def loadSignalName (iSignal : Pos) : Except Err String := do
  match ← L.unique iSignal ["&SYSTEM-SIGNAL", "SHORT-NAME"] with
  | some p =>
    if (((at? L.root p).map Xml.children).getD []).isEmpty then L.childText iSignal ["SHORT-NAME"] else L.text p
  | none => L.childText iSignal ["SHORT-NAME"]

/-- system_loader.py:1710-1719 `_load_signal_byte_order`. -/
def loadByteOrder (mapping : Pos) : Except Err ByteOrder := do
  if (← L.compareText mapping ["PACKING-BYTE-ORDER"]) = some "MOST-SIGNIFICANT-BYTE-FIRST" then pure .big
  else pure .little

/-- system_loader.py:1567-1587, 1645-1683: the text of the initial value. -/
def initText (iSignal : Pos) : Except Err (Option String) := do
  match ← L.unique iSignal ["INIT-VALUE", "NUMERICAL-VALUE-SPECIFICATION", "VALUE"] with
  | some p => pure (L.text? p)
  | none =>
    L.compareText iSignal ["INIT-VALUE", "CONSTANT-REFERENCE", "&CONSTANT", "VALUE-SPEC",
      "NUMERICAL-VALUE-SPECIFICATION", "VALUE"]

/-- system_loader.py:1491-1498: a text that is not a number is ignored. -/
def loadInitial (iSignal : Pos) : Except Err (Option Rat) := do
  match ← L.initText iSignal with
  | none => pure none
  | some t =>
    match parseNumber L.F t.toList false with
    | .ok v => pure (some v)
    | .error .valueError => pure none
    | .error e => .error e

/-- system_loader.py:1589-1613: the value for "not valid". -/
def loadInvalid (iSignal : Pos) : Except Err (Option Rat) := do
  match ← L.optText iSignal ["NETWORK-REPRESENTATION-PROPS", "SW-DATA-DEF-PROPS-VARIANTS",
    "SW-DATA-DEF-PROPS-CONDITIONAL", "INVALID-VALUE", "NUMERICAL-VALUE-SPECIFICATION", "VALUE"] with
  | none => pure none
  | some t => pure (some (← parseNumber L.F t.toList false))

/-- A signal with the attributes that do not matter for its bits and its scaling. -/
structure SignalInfo where
  signal : Signal
  unit : Option String := none
  rawInitial : Option Rat := none
  rawInvalid : Option Rat := none
  deriving DecidableEq, Repr

/-- The texts of a compu method that may be missing. -/
def readMethod : Option Pos → Except Err (Option CompuMethod)
  | none => pure none
  | some c => do pure (some (← L.readCompuMethod c))

/-- system_loader.py:1917-1970 `_load_system_signal`: the texts of the compu method, and the unit. -/
def readSystemSignal : Option Pos → Except Err (Option CompuMethod × Option String)
  | none => pure (none, none)
  | some s => do
    let compu ← L.compuMethod s
    let unit ← L.loadUnit s compu
    let method ← L.readMethod compu
    pure (method, unit)

/-- Signal groups are not system signals: system_loader.py:1451-1458. -/
def isGroup (sys : Option Pos) : Bool := (sys.bind fun s => (at? L.root s).map Xml.tag).any (· ≠ "SYSTEM-SIGNAL")

/-- system_loader.py:1441-1530 `_load_signal`, 1544-1565; `none` for signal groups. -/
def loadSignal (mapping : Pos) : Except Err (Option SignalInfo) := do
  match ← L.unique mapping ["&I-SIGNAL"] with
  | none => pure none
  | some i =>
    let sys ← L.unique i ["&SYSTEM-SIGNAL"]
    if L.isGroup sys then pure none
    else do
      let name ← L.loadSignalName i
      let start ← L.nat mapping ["START-POSITION"]
      let length ← L.nat i ["LENGTH"]
      let order ← L.loadByteOrder mapping
      let (isSigned, isFloat) ← L.loadSignalType i
      let (method, unit) ← L.readSystemSignal sys
      let scaling ← ArxmlScale.loadSignal L.F method isFloat
      let initial ← L.loadInitial i
      let invalid ← L.loadInvalid i
      pure (some { signal := { name := name, start := start, length := length, byteOrder := order, isSigned := isSigned
                               conversion := scaling.conversion, minimum := scaling.minimum, maximum := scaling.maximum }
                   unit := unit, rawInitial := initial, rawInvalid := invalid })

/-! ### PDUs -/

/-- system_loader.py:1300-1341 `_load_pdu_signals`. -/
def loadPduSignals (pdu : Pos) : Except Err (List SignalInfo) := do
  let a ← L.children pdu ["I-SIGNAL-TO-PDU-MAPPINGS", "*&I-SIGNAL-TO-I-PDU-MAPPING"]
  let b ← L.children pdu ["I-SIGNAL-TO-I-PDU-MAPPINGS", "*&I-SIGNAL-TO-I-PDU-MAPPING"]
  let signals ← (a ++ b).mapM L.loadSignal
  pure (signals.filterMap id)

/-- system_loader.py:1128-1137: the byte order of the selector. -/
def selectorOrder (pdu : Pos) : Except Err ByteOrder := do
  match ← L.unique pdu ["SELECTOR-FIELD-BYTE-ORDER"] with
  | none => pure .little
  | some p =>
    if L.text? p = some "MOST-SIGNIFICANT-BYTE-FIRST" then pure .big
    else if L.text? p = some "MOST-SIGNIFICANT-BYTE-LAST" then pure .little
    else .error .assertionError

/-- `_get_absolute_arxml_path(base, ref.text, ref.attrib.get('BASE'))`. -/
def refPath (base ref : Pos) : Except Err Chars := do
  let t ← L.text ref
  absolutePath L.root L.refs base t.toList (((at? L.root ref).bind fun x => x.attr? "BASE").map String.toList)

/-- system_loader.py:1171-1182: code and PDU of an alternative. -/
def altPdu (alt : Pos) : Except Err (Int × Pos) := do
  let code ← L.number alt ["SELECTOR-FIELD-CODE"]
  let pdu ← L.unique alt ["&I-PDU"]
  match ← L.unique alt ["I-PDU-REF"], pdu with
  | some ref, some p => do
    let _ ← L.refPath alt ref
    pure (code.num, p)
  | _, _ => .error .attributeError

/-- system_loader.py:1203-1206: the initial alternative. -/
def altInitial (alt : Pos) : Except Err Bool := do
  pure ((← L.compareText alt ["INITIAL-DYNAMIC-PART"]) = some "true")

/-- system_loader.py:1274-1285: the PDU of a static part. -/
def staticPdu (pdu ref : Pos) : Except Err Pos := do
  let path ← L.refPath pdu ref
  match ← follow L.root L.refs pdu path ((at? L.root ref).bind fun x => x.attr? "DEST") none with
  | some p => pure p
  | none => .error .attributeError

/-- system_loader.py:1170-1245: the body of the loop over the alternatives; `load` is `_load_pdu`. -/
def altStep (load : Pos → Nat → Except Err (Nat × List Signal)) (name : String) (pos len : Nat) (st : Arxml.AltState)
    (alt : Pos) : Except Err Arxml.AltState := do
  let (code, p) ← L.altPdu alt
  let loaded ← load p st.idx
  let initial ← L.altInitial alt
  Arxml.addAlternative name pos len code initial st loaded

/-- system_loader.py:1274-1296: the body of the loop over the static parts. -/
def staticStep (load : Pos → Nat → Except Err (Nat × List Signal)) (pdu : Pos) (acc : Nat × List Signal) (ref : Pos) :
    Except Err (Nat × List Signal) := do
  let p ← L.staticPdu pdu ref
  let (i, sigs) ← load p acc.1
  pure (i, acc.2 ++ sigs)

/-- system_loader.py:921-1115 `_load_pdu`, 1117-1298 `_load_multiplexed_pdu`: the next index for
selectors and the signals.  `fuel` is the depth of recursion python allows. -/
def loadPdu (frame : String) : (fuel : Nat) → Pos → Nat → Except Err (Nat × List Signal)
  | 0, _, _ => .error .recursionError
  | fuel + 1, pdu, idx => do
    let tag := (at? L.root pdu).map Xml.tag
    if tag = some "CONTAINER-I-PDU" then .error .error
    else if tag = some "SECURED-I-PDU" then
      match ← L.unique pdu ["&PAYLOAD", "&I-PDU"] with
      | none => .error .assertionError
      | some p => loadPdu frame fuel p idx
    else
      let signals := (← L.loadPduSignals pdu).map SignalInfo.signal
      if tag = some "MULTIPLEXED-I-PDU" then
        let pos ← L.nat pdu ["SELECTOR-FIELD-START-POSITION"]
        let len ← L.nat pdu ["SELECTOR-FIELD-LENGTH"]
        let order ← L.selectorOrder pdu
        let name := (Arxml.selectorSignal frame idx pos len order []).name
        let alts ← L.children pdu ["DYNAMIC-PARTS", "*DYNAMIC-PART", "DYNAMIC-PART-ALTERNATIVES",
          "*DYNAMIC-PART-ALTERNATIVE"]
        let st ← alts.foldlM (L.altStep (fun p i => loadPdu frame fuel p i) name pos len)
          { idx := idx + 1, initial := none, choices := [], signals := [] }
        let statics ← L.children pdu ["STATIC-PARTS", "*STATIC-PART", "I-PDU-REF"]
        let (_, static) ← statics.foldlM (L.staticStep (fun p i => loadPdu frame fuel p i) pdu) (st.idx, [])
        pure (idx, signals ++ Arxml.selectorSignal frame idx pos len order st.choices :: (st.signals ++ static))
      else pure (idx, signals)

/-! ### Protection -/

/-- formats/arxml/end_to_end_properties.py:1-46: end-to-end protection. -/
structure EndToEnd where
  category : Option String
  dataIds : List Int
  payloadLength : Nat
  deriving DecidableEq, Repr

/-- A number in an element. -/
def numberIn (p : Pos) : Except Err Int := do
  pure (← parseNumber L.F (← L.text p).toList false).num

/-- system_loader.py:1384-1439 `_load_e2e_data_id_from_signal_group`: what it sets, if it sets anything. -/
def loadGroupE2e (pdu : Pos) : Except Err (Option EndToEnd) := do
  let length ← L.nat pdu ["LENGTH"]
  let groups ← L.children pdu ["I-SIGNAL-TO-PDU-MAPPINGS", "*I-SIGNAL-TO-I-PDU-MAPPING", "&I-SIGNAL-GROUP"]
  match groups.getLast? with
  | none => pure none
  | some g =>
    match ← L.unique g ["TRANSFORMATION-I-SIGNAL-PROPSS", "END-TO-END-TRANSFORMATION-I-SIGNAL-PROPS",
      "END-TO-END-TRANSFORMATION-I-SIGNAL-PROPS-VARIANTS", "END-TO-END-TRANSFORMATION-I-SIGNAL-PROPS-CONDITIONAL"] with
    | none => pure none
    | some props =>
      let category ← L.compareText props ["&TRANSFORMER", "TRANSFORMATION-DESCRIPTIONS",
        "END-TO-END-TRANSFORMATION-DESCRIPTION", "PROFILE-NAME"]
      let ids ← (← L.children props ["DATA-IDS", "*DATA-ID"]).mapM L.numberIn
      pure (some { category := category, dataIds := ids, payloadLength := length })

/-- formats/arxml/secoc_properties.py:3-29: the properties of a secured PDU. -/
structure SecOC where
  authAlgorithm : Option String
  freshnessAlgorithm : Option String
  payloadLength : Nat
  dataId : Option Int
  freshnessBits : Option Nat
  freshnessTxBits : Option Nat
  authTxBits : Option Nat
  deriving DecidableEq, Repr

/-- What decides about the signals of the trailer. -/
def SecOC.trailer (s : SecOC) : Arxml.Trailer :=
  { payloadLength := s.payloadLength, freshnessTx := s.freshnessTxBits, authTx := s.authTxBits }

/-- system_loader.py:837-842: the end-to-end protection of the payload, if that of the secured PDU is missing. -/
def payloadE2e (payload : Pos) : Option EndToEnd → Except Err (Option EndToEnd)
  | some e => pure (some e)
  | none => L.loadGroupE2e payload

/-- system_loader.py:826-869, 898-914 `_load_secured_properties`: the properties, and the end-to-end
protection, which is taken from the payload if the secured PDU has none.  The signals are
`Arxml.trailerSignals`. -/
def loadSecured (pdu : Pos) (e2e : Option EndToEnd) : Except Err (SecOC × Option EndToEnd) := do
  match ← L.unique pdu ["&PAYLOAD", "&I-PDU"] with
  | none => .error .attributeError
  | some payload =>
    let length ← L.nat payload ["LENGTH"]
    let e2e ← L.payloadE2e payload e2e
    let auth ← L.compareText pdu ["&AUTHENTICATION-PROPS", "SHORT-NAME"]
    let fresh ← L.compareText pdu ["&FRESHNESS-PROPS", "SHORT-NAME"]
    let dataId ← L.optInt pdu ["SECURE-COMMUNICATION-PROPS", "DATA-ID"]
    let authTx ← L.optNat pdu ["&AUTHENTICATION-PROPS", "AUTH-INFO-TX-LENGTH"]
    let freshLen ← L.optNat pdu ["&FRESHNESS-PROPS", "FRESHNESS-VALUE-LENGTH"]
    let freshTx ← L.optNat pdu ["&FRESHNESS-PROPS", "FRESHNESS-VALUE-TX-LENGTH"]
    pure ({ authAlgorithm := auth, freshnessAlgorithm := fresh, payloadLength := length, dataId := dataId
            freshnessBits := freshLen, freshnessTxBits := freshTx, authTxBits := authTx }, e2e)

/-- system_loader.py:792-800: the properties of a PDU, if it is a secured one, and its end-to-end protection. -/
def loadProtection (pdu : Pos) : Except Err (Option SecOC × Option EndToEnd) := do
  let e2e ← L.loadGroupE2e pdu
  if (at? L.root pdu).map Xml.tag = some "SECURED-I-PDU" then do
    let (s, e2e) ← L.loadSecured pdu e2e
    pure (some s, e2e)
  else pure (none, e2e)

/-! ### Containers -/

/-- system_loader.py:802-808, 972-979: the pattern of the unused bits. -/
def loadPattern (pdu : Pos) : Except Err Int := do
  match ← L.optText pdu ["UNUSED-BIT-PATTERN"] with
  | none => pure 0xff
  | some t => do pure (← parseNumber L.F t.toList false).num

/-- What is known about a message in a container. -/
structure PartInfo where
  headerId : Nat
  name : String
  length : Nat
  unusedBitPattern : Int
  signals : List Signal
  secoc : Option SecOC
  e2e : Option EndToEnd
  deriving DecidableEq, Repr

/-- system_loader.py:953-1014: one contained PDU, without the constructor of the message.  A container in a
container is an error here; python accepts it if its header is not a short one, as a message without
signals. -/
def partStep (frame : String) (fuel : Nat) (acc : Nat × List PartInfo) (pdu : Pos) :
    Except Err (Nat × List PartInfo) := do
  let name ← L.childText pdu ["SHORT-NAME"]
  let length ← L.nat pdu ["LENGTH"]
  let headerId ← L.nat pdu ["CONTAINED-I-PDU-PROPS", "HEADER-ID-SHORT-HEADER"]
  let pattern ← L.loadPattern pdu
  let (idx, signals) ← L.loadPdu frame fuel pdu acc.1
  let (secoc, e2e) ← L.loadProtection pdu
  let trailer ← Arxml.trailerSignals name (secoc.map SecOC.trailer)
  pure (idx, acc.2 ++ [{ headerId := headerId, name := name, length := length, unusedBitPattern := pattern
                         signals := signals ++ trailer, secoc := secoc, e2e := e2e }])

/-- system_loader.py:926-1038, the branch of `_load_pdu` for containers: the contained messages; none if
the header is not a short one. -/
def loadContained (frame : String) (fuel : Nat) (pdu : Pos) (idx : Nat) : Except Err (List PartInfo) := do
  let _ ← L.nat pdu ["LENGTH"]
  match ← L.unique pdu ["HEADER-TYPE"] with
  | none => .error .attributeError
  | some h =>
    if L.text? h ≠ some "SHORT-HEADER" then pure []
    else
      let pdus ← L.children pdu ["CONTAINED-PDU-TRIGGERING-REFS", "*&CONTAINED-PDU-TRIGGERING", "&I-PDU"]
      let (_, parts) ← pdus.foldlM (L.partStep frame fuel) (idx, [])
      pure parts

/-- system_loader.py:921-1115 `_load_pdu`, as `_load_message` calls it: the signals and the contained
messages. -/
def loadTop (frame : String) : (fuel : Nat) → Pos → Nat → Except Err (List Signal × List PartInfo)
  | 0, _, _ => .error .recursionError
  | fuel + 1, pdu, idx =>
    if (at? L.root pdu).map Xml.tag = some "CONTAINER-I-PDU" then do
      pure ([], ← L.loadContained frame fuel pdu idx)
    else do
      let (_, signals) ← L.loadPdu frame (fuel + 1) pdu idx
      pure (signals, [])

/-! ### Frames -/

/-- What is known about a frame. -/
structure FrameInfo where
  bus : String
  frameId : Int
  isExtended : Bool
  isFd : Bool
  name : String
  length : Nat
  unusedBitPattern : Int
  signals : List Signal
  secoc : Option SecOC
  e2e : Option EndToEnd
  contained : List PartInfo
  deriving DecidableEq, Repr

/-- system_loader.py:2317-2323 `_get_pdu`. -/
def framePdu (frame : Pos) : Except Err (Option Pos) :=
  L.unique frame ["PDU-TO-FRAME-MAPPINGS", "&PDU-TO-FRAME-MAPPING", "&PDU"]

/-- system_loader.py:2325-2337 `_get_pdu_path`: only its errors matter here. -/
def framePduPath (frame : Pos) : Except Err (Option Chars) := do
  match ← L.unique frame ["PDU-TO-FRAME-MAPPINGS", "&PDU-TO-FRAME-MAPPING", "PDU-REF"] with
  | none => pure none
  | some ref => do pure (some (← L.refPath ref ref))

/-- system_loader.py:718-824 `_load_message`, 1343-1363, without the constructor of the message. -/
def loadFrame (fuel : Nat) (bus : String) (trig : Pos) : Except Err FrameInfo := do
  match ← L.unique trig ["&FRAME"] with
  | none => .error .attributeError
  | some frame =>
    let name ← L.childText frame ["SHORT-NAME"]
    let frameId ← L.number trig ["IDENTIFIER"]
    let length ← L.nat frame ["FRAME-LENGTH"]
    let isExtended := (← L.compareText trig ["CAN-ADDRESSING-MODE"]) = some "EXTENDED"
    let rx ← L.compareText trig ["CAN-FRAME-RX-BEHAVIOR"]
    let tx ← L.compareText trig ["CAN-FRAME-TX-BEHAVIOR"]
    let isFd := rx = some "CAN-FD" ∨ tx = some "CAN-FD"
    match ← L.framePdu frame with
    | none =>
      pure { bus := bus, frameId := frameId.num, isExtended := isExtended, isFd := isFd, name := name, length := length
             unusedBitPattern := 0xff, signals := [], secoc := none, e2e := none, contained := [] }
    | some pdu =>
      let _ ← L.framePduPath frame
      let (signals, contained) ← L.loadTop name fuel pdu 1
      let (secoc, e2e) ← L.loadProtection pdu
      let trailer ← Arxml.trailerSignals name (secoc.map SecOC.trailer)
      let pattern ← L.loadPattern pdu
      pure { bus := bus, frameId := frameId.num, isExtended := isExtended, isFd := isFd, name := name, length := length
             unusedBitPattern := pattern, signals := signals ++ trailer, secoc := secoc, e2e := e2e
             contained := contained }

/-- system_loader.py:668-716 `_load_package_messages`. -/
def loadPackageFrames (fuel : Nat) (package : Pos) : Except Err (List FrameInfo) := do
  let clusters ← L.children package ["ELEMENTS", "*&CAN-CLUSTER"]
  let parts ← clusters.mapM fun c => do
    let bus ← L.childText c ["SHORT-NAME"]
    let trigs ← L.children c ["CAN-CLUSTER-VARIANTS", "*&CAN-CLUSTER-CONDITIONAL", "PHYSICAL-CHANNELS",
      "*&CAN-PHYSICAL-CHANNEL", "FRAME-TRIGGERINGS", "*&CAN-FRAME-TRIGGERING"]
    trigs.mapM (L.loadFrame fuel bus)
  pure parts.flatten

mutual
/-- system_loader.py:647-666: the packages of an `AR-PACKAGES` element and their sub-packages, in the
order in which `_load_messages` visits them. -/
def packagesOf (pos : Pos) : Xml → List Pos
  | .elem _ _ _ cs => packagesIn pos 0 cs
def packagesIn (pos : Pos) (i : Nat) : List Xml → List Pos
  | [] => []
  | c :: cs =>
    (if c.tag = "AR-PACKAGE" then (pos ++ [i]) :: subPackages (pos ++ [i]) c else []) ++ packagesIn pos (i + 1) cs
/-- `package.find('./ns:AR-PACKAGES')`, and the packages there. -/
def subPackages (pos : Pos) : Xml → List Pos
  | .elem _ _ _ cs => firstList pos 0 cs
def firstList (pos : Pos) (i : Nat) : List Xml → List Pos
  | [] => []
  | c :: cs => if c.tag = "AR-PACKAGES" then packagesOf (pos ++ [i]) c else firstList pos (i + 1) cs
end

/-- system_loader.py:638-666 `_load_messages`; without `AR-PACKAGES` python fails. -/
def loadFrames (fuel : Nat) : Except Err (List FrameInfo) :=
  if (L.root.find? "AR-PACKAGES").isNone then .error .attributeError
  else do
    let parts ← (subPackages [] L.root).mapM (L.loadPackageFrames fuel)
    pure parts.flatten

/-- A message in a container. -/
structure Part where
  headerId : Nat
  message : Message
  secoc : Option SecOC
  e2e : Option EndToEnd

/-- system_loader.py:1016-1029: the constructor of a message in a container.  The argument `strict` is not
passed on.  A pattern that is not a byte is an error here; python fails when the message is encoded. -/
def makePart (sort : SortSignals) (f : PartInfo) : Except Err Part := do
  if 0 ≤ f.unusedBitPattern ∧ f.unusedBitPattern < 256 then
    let m ← Message.create 1 f.name f.length f.signals (UInt8.ofNat f.unusedBitPattern.toNat) false true sort
    pure { headerId := f.headerId, message := m, secoc := f.secoc, e2e := f.e2e }
  else .error .valueError

/-- A message with its bus. -/
structure Loaded where
  bus : String
  isFd : Bool
  message : Message
  secoc : Option SecOC
  e2e : Option EndToEnd
  contained : List Part
  headerBig : Bool := true

/-- system_loader.py:810-824: the constructor of the message.  A pattern that is not a byte is an
error here; python fails when the message is encoded.  (Python makes the messages in a container before the
container.) -/
def makeMessage (strict : Bool) (sort : SortSignals) (f : FrameInfo) : Except Err Loaded := do
  let parts ← f.contained.mapM (makePart sort)
  if 0 ≤ f.unusedBitPattern ∧ f.unusedBitPattern < 256 then
    let m ← Message.create f.frameId f.name f.length f.signals (UInt8.ofNat f.unusedBitPattern.toNat) f.isExtended
      strict sort
    pure { bus := f.bus, isFd := f.isFd, message := m, secoc := f.secoc, e2e := f.e2e, contained := parts }
  else .error .valueError

/-- A container message, as its methods see it (can/message.py:64-143). -/
def Loaded.container (l : Loaded) : Container :=
  { name := l.message.name, length := l.message.length, headerBig := l.headerBig
    contained := l.contained.map fun p => { headerId := some p.headerId, msg := p.message } }

/-! ### Headers of containers -/

/-- system_loader.py:501-513: the byte order of headers that the system at a position specifies; `true` is
`'big_endian'`. -/
def systemOrder (system : Pos) : Except Err Bool := do
  match ← L.unique system ["CONTAINER-I-PDU-HEADER-BYTE-ORDER"] with
  | none => pure true
  | some p => pure (decide (L.text? p ≠ some "MOST-SIGNIFICANT-BYTE-LAST"))

mutual
/-- system_loader.py:470-517 `_load_system`: the byte order after the packages of an `AR-PACKAGES` element,
if it is `big` before. -/
def orderOf (pos : Pos) (big : Bool) : Xml → Except Err Bool
  | .elem _ _ _ cs => orderIn pos 0 big cs
def orderIn (pos : Pos) (i : Nat) (big : Bool) : List Xml → Except Err Bool
  | [] => pure big
  | c :: cs => do
    match ← L.unique (pos ++ [i]) ["ELEMENTS", "SYSTEM"] with
    | none => do
      let big ← orderSub (pos ++ [i]) big c
      orderIn pos (i + 1) big cs
    | some s => do
      let big ← L.systemOrder s
      orderIn pos (i + 1) big cs
/-- `package.find('./ns:AR-PACKAGES')`, and the packages there. -/
def orderSub (pos : Pos) (big : Bool) : Xml → Except Err Bool
  | .elem _ _ _ cs => orderFirst pos 0 big cs
def orderFirst (pos : Pos) (i : Nat) (big : Bool) : List Xml → Except Err Bool
  | [] => pure big
  | c :: cs => if c.tag = "AR-PACKAGES" then orderOf (pos ++ [i]) big c else orderFirst pos (i + 1) big cs
end

/-- system_loader.py:515-517: what `_load_system` does to a message. -/
def setOrder (big : Bool) (l : Loaded) : Loaded := if l.contained.isEmpty then l else { l with headerBig := big }

end Loader

/-- system_loader.py:27-98, 138-172: the messages of an element tree.  (Python makes each message
right after it has read its elements.) -/
def load (F : FloatRead) (root : Xml) (fuel : Nat) (strict : Bool) (sort : SortSignals) :
    Except Err (List Loader.Loaded) := do
  let refs ← createDicts root
  let frames ← ({ root := root, refs := refs, F := F } : Loader).loadFrames fuel
  frames.mapM (Loader.makeMessage strict sort)

/-- system_loader.py:138-172: the messages of an element tree, after `_load_system`. -/
def loadDatabase (F : FloatRead) (root : Xml) (fuel : Nat) (strict : Bool) (sort : SortSignals) :
    Except Err (List Loader.Loaded) := do
  let ms ← load F root fuel strict sort
  let refs ← createDicts root
  let big ← ({ root := root, refs := refs, F := F } : Loader).orderSub [] true root
  pure (ms.map (Loader.setOrder big))

end Cantools.ArxmlFile
