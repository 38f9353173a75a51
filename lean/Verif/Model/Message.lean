import Verif.Model.Codec

/-
database/can/message.py: ordinary (non-container) messages.
-/

namespace Cantools

/-
database/can/message.py:145-204: a codec is a node of the multiplexing tree: the signals present at
this node, and for every selector signal a dictionary from multiplexer ids to codecs.  (The formats
of a node are a function of its signals and the message length and are recomputed where needed.)
-/
mutual
inductive Codec where
  | mk (signals : List Signal) (muxes : Muxes)
inductive Muxes where
  | nil
  | cons (name : String) (branches : Branches) (rest : Muxes)
inductive Branches where
  | nil
  | cons (id : Int) (codec : Codec) (rest : Branches)
end

def Codec.signals : Codec → List Signal
  | .mk s _ => s

def Codec.muxes : Codec → Muxes
  | .mk _ m => m

/-- Append a selector to the multiplexer dictionary (insertion order). -/
def Muxes.ofList : List (String × Branches) → Muxes
  | [] => .nil
  | (n, b) :: r => .cons n b (Muxes.ofList r)

def Branches.ofList : List (Int × Codec) → Branches
  | [] => .nil
  | (i, c) :: r => .cons i c (Branches.ofList r)

def Branches.ids : Branches → List Int
  | .nil => []
  | .cons i _ r => i :: r.ids

def Muxes.names : Muxes → List String
  | .nil => []
  | .cons n _ r => n :: r.names

/-- python set built from a list (order is immaterial to the code, first occurrences are kept). -/
def dedupInt : List Int → List Int
  | [] => []
  | x :: r => x :: (dedupInt r).filter (· ≠ x)

/-- message.py:164-185: the ids for which a selector signal gets a child codec. -/
def childrenIds (signals : List Signal) (sel : Signal) : List Int :=
  dedupInt <|
    (signals.filter fun s => s.multiplexerSignal == some sel.name).flatMap
        (fun s => s.multiplexerIds.getD []) ++
      (sel.conversion.choices.getD []).map (·.1)

/-- message.py:157-165: does a signal belong to the node `(parent, id)`? -/
def atNode (parent : Option String) (id : Option Int) (s : Signal) : Bool :=
  s.multiplexerSignal == parent &&
    (match id with
     | none => true
     | some i => (s.multiplexerIds.getD []).contains i)

/-- message.py:145-204 `_create_codec`.  The recursion depth of the python code is bounded only by
the interpreter; here it is bounded by `fuel` and `none` means the bound was hit
(`createCodec_terminates` shows when it is not).  Selector signals at one level are assumed to have
distinct names (two of the same name would share one dictionary entry in python). -/
def createCodec (signals : List Signal) : Nat → Option String → Option Int → Option Codec
  | 0, _, _ => none
  | fuel + 1, parent, id =>
    let here := signals.filter (atNode parent id)
    let selectors := here.filter fun s => s.isMultiplexer && !(childrenIds signals s).isEmpty
    let muxes := selectors.mapM fun s => do
      let branches ← (childrenIds signals s).mapM fun i => do
        let c ← createCodec signals fuel (some s.name) (some i)
        return (i, c)
      return (s.name, Branches.ofList branches)
    muxes.map fun ms => .mk here (Muxes.ofList ms)

/-- database/can/message.py:64-143 `Message`: the attributes modelled here. -/
structure Message where
  frameId : Int := 0
  name : String := ""
  length : Nat
  signals : List Signal
  unusedBitPattern : UInt8 := 0
  isExtendedFrame : Bool := false
  codec : Codec

/-- message.py:1204-1205 and 1301: the dictionary `_signal_dict` (a later signal of the same name
wins), `KeyError` for unknown names. -/
def signalByName (signals : List Signal) (name : String) : Except Err Signal :=
  match signals.reverse.find? fun s => s.name == name with
  | some s => .ok s
  | none => .error .keyError

/-- message.py:725-734 `_get_mux_number`. -/
def getMuxNumber (signals : List Signal) (data : List (String × Value)) (name : String) :
    Except Err Int :=
  match dictGet? data name with
  | none => .error .keyError
  | some (.num q) => .ok (pyInt q)
  | some (.str s) => do
    let sig ← signalByName signals name
    (sig.conversion.choiceToNumber s).mapError fun _ => Err.encodeError
  | some (.named nv) => do
    let sig ← signalByName signals name
    (sig.conversion.choiceToNumber nv.name).mapError fun _ => Err.encodeError

/-
message.py:780-807 `_encode`: returns the encoded integer, the padding mask and the list of encoded
signals.  `encodeMuxes` is the loop over the selectors, `encodeBranch` the dictionary access
`multiplexers[signal][mux]` followed by the recursive call.
-/
mutual
def encodeNode (fo : FloatOps) (sigs : List Signal) (len : Nat) (data : List (String × Value))
    (scaling : Bool) : Codec → Except Err (Nat × Nat × List Signal)
  | .mk signals muxes => do
    let formats := createFormats signals len
    let encoded ← encodeData fo data signals formats scaling
    encodeMuxes fo sigs len data scaling muxes (encoded, formats.paddingMask, signals)

def encodeMuxes (fo : FloatOps) (sigs : List Signal) (len : Nat) (data : List (String × Value))
    (scaling : Bool) : Muxes → Nat × Nat × List Signal → Except Err (Nat × Nat × List Signal)
  | .nil, acc => .ok acc
  | .cons name branches rest, (encoded, mask, all) => do
    let mux ← getMuxNumber sigs data name
    let (e, m, s) ← encodeBranch fo sigs len data scaling mux branches
    encodeMuxes fo sigs len data scaling rest (encoded ||| e, mask &&& m, all ++ s)

def encodeBranch (fo : FloatOps) (sigs : List Signal) (len : Nat) (data : List (String × Value))
    (scaling : Bool) (mux : Int) : Branches → Except Err (Nat × Nat × List Signal)
  | .nil => .error .encodeError
  | .cons id c rest =>
    if id = mux then encodeNode fo sigs len data scaling c
    else encodeBranch fo sigs len data scaling mux rest
end

/-- message.py:942-953: the part of `encode` after the strictness checks (`strict=False`).
`int.from_bytes([pattern] * length, "big")` is the padding pattern. -/
def encodeRaw (fo : FloatOps) (m : Message) (data : List (String × Value))
    (scaling padding : Bool) : Except Err Bytes := do
  let (encoded, mask, _) ← encodeNode fo m.signals m.length data scaling m.codec
  let pattern := fromBytesBig (List.replicate m.length m.unusedBitPattern)
  let encoded := if padding then encoded ||| (mask &&& pattern) else encoded
  toBytesBig encoded m.length

/-
message.py:524-569 `gather_signals`.
-/
mutual
def gatherNode (sigs : List Signal) (data : List (String × Value)) :
    Codec → Except Err (List (String × Value))
  | .mk signals muxes => do
    let result ← signals.foldlM (fun acc s =>
      match dictGet? data s.name with
      | none => Except.error Err.encodeError
      | some v => .ok (dictSet acc s.name v)) []
    gatherMuxes sigs data muxes result

def gatherMuxes (sigs : List Signal) (data : List (String × Value)) :
    Muxes → List (String × Value) → Except Err (List (String × Value))
  | .nil, acc => .ok acc
  | .cons name branches rest, acc => do
    let mux ← getMuxNumber sigs data name
    let sub ← gatherBranch sigs data mux branches
    gatherMuxes sigs data rest (dictUpdate acc sub)

def gatherBranch (sigs : List Signal) (data : List (String × Value)) (mux : Int) :
    Branches → Except Err (List (String × Value))
  | .nil => .error .encodeError
  | .cons id c rest => if id = mux then gatherNode sigs data c else gatherBranch sigs data mux rest
end

/-- message.py:524-569 `gather_signals` called from outside. -/
def gatherSignals (m : Message) (data : List (String × Value)) :
    Except Err (List (String × Value)) :=
  gatherNode m.signals data m.codec

/-- message.py:764: the number has an entry in the value table. -/
def inTable (s : Signal) (raw : Rat) : Bool :=
  (s.conversion.choices.getD []).any fun c => decide ((c.1 : Rat) = raw)

/-- message.py:768, 774: the tolerance; `1e-6` is idealised as the exact rational 10^-6. -/
def tolerance (s : Signal) : Rat := pyAbs s.conversion.scale * (1 / 1000000)

/-- message.py:768. -/
def belowMinimum (s : Signal) (scaled : Rat) : Bool :=
  s.minimum.any fun mn => decide (scaled < mn - tolerance s)

/-- message.py:774. -/
def aboveMaximum (s : Signal) (scaled : Rat) : Bool :=
  s.maximum.any fun mx => decide (scaled > mx + tolerance s)

/-- message.py:764-778: a number is checked, given as raw and as scaled value. -/
def checkNumber (s : Signal) (raw scaled : Rat) : Except Err Unit :=
  if inTable s raw = true then .ok ()
  else if belowMinimum s scaled = true then .error .encodeError
  else if aboveMaximum s scaled = true then .error .encodeError
  else .ok ()

/-- message.py:740-778, the body of the loop of `_assert_signal_values_valid`. -/
def assertValueValid (s : Signal) (v : Value) (scaling : Bool) : Except Err Unit :=
  match v with
  | .str c => (s.conversion.choiceToNumber c).map fun _ => ()
  | .named nv => (s.conversion.choiceToNumber nv.name).map fun _ => ()
  | .num q =>
    if scaling then
      match s.conversion.numericScaledToRaw q with
      | .error e => .error e
      | .ok raw => checkNumber s raw q
    else checkNumber s q (s.conversion.inner.rawToScaled q)

/-- message.py:736-778 `_assert_signal_values_valid`. -/
def assertSignalValuesValid (m : Message) (data : List (String × Value)) (scaling : Bool) :
    Except Err Unit :=
  data.forM fun nv => do
    let s ← signalByName m.signals nv.1
    assertValueValid s nv.2 scaling

/-- message.py:615-663 `assert_signals_encodable` for ordinary messages and dictionary input;
`set(used_signals) != set(input_data)` compares key sets. -/
def assertSignalsEncodable (m : Message) (data : List (String × Value))
    (scaling assertValuesValid assertAllKnown : Bool) : Except Err Unit := do
  let used ← gatherSignals m data
  if assertAllKnown &&
      !(used.all (fun nv => data.any (fun d => d.1 == nv.1)) &&
        data.all (fun d => used.any (fun nv => d.1 == nv.1))) then
    .error .encodeError
  else if assertValuesValid then assertSignalValuesValid m used scaling
  else .ok ()

/-- message.py:885-953 `encode` for ordinary messages. -/
def encode (fo : FloatOps) (m : Message) (data : List (String × Value))
    (scaling padding strict : Bool) : Except Err Bytes := do
  if strict then assertSignalsEncodable m data scaling true true
  encodeRaw fo m data scaling padding

/-
message.py:955-991 `_decode`.
-/
mutual
def decodeNode (fo : FloatOps) (sigs : List Signal) (len : Nat) (data : Bytes)
    (decodeChoices scaling allowTruncated allowExcess : Bool) :
    Codec → Except Err (List (String × Value))
  | .mk signals muxes => do
    let decoded ← decodeData fo data len signals (createFormats signals len)
      decodeChoices scaling allowTruncated allowExcess
    decodeMuxes fo sigs len data decodeChoices scaling allowTruncated allowExcess muxes decoded

def decodeMuxes (fo : FloatOps) (sigs : List Signal) (len : Nat) (data : Bytes)
    (decodeChoices scaling allowTruncated allowExcess : Bool) :
    Muxes → List (String × Value) → Except Err (List (String × Value))
  | .nil, acc => .ok acc
  | .cons name branches rest, acc =>
    if allowTruncated && (dictGet? acc name).isNone then
      decodeMuxes fo sigs len data decodeChoices scaling allowTruncated allowExcess rest acc
    else do
      let mux ← getMuxNumber sigs acc name
      let sub ← decodeBranch fo sigs len data decodeChoices scaling allowTruncated allowExcess mux
        branches
      decodeMuxes fo sigs len data decodeChoices scaling allowTruncated allowExcess rest
        (dictUpdate acc sub)

def decodeBranch (fo : FloatOps) (sigs : List Signal) (len : Nat) (data : Bytes)
    (decodeChoices scaling allowTruncated allowExcess : Bool) (mux : Int) :
    Branches → Except Err (List (String × Value))
  | .nil => .error .decodeError
  | .cons id c rest =>
    if id = mux then
      decodeNode fo sigs len data decodeChoices scaling allowTruncated allowExcess c
    else decodeBranch fo sigs len data decodeChoices scaling allowTruncated allowExcess mux rest
end

/-- message.py:1111-1135 `decode_simple` (what `decode` does for ordinary messages). -/
def decode (fo : FloatOps) (m : Message) (data : Bytes)
    (decodeChoices scaling allowTruncated allowExcess : Bool) :
    Except Err (List (String × Value)) :=
  decodeNode fo m.signals m.length data decodeChoices scaling allowTruncated allowExcess m.codec

/-
message.py:206-230: the signal tree, a list of names and `{name: {id: subtree}}` dictionaries.
-/
mutual
inductive SigTree where
  | nil
  | leaf (name : String) (rest : SigTree)
  | mux (name : String) (branches : TreeBranches) (rest : SigTree)
inductive TreeBranches where
  | nil
  | cons (id : Int) (tree : SigTree) (rest : TreeBranches)
end

/-- message.py:216-228: the loop of `_create_signal_tree` over the signals of a node, given the
already converted multiplexers. -/
def treeOfSignals (ms : List (String × TreeBranches)) : List Signal → SigTree
  | [] => .nil
  | s :: r =>
    match dictGet? ms s.name with
    | some b => .mux s.name b (treeOfSignals ms r)
    | none => .leaf s.name (treeOfSignals ms r)

/-
message.py:206-230 `_create_signal_tree`.
-/
mutual
def treeOfCodec : Codec → SigTree
  | .mk signals muxes => treeOfSignals (treeOfMuxes muxes) signals
def treeOfMuxes : Muxes → List (String × TreeBranches)
  | .nil => []
  | .cons n b r => (n, treeOfBranches b) :: treeOfMuxes r
def treeOfBranches : Branches → TreeBranches
  | .nil => .nil
  | .cons i c r => .cons i (treeOfCodec c) (treeOfBranches r)
end

/-- message.py:1241-1242: concatenate the 8-element chunks of a list in reverse order.  (All lists
this is applied to by a fitting signal have a length divisible by 8; a shorter last chunk moves to
the front as in python.) -/
def reverseChunks (l : List (Option String)) : Nat → List (Option String)
  | 0 => []
  | n + 1 => reverseChunks (l.drop 8) n ++ l.take 8

/-- message.py:1225-1242: the bits of a signal in network order. -/
def signalBits (messageLen : Nat) (s : Signal) : List (Option String) :=
  match s.byteOrder with
  | .big => List.replicate (startBit s) none ++ List.replicate s.length (some s.name)
  | .little =>
    let bits := List.replicate s.length (some s.name) ++ List.replicate s.start none
    let reversed :=
      if bits.length < messageLen then List.replicate (messageLen - bits.length) none ++ bits
      else bits
    reverseChunks reversed ((reversed.length + 7) / 8)

/-- message.py:1250-1256: mark the bits of a signal, reject an overlap. -/
def markBits : List (Option String) → List (Option String) → Except Err (List (Option String))
  | mbs, [] => .ok mbs
  | [], _ :: _ => .error .indexError
  | mb :: mbs, sb :: sbs =>
    match sb with
    | none => (markBits mbs sbs).map (mb :: ·)
    | some n =>
      match mb with
      | some _ => .error .error
      | none => (markBits mbs sbs).map (some n :: ·)

/-- message.py:1224-1256 `_check_signal`. -/
def checkSignal (messageBits : List (Option String)) (s : Signal) :
    Except Err (List (Option String)) :=
  let bits := signalBits messageBits.length s
  if bits.length > messageBits.length then .error .error
  else markBits messageBits bits

/-- message.py:1269-1271: merge the marks of a branch. -/
def mergeBits (a b : List (Option String)) : List (Option String) :=
  List.zipWith (fun x y => if y.isSome then y else x) a b

/-
message.py:1258-1279 `_check_mux` and `_check_signal_tree`.  (Branches are visited in dictionary
order instead of sorted by id; every branch starts from the same marks.)
-/
mutual
def checkTree (sigs : List Signal) : List (Option String) → SigTree →
    Except Err (List (Option String))
  | bits, .nil => .ok bits
  | bits, .leaf name rest => do
    let s ← signalByName sigs name
    let bits ← checkSignal bits s
    checkTree sigs bits rest
  | bits, .mux name branches rest => do
    let s ← signalByName sigs name
    let bits ← checkSignal bits s
    let bits ← checkBranches sigs bits bits branches
    checkTree sigs bits rest
def checkBranches (sigs : List Signal) (children : List (Option String)) :
    List (Option String) → TreeBranches → Except Err (List (Option String))
  | bits, .nil => .ok bits
  | bits, .cons _ tree rest => do
    let child ← checkTree sigs children tree
    checkBranches sigs children (mergeBits bits child) rest
end

/-- database/utils.py:442-443 `sort_signals_by_start_bit`. -/
def sortSignalsByStartBit (signals : List Signal) : List Signal := sortedBy startBit signals

/-- The `sort_signals` argument of `Message.__init__` (message.py:113-118): the default order, a
user supplied function, or `None`. -/
inductive SortSignals where
  | default
  | custom (f : List Signal → List Signal)
  | none

def SortSignals.apply : SortSignals → List Signal → List Signal
  | .default, l => sortSignalsByStartBit l
  | .custom f, l => f l
  | .none, l => l

/-- python `int.bit_length`. -/
def bitLength (i : Int) : Nat := if i = 0 then 0 else i.natAbs.log2 + 1

/-- message.py:99-110: the check of the frame id (negative ids have the `bit_length` of their
absolute value). -/
def frameIdOk (frameId : Int) (isExtendedFrame : Bool) : Bool :=
  decide (bitLength frameId ≤ if isExtendedFrame then 29 else 11)

/-- message.py:64-143 `Message.__init__` and 1281-1311 `refresh`, for ordinary messages. -/
def Message.create (frameId : Int) (name : String) (length : Nat) (signals : List Signal)
    (unusedBitPattern : UInt8 := 0) (isExtendedFrame : Bool := false) (strict : Bool := true)
    (sort : SortSignals := .default) : Except Err Message :=
  if frameIdOk frameId isExtendedFrame = false then .error .error
  else
    let signals := sort.apply signals
    if signals.any (fun s => s.length == 0) then .error .error
    else
      match createCodec signals (signals.length + 1) none none with
      | none => .error .recursionError
      | some codec =>
        let m := { frameId, name, length, signals, unusedBitPattern, isExtendedFrame, codec }
        if strict then
          (checkTree signals (List.replicate (8 * length) none) (treeOfCodec codec)).map fun _ => m
        else .ok m

end Cantools
