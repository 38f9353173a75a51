import Verif.Model.Bitstruct
import Verif.Model.Conversion

/-
database/can/signal.py (data only) and the codec of database/utils.py.
-/

namespace Cantools

inductive ByteOrder where
  | big | little
  deriving DecidableEq, Repr

/-- database/can/signal.py:46-154 `Signal`: the attributes the codec looks at.  `start` and `length`
are naturals (file formats have no negative ones; a zero length is rejected by
`Message._check_signal_lengths`). -/
structure Signal where
  name : String
  start : Nat
  length : Nat
  byteOrder : ByteOrder := .little
  isSigned : Bool := false
  conversion : Conversion := .base (.identity false)
  minimum : Option Rat := none
  maximum : Option Rat := none
  isMultiplexer : Bool := false
  multiplexerIds : Option (List Int) := none
  multiplexerSignal : Option String := none
  deriving DecidableEq, Repr

/-- database/utils.py:299-306 `sawtooth_to_network_bitnum`. -/
def sawtoothToNetworkBitnum (s : Nat) : Nat := 8 * (s / 8) + (7 - s % 8)

/-- database/utils.py:59-63 `start_bit`. -/
def startBit (s : Signal) : Nat :=
  match s.byteOrder with
  | .big => 8 * (s.start / 8) + (7 - s.start % 8)
  | .little => s.start

/-- database/utils.py:195-201 `get_format_string_type`. -/
def Signal.kind (s : Signal) : Kind :=
  if s.conversion.isFloat then .f else if s.isSigned then .s else .u

/-- database/utils.py:209-213 `data_item`. -/
def dataItem (s : Signal) : Item := .data s.kind s.length s.name

/-- Mask bits of an item (database/utils.py:203-213: '1's for padding, '0's for data). -/
def Item.maskBits : Item → List Bool
  | .pad n => List.replicate n true
  | .data _ n _ => List.replicate n false

/-- Mask bits of a whole format (`''.join([item[1] for item in items])`). -/
def maskBits (items : List Item) : List Bool := items.flatMap Item.maskBits

/-- database/utils.py:237-246, the loop of `create_big` over the sorted signals. -/
def bigItems (formatLength : Nat) : Nat → List Signal → List Item
  | start, [] => if start < formatLength then [.pad (formatLength - start)] else []
  | start, s :: r =>
    (if start < startBit s then [Item.pad (startBit s - start)] else []) ++
      dataItem s :: bigItems formatLength (startBit s + s.length) r

/-- Insert an element in front of the first one with a key that is not smaller. -/
def insertBy {α : Type} (key : α → Nat) (a : α) : List α → List α
  | [] => [a]
  | b :: r => if key a ≤ key b then a :: b :: r else b :: insertBy key a r

/-- python's `sorted(l, key=...)` with a key in `Nat`: a stable sort (`sortedBy_stable`). -/
def sortedBy {α : Type} (key : α → Nat) (l : List α) : List α := l.foldr (insertBy key) []

/-- database/utils.py:227-251 `create_big`: items for the big endian format. -/
def createBig (signals : List Signal) (formatLength : Nat) : List Item :=
  bigItems formatLength 0
    (sortedBy (fun s => sawtoothToNetworkBitnum s.start)
      (signals.filter fun s => s.byteOrder == .big))

/-- database/utils.py:257-270, the loop of `create_little` over the reversed signals. -/
def littleItems : Nat → List Signal → List Item
  | stop, [] => if 0 < stop then [.pad stop] else []
  | stop, s :: r =>
    (if s.start + s.length < stop then [Item.pad (stop - (s.start + s.length))] else []) ++
      dataItem s :: littleItems s.start r

/-- database/utils.py:253-270 `create_little`: items for the little endian format.  The signals are
taken in reverse order, they are *not* sorted. -/
def createLittle (signals : List Signal) (formatLength : Nat) : List Item :=
  littleItems formatLength (signals.reverse.filter fun s => !(s.byteOrder == .big))

/-- typechecking.py `Formats`: compiled formats and the mask of unused bits. -/
structure Formats where
  big : List Item
  little : List Item
  paddingMask : Nat
  deriving DecidableEq, Repr

/-- database/utils.py:192-296 `create_encode_decode_formats`.  (`bitstruct.pack('u<n>', value)` of
the little endian mask is the zero filled byte string of its `n` bits.) -/
def createFormats (signals : List Signal) (numberOfBytes : Nat) : Formats :=
  let formatLength := 8 * numberOfBytes
  let big := createBig signals formatLength
  let little := createLittle signals formatLength
  let bigMask := natOfBits (maskBits big)
  let littleMask :=
    if 0 < formatLength then fromBytesLittle (bitsToBytes (maskBits little))
    else natOfBits (maskBits little)
  { big, little, paddingMask := bigMask &&& littleMask }

/-- database/utils.py:75-101, the body of the loop of `_encode_signal_values` for one signal. -/
def encodeSignalValue (s : Signal) (v : Value) (scaling : Bool) : Except Err Rat :=
  match v with
  | .num q =>
    if scaling then s.conversion.numericScaledToRaw q
    else .ok (if s.conversion.isFloat then q else (pyRound q : Int))
  | .str c => (s.conversion.choiceToNumber c).map (fun i : Int => (i : Rat))
  | .named nv =>
    if s.conversion.rawToScaled nv.value true = .named nv
        ∨ s.conversion.rawToScaled nv.value true = .str nv.name then .ok nv.value
    else .error .encodeError

/-- database/utils.py:66-104 `_encode_signal_values`. -/
def encodeSignalValues (signals : List Signal) (data : List (String × Value)) (scaling : Bool) :
    Except Err (List (String × Rat)) :=
  signals.foldlM (fun acc s =>
    match dictGet? data s.name with
    | none => Except.error Err.keyError
    | some v => do
      let r ← encodeSignalValue s v scaling
      return dictSet acc s.name r) []

/-- database/utils.py:107-120 `encode_data`. -/
def encodeData (fo : FloatOps) (data : List (String × Value)) (signals : List Signal)
    (formats : Formats) (scaling : Bool) : Except Err Nat :=
  if signals.length = 0 then .ok 0
  else do
    let raw ← encodeSignalValues signals data scaling
    let big ← packItems fo raw formats.big
    let little ← packItems fo raw formats.little
    return fromBytesBig (bitsToBytes big) ||| fromBytesLittle (bitsToBytes little)

/-- database/utils.py:132-147: adjust the size of the data. -/
def adjustData (data : Bytes) (expected : Nat) (allowTruncated allowExcess : Bool) :
    Except Err Bytes :=
  if data.length ≠ expected then
    let d1 := if allowTruncated then data ++ List.replicate (expected - data.length) 0xff else data
    let d2 := if allowExcess then d1.take expected else d1
    if d2.length ≠ expected then .error .decodeError else .ok d2
  else .ok data

/-- database/utils.py:159-173: remove the signals that are outside the available data. -/
def removeTruncated (signals : List Signal) (actual expected : Nat) (allowTruncated : Bool)
    (unpacked : List (String × Rat)) : Except Err (List (String × Rat)) :=
  if actual < expected ∧ allowTruncated then
    signals.foldlM (fun acc s =>
      let sequentialStartBit :=
        match s.byteOrder with
        | .little => s.start
        | .big => 8 * (s.start / 8) + (7 - s.start % 8)
      if sequentialStartBit + s.length > actual * 8 then dictDel acc s.name else .ok acc) unpacked
  else .ok unpacked

/-- database/utils.py:180-187: the value reported for a raw value. -/
def decodeSignalValue (s : Signal) (raw : Rat) (decodeChoices scaling : Bool) : Value :=
  if scaling then s.conversion.rawToScaled raw decodeChoices
  else
    match (if decodeChoices then s.conversion.choices else none) with
    | none => .num raw
    | some cs =>
      -- a float key only hits an integer entry when the numbers are equal
      match (if raw.den = 1 then dictGet? cs raw.num else none) with
      | some ch => ch.toValue
      | none => .num raw

/-- database/utils.py:123-189 `decode_data`.  `bitstruct.Error` on unpacking becomes
`DecodeError`. -/
def decodeData (fo : FloatOps) (data : Bytes) (expected : Nat) (signals : List Signal)
    (formats : Formats) (decodeChoices scaling allowTruncated allowExcess : Bool) :
    Except Err (List (String × Value)) := do
  let actual := data.length
  let data ← adjustData data expected allowTruncated allowExcess
  let big ← (unpackItems fo formats.big (bytesToBits data)).mapError fun _ => Err.decodeError
  let little ← (unpackItems fo formats.little (bytesToBits data.reverse)).mapError
    fun _ => Err.decodeError
  let unpacked ← removeTruncated signals actual expected allowTruncated
    (dictUpdate (dictUpdate [] big) little)
  return signals.foldl (fun acc s =>
    match dictGet? unpacked s.name with
    | none => acc
    | some v => dictSet acc s.name (decodeSignalValue s v decodeChoices scaling)) []

end Cantools
