import Verif.Model.Sym
import Verif.Spec.DbcFile

/-
Specification of the databases that can be written to a SYM file, and of what the file keeps.

A SYM file has no fields for nodes, receivers, attributes, initial values, buses, protocols and frame
formats; the sender of a message is one of two fixed names.  All signals are defined in one list, by
name.
-/

namespace Cantools.Spec
open Cantools Dbc

variable {F : Type}

/-! ### What can be written -/

/-- Text of a comment: one line. -/
def LineText (t : Chars) : Prop := '\n' ∉ t ∧ t.getLast? ≠ some '\r'

/-- The name of the enumeration of a signal, without its last letter. -/
def enumStem (name : Chars) : Chars := (name.map fun c => if c = ' ' ∨ c = '/' then '_' else c).take 31

/-- The first hexadecimal digit of a number. -/
def leadingHex (n : Nat) : Nat := if h : n < 16 then n else leadingHex (n / 16)
termination_by n
decreasing_by omega

/-- A signal whose definition can be written. -/
structure SymSignal (s : DSignal F) : Prop where
  name : PlainText s.name
  short : s.name.length ≤ 32
  float : s.isFloat = true → (s.length = 32 ∨ s.length = 64) ∧ s.isSigned = false
  unit : ∀ u, s.unit = some u → u ≠ [] ∧ PlainText u
  comment : ∀ c, s.comment = some c → c ≠ [] ∧ LineText c
  choices : ∀ cs, s.choices = some cs →
    cs ≠ [] ∧ (cs.map (·.1)).Nodup ∧ (∀ c ∈ cs, PlainText c.2) ∧ Ident (enumStem s.name)
  spn : ∀ v, s.spn = some v → ∃ i : Int, i ≠ 0 ∧ v = .num (.int i)

/-- A selector with no more than a name and a place. -/
structure SymSelector (T : FloatText F) (s : DSignal F) : Prop where
  isMultiplexer : s.isMultiplexer = true
  root : s.multiplexerSignal = none ∧ s.multiplexerIds = none
  name : s.name ≠ []
  type : s.isSigned = false ∧ s.isFloat = false
  scale : s.scale.value T = 1
  offset : s.offset.value T = 0
  limits : s.minimum = none ∧ s.maximum = none
  rest : s.unit = none ∧ s.comment = none ∧ s.choices = none ∧ s.spn = none

/-- A message without multiplexing. -/
def Plain (m : DMessage F) : Prop :=
  ∀ s ∈ m.signals, s.isMultiplexer = false ∧ s.multiplexerSignal = none ∧ s.multiplexerIds = none

/-- A message with one selector, and with some signal multiplexed by it; the hexadecimal form of the
multiplexer ids starts with a digit. -/
def OneSelector (T : FloatText F) (m : DMessage F) : Prop :=
  ∃ sel ∈ m.signals, SymSelector T sel ∧ (∃ s ∈ m.signals, s.multiplexerSignal ≠ none) ∧
    ∀ s ∈ m.signals, s ≠ sel → s.isMultiplexer = false ∧
      ((s.multiplexerSignal = none ∧ s.multiplexerIds = none) ∨
        (s.multiplexerSignal = some sel.name ∧ ∃ ids, ids ≠ [] ∧ s.multiplexerIds = some ids ∧
          ∀ i ∈ ids, 0 ≤ i ∧ leadingHex i.toNat < 10))

structure SymMessage (T : FloatText F) (m : DMessage F) : Prop where
  id : ValidFrameId m.frameId m.isExtendedFrame
  name : PlainText m.name
  comment : ∀ c, m.comment = some c → LineText c
  cycleTime : ∀ n, m.cycleTime = some n → n.value T ≠ 0
  senders : m.senders = [Sym.ecu] ∨ m.senders = [Sym.peripherals] ∨ m.senders = [Sym.ecu, Sym.peripherals]
  nodup : (m.signals.map (·.name)).Nodup
  signals : ∀ s ∈ m.signals, SymSignal s
  mux : Plain m ∨ OneSelector T m

/-- The same definition: the signals differ in their place, in their multiplexing and in what is not
written at all. -/
def SameDefinition (a b : DSignal F) : Prop :=
  b = { a with
    start := b.start, isMultiplexer := b.isMultiplexer, multiplexerIds := b.multiplexerIds
    multiplexerSignal := b.multiplexerSignal, receivers := b.receivers, rawInitial := b.rawInitial
    attributes := b.attributes }

structure SymDatabase (T : FloatText F) (db : DDatabase F) : Prop where
  messages : ∀ m ∈ db.messages, SymMessage T m
  /-- Messages of one name have no multiplexing and differ in their ids only, which follow one another. -/
  names : ∀ m ∈ db.messages, ∀ m' ∈ db.messages, m.name = m'.name →
    m' = m ∨ (Plain m ∧ m' = { m with frameId := m'.frameId })
  ranges : ∀ m ∈ db.messages, ∃ (first : Int) (count : Nat),
    ((db.messages.filter fun x => decide (x.name = m.name)).map (·.frameId)).Perm
      ((List.range count).map fun k : Nat => first + (k : Int))
  /-- Signals of one name have the same definition; two selectors need not. -/
  signals : ∀ m ∈ db.messages, ∀ s ∈ m.signals, s.isMultiplexer = false →
    ∀ m' ∈ db.messages, ∀ s' ∈ m'.signals, s'.name = s.name → SameDefinition s s'
  /-- Enumerations of one name are the same. -/
  enums : ∀ m ∈ db.messages, ∀ s ∈ m.signals, ∀ m' ∈ db.messages, ∀ s' ∈ m'.signals, ∀ cs cs',
    s.choices = some cs → s'.choices = some cs' → enumStem s'.name = enumStem s.name → cs' = cs

/-! ### What must be kept -/

/-- The multiplexer ids of a message. -/
def muxIds (l : List (DSignal F)) : List Int := (l.flatMap fun s => s.multiplexerIds.getD []).dedup

/-- The signals of a message as a SYM file has them: in a message with a selector every other signal is
multiplexed, once for each of its ids; signals that are in all frames are there for every id. -/
def spread (l : List (DSignal F)) : List (DSignal F) :=
  match l.find? (·.isMultiplexer) with
  | none => l
  | some sel => sel :: (muxIds l).flatMap fun i =>
      (l.filter fun s => !s.isMultiplexer && (s.multiplexerIds.isNone || (s.multiplexerIds.getD []).contains i)).map
        fun s => { s with multiplexerIds := some [i], multiplexerSignal := some sel.name }

structure SymKeptSignal (T : FloatText F) (a b : DSignal F) : Prop where
  name : b.name = a.name
  start : b.start = a.start
  length : b.length = a.length
  byteOrder : b.byteOrder = a.byteOrder
  isSigned : b.isSigned = a.isSigned
  scale : b.scale.value T = a.scale.value T
  offset : b.offset.value T = a.offset.value T
  isFloat : b.isFloat = a.isFloat
  minimum : b.minimum = a.minimum
  maximum : b.maximum = a.maximum
  unit : b.unit = a.unit
  comment : b.comment = a.comment
  choices : b.choices = a.choices
  isMultiplexer : b.isMultiplexer = a.isMultiplexer
  multiplexerSignal : b.multiplexerSignal = a.multiplexerSignal
  ids : b.multiplexerIds = a.multiplexerIds
  spn : b.spn = a.spn

structure SymKeptMessage (T : FloatText F) (a b : DMessage F) : Prop where
  frameId : b.frameId = a.frameId
  isExtendedFrame : b.isExtendedFrame = a.isExtendedFrame
  name : b.name = a.name
  length : b.length = a.length
  senders : b.senders = a.senders
  cycleTime : b.cycleTime = a.cycleTime
  comment : b.comment = a.comment
  signals : ∃ l : List (DSignal F), l.Perm (spread a.signals) ∧ List.Forall₂ (SymKeptSignal T) l b.signals
  sorted : b.signals.Pairwise fun x y => startBit (x.core T) ≤ startBit (y.core T)

/-- The messages of `b` are those of `a` in another order. -/
def SymKept (T : FloatText F) (a b : DDatabase F) : Prop :=
  ∃ l : List (DMessage F), l.Perm a.messages ∧ List.Forall₂ (SymKeptMessage T) l b.messages

/-! ### The text -/

/-- The number a SYM file has for the first bit of a signal: bits of little endian signals are numbered as usual, bits of
big endian signals in the order of transmission, each byte from its most significant bit. -/
def SymBit (order : ByteOrder) (start k : Nat) : Prop :=
  match order with
  | .little => k = start
  | .big => k / 8 = start / 8 ∧ k % 8 + start % 8 = 7

end Cantools.Spec
