import Verif.Model.Message

/-
Independent specification of where the bits of a signal live in a frame.

Payload bits carry "sawtooth" numbers: bit `k` (0 = least significant) of byte `b` has number
`8 * b + k`.
-/

namespace Cantools.Spec
open Cantools

/-- Payload bit with sawtooth number `p`. -/
def payloadBit (data : Bytes) (p : Nat) : Bool := (data.getD (p / 8) 0).toNat.testBit (p % 8)

/-- Walking from a bit to the next less significant bit of a big endian (Motorola) signal: one to
the right inside a byte, from bit 0 of a byte to bit 7 of the following byte. -/
def nextBig (p : Nat) : Nat := if p % 8 = 0 then p + 15 else p - 1

/-- The position `n` steps after `start`. -/
def bigPos (start : Nat) : Nat → Nat
  | 0 => start
  | n + 1 => nextBig (bigPos start n)

/-- Sawtooth number of bit `j` (0 = least significant) of a signal.  Little endian signals start at
their least significant bit and go up; big endian signals start at their most significant bit. -/
def bitPos (s : Signal) (j : Nat) : Nat :=
  match s.byteOrder with
  | .little => s.start + j
  | .big => bigPos s.start (s.length - 1 - j)

/-- The payload bits a signal occupies. -/
def Occupies (s : Signal) (p : Nat) : Prop := ∃ j, j < s.length ∧ bitPos s j = p

/-- A signal lies completely in a payload of `len` bytes. -/
def Fits (len : Nat) (s : Signal) : Prop := ∀ p, Occupies s p → p < 8 * len

/-- Two signals share no payload bit. -/
def Disjoint (a b : Signal) : Prop := ∀ p, Occupies a p → ¬ Occupies b p

/-- Bit `j` of an integer in two's complement. -/
def intBit (v : Int) (j : Nat) : Bool := (v / 2 ^ j) % 2 = 1

/-- Range of raw values of an integer signal. -/
def InRange (s : Signal) (v : Int) : Prop :=
  if s.isSigned then -(2 ^ (s.length - 1)) ≤ v ∧ v < 2 ^ (s.length - 1) else 0 ≤ v ∧ v < 2 ^ s.length

/-- `v` is the raw value read from the signal's bits: bit `j` of the payload field is bit `j` of
`v`, and `v` is in range. -/
def ReadsAs (s : Signal) (data : Bytes) (v : Int) : Prop :=
  InRange s v ∧ ∀ j, j < s.length → payloadBit data (bitPos s j) = intBit v j

/-- The signals of a frame, given the values of the selectors: signals without selector are always
there, a multiplexed signal is there if its selector is there and has one of its ids as value. -/
inductive Present (sigs : List Signal) (sel : String → Option Int) : Signal → Prop where
  | root (s : Signal) (hs : s ∈ sigs) (hp : s.multiplexerSignal = none) : Present sigs sel s
  | child (s p : Signal) (i : Int) (ids : List Int) (hs : s ∈ sigs)
      (hp : s.multiplexerSignal = some p.name) (hm : p.isMultiplexer = true)
      (hpar : Present sigs sel p) (hsel : sel p.name = some i)
      (hids : s.multiplexerIds = some ids) (hi : i ∈ ids) : Present sigs sel s

/-- A layout is valid for a payload of `len` bytes: every signal fits, and signals that can be in
the same frame do not overlap. -/
def ValidLayout (len : Nat) (sigs : List Signal) : Prop :=
  (∀ s, (∃ sel, Present sigs sel s) → Fits len s) ∧
  ∀ sel a b, Present sigs sel a → Present sigs sel b → a ≠ b → Disjoint a b

end Cantools.Spec
