import Verif.Lemmas.Assert

/-
Concrete messages used to show that the hypotheses of the theorems can be met.
-/

namespace Cantools.Example
open Cantools

/-- A stand-in for IEEE packing in the examples. -/
def fo : FloatOps where
  pack n _ := .ok (List.replicate n false)
  unpack _ := 0
  pack_length := by intro n q l h; cases h; simp

def muxTable : Choices :=
  [(0, .str "idle"), (1, .named { value := 1, name := "drive" }), (7, .str "test")]

/-- Selector in the low nibble of byte 0, with a value table. -/
def mux : Signal :=
  { name := "Mux", start := 0, length := 4, isMultiplexer := true
    conversion := .factory 1 0 (some muxTable) false }

/-- A signed big endian signal crossing byte boundaries, under selector values 0 and 1. -/
def a : Signal :=
  { name := "A", start := 19, length := 11, byteOrder := .big, isSigned := true
    conversion := .factory (1/2) 3 none false, minimum := some (-100), maximum := some 500
    multiplexerIds := some [0, 1], multiplexerSignal := some "Mux" }

/-- A little endian signal overlapping `a`, under selector value 2. -/
def b : Signal :=
  { name := "B", start := 10, length := 13, multiplexerIds := some [2], multiplexerSignal := some "Mux" }

/-- A plain signal in the high nibble of byte 0. -/
def p : Signal := { name := "P", start := 4, length := 4 }

def sigs : List Signal := [b, a, p, mux]

/-- Take the value of a successful computation. -/
def get {α : Type} [Inhabited α] : Except Err α → α
  | .ok x => x
  | .error _ => default

instance : Inhabited Message := ⟨{ length := 0, signals := [], codec := .mk [] .nil }⟩

def msg : Message := get (Message.create 0x123 "Msg" 4 sigs 0xa5)

theorem msg_ok : Message.create 0x123 "Msg" 4 sigs 0xa5 = .ok msg := by
  have h : (Message.create 0x123 "Msg" 4 sigs 0xa5).toOption.isSome = true := by decide +kernel
  unfold msg
  cases hc : Message.create 0x123 "Msg" 4 sigs 0xa5 with
  | ok m => rfl
  | error e => rw [hc] at h; cases h

theorem nodup : (sigs.map (·.name)).Nodup := by decide +kernel

theorem built : ∀ s ∈ sigs, Spec.Built s.conversion := by
  intro s hs
  simp only [sigs, List.mem_cons, List.not_mem_nil, or_false] at hs
  rcases hs with rfl | rfl | rfl | rfl
  · exact ⟨1, 0, none, false, rfl⟩
  · exact ⟨1/2, 3, none, false, rfl⟩
  · exact ⟨1, 0, none, false, rfl⟩
  · exact ⟨1, 0, some muxTable, false, rfl⟩

theorem plain : ∀ s ∈ sigs, s.conversion.isFloat = true → s.conversion.choices = none := by
  decide +kernel

def data : List (String × Value) := [("Mux", .str "drive"), ("A", .num (-12)), ("P", .num 9)]

theorem encode_ok : encode fo msg data true true true = .ok [0x91, 0xa5, 0xaf, 0xc5] := by
  decide +kernel

end Cantools.Example
