import Verif.Lemmas.DumpNames

/-
C44: the picture `cantools dump` draws of a message shows its layout.
-/

namespace Cantools
open Spec Spec.Picture Dump

theorem Dump.create_lengths {frameId : Int} {name : String} {length : Nat} {signals : List Signal}
    {pattern : UInt8} {extended strict : Bool} {sort : SortSignals} {m : Message}
    (h : Message.create frameId name length signals pattern extended strict sort = .ok m) :
    ∀ s ∈ m.signals, 0 < s.length := by
  unfold Message.create at h
  split at h
  · exact nomatch h
  · dsimp only at h
    split at h
    · exact nomatch h
    · rename_i hany
      have hpos : ∀ s ∈ sort.apply signals, 0 < s.length := by
        intro s hs
        by_contra hn
        exact hany (List.any_eq_true.2 ⟨s, hs, by simp; omega⟩)
      split at h
      · exact nomatch h
      · split at h
        · cases hc : checkTree (sort.apply signals) (List.replicate (8 * length) none)
            (treeOfCodec _) with
          | error e => rw [hc] at h; exact nomatch h
          | ok u => rw [hc] at h; cases h; exact hpos
        · cases h; exact hpos

/-- C44: for every message that can be created (with or without the strict check, whatever the order
of the signals), the picture is drawn and shows all bits: each cell is blank, part of an arrow, or
`XXX` as the signals there demand, bytes and bits are numbered, separators are open exactly where
signals go on, and each signal has its name below its end, connected by a line. -/
theorem C44_layout {frameId : Int} {name : String} {length : Nat} {signals : List Signal}
    {pattern : UInt8} {extended strict : Bool} {sort : SortSignals} {m : Message}
    (h : Message.create frameId name length signals pattern extended strict sort = .ok m)
    (hv : ∀ s ∈ m.signals, VisibleEnd s.name) :
    ∃ lines count left row, layoutLines m true = .ok lines ∧
      ShowsBits lines m.length m.signals count left row ∧
      ∀ k, k < count → ∃ below, ShowsNames lines m.signals left row k below := by
  obtain ⟨lines, row, h1, h2, h3⟩ := layout_with_names (create_lengths h) hv
  exact ⟨lines, _, _, row, h1, h2, h3⟩

/-- C44, without the names of the signals: bytes are in every other row. -/
theorem C44_layout_without_names {frameId : Int} {name : String} {length : Nat}
    {signals : List Signal} {pattern : UInt8} {extended strict : Bool} {sort : SortSignals}
    {m : Message}
    (h : Message.create frameId name length signals pattern extended strict sort = .ok m) :
    ∃ lines count left, layoutLines m false = .ok lines ∧
      ShowsBits lines m.length m.signals count left (fun k => 4 + 2 * k) := by
  obtain ⟨lines, h1, h2⟩ := layout_without_names (create_lengths h)
  exact ⟨lines, _, _, h1, h2⟩

/-- C44: what a reader can conclude from a picture.  A cell is blank exactly if no signal uses the
bit, and it is crossed out exactly if two signals use it. -/
theorem C44_read_back {lines : List (List Char)} {length : Nat} {sigs : List Signal}
    {count left : Nat} {row : Nat → Nat} (h : ShowsBits lines length sigs count left row)
    {k j i : Nat} (hk : k < count) (hj : j < 8) (hi : i < 3) :
    (charAt lines (row k) (column left j + i) = ' ' ↔ ∀ s ∈ sigs, ¬ Occupies s (8 * k + j)) ∧
    (charAt lines (row k) (column left j + i) = 'X' ↔
      ∃ l₁ s l₂ t l₃, sigs = l₁ ++ s :: (l₂ ++ t :: l₃) ∧ Occupies s (8 * k + j) ∧
        Occupies t (8 * k + j)) := by
  have hc := h.cells k hk j hj
  have pick : ∀ {P : Char → Prop}, P (charAt lines (row k) (column left j)) →
      P (charAt lines (row k) (column left j + 1)) → P (charAt lines (row k) (column left j + 2)) →
      P (charAt lines (row k) (column left j + i)) := by
    intro P h0 h1 h2
    match i, hi with
    | 0, _ => exact h0
    | 1, _ => exact h1
    | 2, _ => exact h2
  rcases split_exists (P := fun s => Occupies s (8 * k + j)) sigs with hp | ⟨l₁, s, l₂, hs, hp, hq⟩ |
    ⟨l₁, s, l₂, t, l₃, hs, hp, hq⟩
  · obtain ⟨h0, h1, h2⟩ := hc.unused hp
    have := pick (P := (· = ' ')) h0 h1 h2
    rw [this]
    refine ⟨by simp only [true_iff]; exact hp, ?_⟩
    constructor
    · intro hx; exact absurd hx (by decide)
    · rintro ⟨l₁, s, l₂, t, l₃, rfl, ho, -⟩
      exact absurd ho (hp s (by simp))
  · obtain ⟨h0, h1, h2⟩ := hc.one l₁ s l₂ hs hp hq
    have h3 := pick (P := fun c => c = '<' ∨ c = '-' ∨ c = 'x') (by rw [h0]; split <;> simp)
      (.inr (.inl h1)) (by rw [h2]; split <;> simp)
    have h4 : charAt lines (row k) (column left j + i) ≠ ' ' := by
      intro he; rw [he] at h3; revert h3; decide
    have h5 : charAt lines (row k) (column left j + i) ≠ 'X' := by
      intro he; rw [he] at h3; revert h3; decide
    refine ⟨⟨fun hx => absurd hx h4, fun hx => absurd hp (hx s (by simp [hs]))⟩,
      ⟨fun hx => absurd hx h5, ?_⟩⟩
    rintro ⟨l₃, u, l₄, v, l₅, he, ho1, ho2⟩
    exfalso
    -- two positions in a list with only one
    have hcount : ∀ l : List Signal, l = l₁ ++ s :: l₂ →
        l.countP (fun x => @decide (Occupies x (8 * k + j)) (Classical.propDecidable _)) = 1 := by
      rintro l rfl
      rw [List.countP_append, List.countP_cons]
      have z1 : l₁.countP (fun x => @decide (Occupies x (8 * k + j)) (Classical.propDecidable _)) = 0 :=
        List.countP_eq_zero.2 fun x hx => by simpa using hq x (by simp [hx])
      have z2 : l₂.countP (fun x => @decide (Occupies x (8 * k + j)) (Classical.propDecidable _)) = 0 :=
        List.countP_eq_zero.2 fun x hx => by simpa using hq x (by simp [hx])
      rw [z1, z2]; simp [hp]
    have := hcount sigs hs
    rw [he, List.countP_append, List.countP_cons, List.countP_append, List.countP_cons] at this
    simp [ho1, ho2] at this
    omega
  · obtain ⟨h0, h1, h2⟩ := hc.overlap l₁ s l₂ t l₃ hs hp hq
    have := pick (P := (· = 'X')) h0 h1 h2
    rw [this]
    refine ⟨⟨fun hx => absurd hx (by decide), fun hx => absurd hp (hx s (by simp [hs]))⟩, ?_⟩
    simp only [true_iff]
    exact ⟨l₁, s, l₂, t, l₃, hs, hp, hq⟩

namespace DumpExample

instance : Inhabited Message := ⟨{ length := 0, signals := [], codec := .mk [] .nil }⟩

def get (x : Except Err Message) : Message := x.toOption.getD default

theorem eq_get {x : Except Err Message} (h : x.toOption.isSome = true) : x = .ok (get x) := by
  cases x with
  | ok a => rfl
  | error e => cases h

/-- The example of the documentation of `layout_string`, with overlapping signals. -/
def signals : List Signal :=
  [{ name := "Foo", start := 2, length := 5, byteOrder := .big },
   { name := "Bar", start := 9, length := 1 },
   { name := "Fie", start := 27, length := 10 },
   { name := "Fum", start := 31, length := 3, byteOrder := .big },
   { name := "Fam", start := 30, length := 5, byteOrder := .big }]

def overlapping : Except Err Message := Message.create 1 "M" 4 signals (strict := false)

/-- The hypotheses of `C44_layout` are met. -/
example : overlapping = .ok (get overlapping) ∧ ∀ s ∈ (get overlapping).signals, VisibleEnd s.name :=
  ⟨eq_get (by decide +kernel), by
    have h : ∀ s ∈ (get overlapping).signals, (s.name.toList.getLast?.any fun c => !c.isWhitespace) = true := by
      decide +kernel
    intro s hs
    have := h s hs
    cases hl : s.name.toList.getLast? with
    | none => rw [hl] at this; exact nomatch this
    | some c =>
      rw [hl] at this
      obtain ⟨l, hl'⟩ := List.getLast?_eq_some_iff.1 hl
      exact ⟨l, c, hl', by simpa using this⟩⟩

/-- The picture. -/
example : (layoutLines (get overlapping)).toOption = some ([
    "                      Bit",
    "",
    "         7   6   5   4   3   2   1   0",
    "       +---+---+---+---+---+---+---+---+",
    "     0 |   |   |   |   |   |<----------|",
    "       +---+---+---+---+---+---+---+---+",
    "     1 |------x|   |   |   |   |<-x|   |",
    "       +---+---+---+---+---+---+---+---+",
    "             |                   +-- Bar",
    "             +-- Foo",
    " B     +---+---+---+---+---+---+---+---+",
    " y   2 |   |   |   |   |   |   |   |   |",
    " t     +---+---+---+---+---+---+---+---+",
    " e   3 |XXXXXXXXXXXXXXXXXXX---x|   |   |",
    "       +---+---+---+---+---+---+---+---+",
    "                 |           +-- Fam",
    "                 +-- Fum",
    "       +---+---+---+---+---+---+---+---+",
    "     4 |   |   |   |<------------------|",
    "       +---+---+---+---+---+---+---+---+",
    "                     +-- Fie"].map String.toList) := by
  decide +kernel

/-- A multiplexer and two signals of different multiplexer ids in the same place. -/
def multiplexed : Except Err Message := Message.create 1 "M" 2
  [{ name := "Mux", start := 0, length := 8, isMultiplexer := true },
   { name := "A", start := 8, length := 8, multiplexerIds := some [0], multiplexerSignal := some "Mux" },
   { name := "B", start := 8, length := 8, multiplexerIds := some [1], multiplexerSignal := some "Mux" }]

/-- Crossed out bits are not always a mistake: signals that are never in the same frame are crossed
out as well, although the strict check accepts the message. -/
theorem C44_crossed_out_but_valid :
    ∃ m lines, multiplexed = .ok m ∧ layoutLines m true = .ok lines ∧
      lines.getD 8 [] = " e   1 |XXXXXXXXXXXXXXXXXXXXXXXXXXXXXXX|".toList := by
  have h : multiplexed.toOption.isSome = true := by decide +kernel
  have h2 : (layoutLines (get multiplexed) true).toOption.isSome = true := by decide +kernel
  refine ⟨get multiplexed, (layoutLines (get multiplexed) true).toOption.getD [], eq_get h, ?_, ?_⟩
  · cases hx : layoutLines (get multiplexed) true with
    | ok a => rfl
    | error e => rw [hx] at h2; exact nomatch h2
  · decide +kernel

end DumpExample

end Cantools
