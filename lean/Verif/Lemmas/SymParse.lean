import Verif.Lemmas.SymLex

/-
The lines of a SYM file as pieces of text, and how they are parsed.
-/

namespace Cantools.Sym
open Cantools Cantools.Dbc Spec

/-! ### Pieces of the lines -/

/-- A unit with its key. -/
def unitText (u : Chars) : Chars := '/' :: 'u' :: ':' :: '"' :: (u ++ ['"'])

/-- A comment with its end of line. -/
def commentText (c : Chars) : Chars := '/' :: '/' :: (c ++ ['\n'])

def optPieces : SigOption → List Piece
  | .unit t => [.sp ' ', .unit (t.drop 4).dropLast]
  | .factor t => [.sp ' ', .lit "/f:", .num t]
  | .offset t => [.sp ' ', .lit "/o:", .num t]
  | .min t => [.sp ' ', .lit "/min:", .num t]
  | .max t => [.sp ' ', .lit "/max:", .num t]
  | .spn t => [.sp ' ', .lit "/spn:", .num t]
  | .enum n => [.sp ' ', .lit "/e:", .word n]
  | .ignored _ _ => []

/-- The end of a line, with a comment or without. -/
def endPieces : Option Chars → List Piece
  | none => [.sp '\n']
  | some t => [.sp ' ', .comment (t.drop 2).dropLast]

def sigPieces (l : SigLine) : List Piece :=
  [.key "Sig", .lit "=", .str l.name, .sp ' ', .word l.type, .sp ' ', .num (l.length.getD [])] ++
    ((if l.motorola then [.sp ' ', .lit "-m"] else []) ++ (l.options.flatMap optPieces ++ endPieces l.comment))

/-- The values of an enumeration, from the `k`-th on. -/
def valuePieces (k : Nat) : List (Chars × Chars) → List Piece
  | [] => []
  | v :: r =>
    (if k % 10 = 0 ∧ k ≠ 0 then [.lit ",", .sp '\n'] else if 0 < k then [.lit ",", .sp ' '] else []) ++
      ([.num v.1, .lit "=", .str v.2] ++ valuePieces (k + 1) r)

def enumPieces (l : EnumLine) : List Piece :=
  [.key "Enum", .lit "=", .word l.name, .lit "("] ++ (valuePieces 0 l.values ++ [.lit ")", .sp '\n'])

def linePieces : Line → List Piece
  | .id l => [.key "ID", .lit "=", .hex l.first.dropLast] ++
      ((match l.last with | none => [] | some t => [.hex t.dropLast]) ++ endPieces l.comment)
  | .len t => [.key "Len", .lit "=", .num t, .sp '\n']
  | .mux l => [.key "Mux", .lit "=", .str l.name, .sp ' ', .num l.start, .lit ",", .num l.length, .sp ' ',
      .hex l.id.dropLast, .sp ' '] ++ ((if l.flags = [] then [] else [.lit "-m"]) ++ [.sp '\n'])
  | .cycleTime t _ => [.key "CycleTime", .lit "=", .num t, .sp '\n']
  | .sig n t => [.key "Sig", .lit "=", .str n, .sp ' ', .num t, .sp '\n']
  | .type t => [.key "Type", .lit "=", .word t, .sp '\n']
  | _ => []

def blockPieces (b : Block) : List Piece :=
  [.lit "[", .str b.name, .lit "]", .sp '\n'] ++ (b.lines.flatMap linePieces ++ [.sp '\n'])

/-- A section followed by an empty line. -/
def spacedPieces {α : Type} (header : String) (f : α → List Piece) (l : List α) : List Piece :=
  if l.isEmpty then [.sp '\n', .sp '\n'] else [.lit header, .sp '\n'] ++ (l.flatMap f ++ [.sp '\n'])

def sectionPieces {α : Type} (header : String) (f : α → List Piece) (l : List α) : List Piece :=
  if l.isEmpty then [] else [.lit header, .sp '\n'] ++ l.flatMap f

def headPieces : List Piece :=
  [.key "FormatVersion", .lit "=", .num "6.0".toList, .sp ' ', .comment " Do not edit this line!".toList,
   .key "Title", .lit "=", .str "SYM Database".toList, .sp '\n', .sp '\n']

/-- The contents of a file. -/
structure Content where
  enums : List EnumLine
  signals : List SigLine
  send : List Block
  receive : List Block
  sendReceive : List Block

def Content.pieces (c : Content) : List Piece :=
  headPieces ++ (spacedPieces "{ENUMS}" enumPieces c.enums ++ (spacedPieces "{SIGNALS}" sigPieces c.signals ++
    (sectionPieces "{SEND}" blockPieces c.send ++ (sectionPieces "{RECEIVE}" blockPieces c.receive ++
      sectionPieces "{SENDRECEIVE}" blockPieces c.sendReceive))))

/-! ### Lines that can be written -/

/-- A word that is not a keyword. -/
def IsWord (w : Chars) : Prop := Ident w ∧ w ∉ keywords

def OptOk : SigOption → Prop
  | .unit t => ∃ u, t = unitText u ∧ PlainText u
  | .factor t => IsNum t
  | .offset t => IsNum t
  | .min t => IsNum t
  | .max t => IsNum t
  | .spn t => IsNum t
  | .enum n => IsWord n
  | .ignored _ _ => False

def CommentOk (c : Option Chars) : Prop := ∀ t, c = some t → ∃ b, t = commentText b ∧ '\n' ∉ b

structure SigOk (l : SigLine) : Prop where
  name : PlainText l.name
  type : IsWord l.type
  length : ∃ n, l.length = some n ∧ IsNum n
  options : ∀ o ∈ l.options, OptOk o
  comment : CommentOk l.comment

structure EnumOk (l : EnumLine) : Prop where
  name : IsWord l.name
  values : ∀ v ∈ l.values, IsNum v.1 ∧ PlainText v.2

/-- A hexadecimal number with its last letter. -/
def HexOk (t : Chars) : Prop := ∃ x, t = x ++ ['h'] ∧ IsHex x

def LineOk : Line → Prop
  | .id l => HexOk l.first ∧ (∀ t, l.last = some t → HexOk t) ∧ CommentOk l.comment
  | .len t => IsNum t
  | .mux l => PlainText l.name ∧ IsNum l.start ∧ IsNum l.length ∧ HexOk l.id ∧
      (l.flags = [] ∨ l.flags = ["-m".toList]) ∧ l.comment = none
  | .cycleTime t p => IsNum t ∧ p = none
  | .sig n t => PlainText n ∧ IsNum t
  | .type t => IsWord t
  | _ => False

structure BlockOk (b : Block) : Prop where
  name : PlainText b.name
  lines : ∀ l ∈ b.lines, LineOk l

structure ContentOk (c : Content) : Prop where
  enums : ∀ e ∈ c.enums, EnumOk e
  signals : ∀ s ∈ c.signals, SigOk s
  send : ∀ b ∈ c.send, BlockOk b
  receive : ∀ b ∈ c.receive, BlockOk b
  sendReceive : ∀ b ∈ c.sendReceive, BlockOk b

/-! ### The pieces fit together -/

theorem unitText_drop (u : Chars) : ((unitText u).drop 4).dropLast = u := by
  simp [unitText]

theorem commentText_drop (c : Chars) : ((commentText c).drop 2).dropLast = c := by
  simp [commentText]

theorem chain_opt {o : SigOption} (h : OptOk o) : Chain (optPieces o) ∧ Blank (optPieces o) := by
  cases o with
  | unit t =>
    obtain ⟨u, rfl, hu⟩ := h
    simp only [optPieces, unitText_drop]
    exact ⟨⟨(by decide : isBlank ' ' = true), fun _ _ => rfl, hu, fun _ _ => rfl, trivial⟩, blank_cons⟩
  | ignored => exact h.elim
  | enum n =>
    exact ⟨⟨(by decide : isBlank ' ' = true), fun _ _ => rfl, (by decide : "/e:" ∈ literals), fun _ _ => rfl, h,
      (by intro c hc; cases hc), trivial⟩, blank_cons⟩
  | factor t =>
    exact ⟨⟨(by decide : isBlank ' ' = true), fun _ _ => rfl, (by decide : "/f:" ∈ literals), fun _ _ => rfl, h,
      (by intro c hc; cases hc), trivial⟩, blank_cons⟩
  | offset t =>
    exact ⟨⟨(by decide : isBlank ' ' = true), fun _ _ => rfl, (by decide : "/o:" ∈ literals), fun _ _ => rfl, h,
      (by intro c hc; cases hc), trivial⟩, blank_cons⟩
  | min t =>
    exact ⟨⟨(by decide : isBlank ' ' = true), fun _ _ => rfl, (by decide : "/min:" ∈ literals), fun _ _ => rfl, h,
      (by intro c hc; cases hc), trivial⟩, blank_cons⟩
  | max t =>
    exact ⟨⟨(by decide : isBlank ' ' = true), fun _ _ => rfl, (by decide : "/max:" ∈ literals), fun _ _ => rfl, h,
      (by intro c hc; cases hc), trivial⟩, blank_cons⟩
  | spn t =>
    exact ⟨⟨(by decide : isBlank ' ' = true), fun _ _ => rfl, (by decide : "/spn:" ∈ literals), fun _ _ => rfl, h,
      (by intro c hc; cases hc), trivial⟩, blank_cons⟩

theorem chain_opts {l : List SigOption} (h : ∀ o ∈ l, OptOk o) :
    Chain (l.flatMap optPieces) ∧ Blank (l.flatMap optPieces) := by
  induction l with
  | nil => exact ⟨trivial, blank_nil⟩
  | cons o l ih =>
    have h1 := chain_opt (h o (by simp))
    have h2 := ih fun o ho => h o (List.mem_cons_of_mem _ ho)
    rw [List.flatMap_cons]
    exact ⟨chain_blank h1.1 h2.1 h2.2, blank_append h1.2 h2.2⟩

theorem endPieces_ne (c : Option Chars) : endPieces c ≠ [] := by cases c <;> simp [endPieces]

theorem chain_end {c : Option Chars} (h : CommentOk c) :
    Chain (endPieces c) ∧ Blank (endPieces c) ∧ Closed (endPieces c) := by
  cases c with
  | none =>
    exact ⟨⟨(by decide : isBlank '\n' = true), fun _ _ => rfl, trivial⟩, blank_newline, by
      intro p hp; cases hp; exact fun _ => rfl⟩
  | some t =>
    obtain ⟨b, rfl, hb⟩ := h t rfl
    simp only [endPieces, commentText_drop]
    exact ⟨⟨(by decide : isBlank ' ' = true), fun _ _ => rfl, hb, fun _ _ => rfl, trivial⟩, blank_cons, by
      intro p hp; cases hp; exact fun _ => rfl⟩

/-- The text after a key. -/
theorem next_key {k : String} {r : List Piece} :
    ∀ c, (textOf (.lit "=" :: r)).head? = some c → (Piece.key k).next c = true := by
  intro c hc; cases hc; exact (by decide : (!isWordC '=') = true)

theorem next_sp {p : Piece} {r : List Piece} :
    ∀ c, (textOf (.sp ' ' :: r)).head? = some c → p.next c = true := by
  intro c hc; cases hc; exact next_blank (Or.inl rfl)

theorem next_newline {p : Piece} {r : List Piece} :
    ∀ c, (textOf (.sp '\n' :: r)).head? = some c → p.next c = true := by
  intro c hc; cases hc; exact next_blank (Or.inr rfl)

theorem chain_sig {l : SigLine} (h : SigOk l) : Chain (sigPieces l) ∧ Closed (sigPieces l) := by
  obtain ⟨n, hn, hnum⟩ := h.length
  have h1 := chain_opts h.options
  have h2 := chain_end h.comment
  have h3 : Chain (if l.motorola then [Piece.sp ' ', .lit "-m"] else []) ∧
      Blank (if l.motorola then [Piece.sp ' ', .lit "-m"] else []) := by
    split
    · exact ⟨⟨(by decide : isBlank ' ' = true), fun _ _ => rfl, (by decide : "-m" ∈ literals), fun _ _ => rfl, trivial⟩,
        blank_cons⟩
    · exact ⟨trivial, blank_nil⟩
  have h4 := chain_blank h1.1 h2.1 h2.2.1
  have h5 := blank_append h1.2 h2.2.1
  unfold sigPieces
  constructor
  · apply chain_blank _ (chain_blank h3.1 h4 h5) (blank_append h3.2 h5)
    rw [hn]
    exact ⟨(by decide : "Sig".toList ∈ keywords), next_key, (by decide : "=" ∈ literals), fun _ _ => rfl,
      h.name, fun _ _ => rfl, (by decide : isBlank ' ' = true), fun _ _ => rfl, h.type, next_sp,
      (by decide : isBlank ' ' = true), fun _ _ => rfl, hnum, (by intro c hc; cases hc), trivial⟩
  · simp only [← List.append_assoc]
    exact closed_last (endPieces_ne _) h2.2.2

theorem chain_values {l : List (Chars × Chars)} (h : ∀ v ∈ l, IsNum v.1 ∧ PlainText v.2) :
    ∀ k, Chain (valuePieces k l) ∧ Closed (valuePieces k l) := by
  induction l with
  | nil => exact fun k => ⟨trivial, closed_nil⟩
  | cons v l ih =>
    intro k
    have ih := ih (fun v hv => h v (List.mem_cons_of_mem _ hv)) (k + 1)
    have hv := h v (by simp)
    have h1 : Chain [Piece.num v.1, .lit "=", .str v.2] ∧ Closed [Piece.num v.1, .lit "=", .str v.2] :=
      ⟨⟨hv.1, (by intro c hc; cases hc; rfl), (by decide : "=" ∈ literals), fun _ _ => rfl, hv.2, fun _ _ => rfl,
        trivial⟩, by intro p hp; cases hp; exact fun _ => rfl⟩
    have h2 : ∀ s : List Piece, s = [.lit ",", .sp '\n'] ∨ s = [.lit ",", .sp ' '] ∨ s = [] → Chain s ∧ Closed s := by
      rintro s (rfl | rfl | rfl)
      · exact ⟨⟨(by decide : "," ∈ literals), fun _ _ => rfl, (by decide : isBlank '\n' = true), fun _ _ => rfl, trivial⟩,
          by intro p hp; cases hp; exact fun _ => rfl⟩
      · exact ⟨⟨(by decide : "," ∈ literals), fun _ _ => rfl, (by decide : isBlank ' ' = true), fun _ _ => rfl, trivial⟩,
          by intro p hp; cases hp; exact fun _ => rfl⟩
      · exact ⟨trivial, closed_nil⟩
    have h3 := h2 (if k % 10 = 0 ∧ k ≠ 0 then [.lit ",", .sp '\n'] else if 0 < k then [.lit ",", .sp ' '] else [])
      (by split; · simp
          · split <;> simp)
    unfold valuePieces
    exact ⟨chain_closed h3.1 (chain_closed h1.1 ih.1 h1.2) h3.2, closed_append h3.2 (closed_append h1.2 ih.2)⟩

theorem chain_enum {l : EnumLine} (h : EnumOk l) : Chain (enumPieces l) ∧ Closed (enumPieces l) := by
  have h1 := chain_values h.values 0
  have h2 : Chain [Piece.lit ")", .sp '\n'] ∧ Closed [Piece.lit ")", .sp '\n'] :=
    ⟨⟨(by decide : ")" ∈ literals), fun _ _ => rfl, (by decide : isBlank '\n' = true), fun _ _ => rfl, trivial⟩, by
      intro p hp; cases hp; exact fun _ => rfl⟩
  have h3 : Chain [Piece.key "Enum", .lit "=", .word l.name, .lit "("] ∧
      Closed [Piece.key "Enum", .lit "=", .word l.name, .lit "("] :=
    ⟨⟨(by decide : "Enum".toList ∈ keywords), next_key, (by decide : "=" ∈ literals), fun _ _ => rfl, h.name,
      (by intro c hc; cases hc; exact (by decide : (!isWordC '(') = true)), (by decide : "(" ∈ literals),
      fun _ _ => rfl, trivial⟩, by intro p hp; cases hp; exact fun _ => rfl⟩
  unfold enumPieces
  exact ⟨chain_closed h3.1 (chain_closed h1.1 h2.1 h1.2) h3.2, closed_append h3.2 (closed_append h1.2 h2.2)⟩

theorem chain_line {l : Line} (h : LineOk l) : Chain (linePieces l) ∧ Closed (linePieces l) := by
  have hnum : ∀ (k : String) (t : Chars), k.toList ∈ keywords → IsNum t →
      Chain [.key k, .lit "=", .num t, .sp '\n'] ∧ Closed [.key k, .lit "=", .num t, .sp '\n'] := by
    intro k t hk ht
    exact ⟨⟨hk, next_key, (by decide : "=" ∈ literals), fun _ _ => rfl, ht, next_newline,
      (by decide : isBlank '\n' = true), fun _ _ => rfl, trivial⟩, by intro p hp; cases hp; exact fun _ => rfl⟩
  cases l with
  | id l =>
    obtain ⟨⟨x, hx, hex⟩, h2, h3⟩ := h
    have h4 := chain_end h3
    have h1 : Chain [Piece.key "ID", .lit "=", .hex l.first.dropLast] ∧
        Closed [Piece.key "ID", .lit "=", .hex l.first.dropLast] := by
      rw [hx]
      simp only [List.dropLast_concat]
      exact ⟨⟨(by decide : "ID".toList ∈ keywords), next_key, (by decide : "=" ∈ literals), fun _ _ => rfl,
        hex, fun _ _ => rfl, trivial⟩, by intro p hp; cases hp; exact fun _ => rfl⟩
    have h5 : Chain (match l.last with | none => ([] : List Piece) | some t => [.hex t.dropLast]) ∧
        Closed (match l.last with | none => ([] : List Piece) | some t => [.hex t.dropLast]) := by
      split
      · exact ⟨trivial, closed_nil⟩
      · rename_i t ht
        obtain ⟨y, rfl, hy⟩ := h2 t ht
        simp only [List.dropLast_concat]
        exact ⟨⟨hy, fun _ _ => rfl, trivial⟩, by intro p hp; cases hp; exact fun _ => rfl⟩
    unfold linePieces
    exact ⟨chain_closed h1.1 (chain_closed h5.1 h4.1 h5.2) h1.2, closed_append h1.2 (closed_append h5.2 h4.2.2)⟩
  | len t => exact hnum "Len" t (by decide) h
  | cycleTime t p => exact hnum "CycleTime" t (by decide) h.1
  | type t =>
    exact ⟨⟨(by decide : "Type".toList ∈ keywords), next_key, (by decide : "=" ∈ literals), fun _ _ => rfl, h,
      next_newline, (by decide : isBlank '\n' = true), fun _ _ => rfl, trivial⟩, by
        intro p hp; cases hp; exact fun _ => rfl⟩
  | sig n t =>
    exact ⟨⟨(by decide : "Sig".toList ∈ keywords), next_key, (by decide : "=" ∈ literals), fun _ _ => rfl, h.1,
      fun _ _ => rfl, (by decide : isBlank ' ' = true), fun _ _ => rfl, h.2,
      next_newline, (by decide : isBlank '\n' = true), fun _ _ => rfl, trivial⟩, by
        intro p hp; cases hp; exact fun _ => rfl⟩
  | mux l =>
    obtain ⟨g1, g2, g3, ⟨x, hx, hex⟩, -, -⟩ := h
    have h1 : Chain [Piece.key "Mux", .lit "=", .str l.name, .sp ' ', .num l.start, .lit ",", .num l.length, .sp ' ',
        .hex l.id.dropLast, .sp ' '] ∧ Closed [Piece.key "Mux", .lit "=", .str l.name, .sp ' ', .num l.start, .lit ",",
          .num l.length, .sp ' ', .hex l.id.dropLast, .sp ' '] := by
      rw [hx]
      simp only [List.dropLast_concat]
      exact ⟨⟨(by decide : "Mux".toList ∈ keywords), next_key, (by decide : "=" ∈ literals), fun _ _ => rfl, g1,
        fun _ _ => rfl, (by decide : isBlank ' ' = true), fun _ _ => rfl, g2, (by intro c hc; cases hc; rfl),
        (by decide : "," ∈ literals), fun _ _ => rfl, g3, next_sp, (by decide : isBlank ' ' = true), fun _ _ => rfl,
        hex, fun _ _ => rfl, (by decide : isBlank ' ' = true), fun _ _ => rfl, trivial⟩, by
          intro p hp; cases hp; exact fun _ => rfl⟩
    have h2 : Chain (if l.flags = [] then [] else [Piece.lit "-m"]) ∧
        Closed (if l.flags = [] then [] else [Piece.lit "-m"]) := by
      split
      · exact ⟨trivial, closed_nil⟩
      · exact ⟨⟨(by decide : "-m" ∈ literals), fun _ _ => rfl, trivial⟩, by intro p hp; cases hp; exact fun _ => rfl⟩
    have h3 : Chain [Piece.sp '\n'] ∧ Closed [Piece.sp '\n'] :=
      ⟨⟨(by decide : isBlank '\n' = true), fun _ _ => rfl, trivial⟩, by intro p hp; cases hp; exact fun _ => rfl⟩
    unfold linePieces
    exact ⟨chain_closed h1.1 (chain_closed h2.1 h3.1 h2.2) h1.2, closed_append h1.2 (closed_append h2.2 h3.2)⟩
  | timeout => exact h.elim
  | minInterval => exact h.elim
  | color => exact h.elim
  | var => exact h.elim

theorem chain_newline : Chain [Piece.sp '\n'] ∧ Closed [Piece.sp '\n'] :=
  ⟨⟨(by decide : isBlank '\n' = true), fun _ _ => rfl, trivial⟩, by intro p hp; cases hp; exact fun _ => rfl⟩

theorem chain_block {b : Block} (h : BlockOk b) : Chain (blockPieces b) ∧ Closed (blockPieces b) := by
  have h1 : Chain [Piece.lit "[", .str b.name, .lit "]", .sp '\n'] ∧
      Closed [Piece.lit "[", .str b.name, .lit "]", .sp '\n'] :=
    ⟨⟨(by decide : "[" ∈ literals), fun _ _ => rfl, h.name, fun _ _ => rfl, (by decide : "]" ∈ literals),
      fun _ _ => rfl, (by decide : isBlank '\n' = true), fun _ _ => rfl, trivial⟩, by
        intro p hp; cases hp; exact fun _ => rfl⟩
  have h2 := chain_flatMap (fun l hl => (chain_line (h.lines l hl)).2) (fun l hl => (chain_line (h.lines l hl)).1)
  have h3 := closed_flatMap (f := linePieces) (fun l hl => (chain_line (h.lines l hl)).2)
  unfold blockPieces
  exact ⟨chain_closed h1.1 (chain_closed h2 chain_newline.1 h3) h1.2,
    closed_append h1.2 (closed_append h3 chain_newline.2)⟩

theorem chain_spaced {α : Type} {header : String} (hh : header ∈ literals) {f : α → List Piece} {l : List α}
    (h : ∀ a ∈ l, Chain (f a) ∧ Closed (f a)) :
    Chain (spacedPieces header f l) ∧ Closed (spacedPieces header f l) := by
  have h1 : Chain [Piece.lit header, .sp '\n'] ∧ Closed [Piece.lit header, .sp '\n'] :=
    ⟨⟨hh, fun _ _ => rfl, (by decide : isBlank '\n' = true), fun _ _ => rfl, trivial⟩, by
      intro p hp; cases hp; exact fun _ => rfl⟩
  have h2 := chain_flatMap (fun l hl => (h l hl).2) (fun l hl => (h l hl).1)
  have h3 := closed_flatMap fun l hl => (h l hl).2
  unfold spacedPieces
  split
  · exact ⟨⟨(by decide : isBlank '\n' = true), fun _ _ => rfl, (by decide : isBlank '\n' = true), fun _ _ => rfl, trivial⟩,
      by intro p hp; cases hp; exact fun _ => rfl⟩
  · exact ⟨chain_closed h1.1 (chain_closed h2 chain_newline.1 h3) h1.2,
      closed_append h1.2 (closed_append h3 chain_newline.2)⟩

theorem chain_section {α : Type} {header : String} (hh : header ∈ literals) {f : α → List Piece} {l : List α}
    (h : ∀ a ∈ l, Chain (f a) ∧ Closed (f a)) :
    Chain (sectionPieces header f l) ∧ Closed (sectionPieces header f l) := by
  have h1 : Chain [Piece.lit header, .sp '\n'] ∧ Closed [Piece.lit header, .sp '\n'] :=
    ⟨⟨hh, fun _ _ => rfl, (by decide : isBlank '\n' = true), fun _ _ => rfl, trivial⟩, by
      intro p hp; cases hp; exact fun _ => rfl⟩
  have h2 := chain_flatMap (fun l hl => (h l hl).2) (fun l hl => (h l hl).1)
  have h3 := closed_flatMap fun l hl => (h l hl).2
  unfold sectionPieces
  split
  · exact ⟨trivial, closed_nil⟩
  · exact ⟨chain_closed h1.1 h2 h1.2, closed_append h1.2 h3⟩

theorem isNum_version : IsNum "6.0".toList :=
  ⟨false, ['6'], some ['0'], none, by decide, ⟨by simp, by decide⟩, (by rintro f ⟨⟩; exact ⟨by simp, by decide⟩),
    (by rintro s e ⟨⟩)⟩

theorem chain_head : Chain headPieces ∧ Closed headPieces := by
  refine ⟨⟨(by decide : "FormatVersion".toList ∈ keywords), next_key, (by decide : "=" ∈ literals), fun _ _ => rfl,
    isNum_version, next_sp, (by decide : isBlank ' ' = true), fun _ _ => rfl,
    (by decide : '\n' ∉ " Do not edit this line!".toList), fun _ _ => rfl, (by decide : "Title".toList ∈ keywords), next_key,
    (by decide : "=" ∈ literals), fun _ _ => rfl, ⟨by decide, by decide⟩, fun _ _ => rfl,
    (by decide : isBlank '\n' = true), fun _ _ => rfl, (by decide : isBlank '\n' = true), fun _ _ => rfl, trivial⟩, ?_⟩
  intro p hp
  cases hp
  exact fun _ => rfl

theorem chain_content {c : Content} (h : ContentOk c) : Chain c.pieces := by
  have h1 := chain_spaced (header := "{ENUMS}") (by decide) fun e he => chain_enum (h.enums e he)
  have h2 := chain_spaced (header := "{SIGNALS}") (by decide) fun e he => chain_sig (h.signals e he)
  have h3 := chain_section (header := "{SEND}") (by decide) fun e he => chain_block (h.send e he)
  have h4 := chain_section (header := "{RECEIVE}") (by decide) fun e he => chain_block (h.receive e he)
  have h5 := chain_section (header := "{SENDRECEIVE}") (by decide) fun e he => chain_block (h.sendReceive e he)
  unfold Content.pieces
  exact chain_closed chain_head.1 (chain_closed h1.1 (chain_closed h2.1 (chain_closed h3.1
    (chain_closed h4.1 h5.1 h4.2) h3.2) h2.2) h1.2) chain_head.2

/-! ### Parsing -/

/-- As many times as there are things. -/
theorem many_of {α β : Type} {p : P α} {toks : β → List Tok} {val : β → α} {G : List Tok → Prop} {rest : List Tok}
    (hr : G rest) (hstop : p rest = none) : ∀ {l : List β},
    (∀ b ∈ l, ∀ r, G r → p (toks b ++ r) = some (val b, r)) → (∀ b ∈ l, ∀ r, G (toks b ++ r)) →
    (∀ b ∈ l, toks b ≠ []) → many p (l.flatMap toks ++ rest) = some (l.map val, rest) := by
  intro l h hG hne
  have key : ∀ (l : List β), (∀ b ∈ l, ∀ r, G r → p (toks b ++ r) = some (val b, r)) →
      (∀ b ∈ l, ∀ r, G (toks b ++ r)) → (∀ b ∈ l, toks b ≠ []) → ∀ fuel, (l.flatMap toks ++ rest).length ≤ fuel →
      G (l.flatMap toks ++ rest) ∧ manyLoop p fuel (l.flatMap toks ++ rest) = (l.map val, rest) := by
    intro l
    induction l with
    | nil =>
      intro _ _ _ fuel _
      refine ⟨hr, ?_⟩
      simp only [List.flatMap_nil, List.nil_append, List.map_nil]
      cases fuel with
      | zero => rfl
      | succ fuel => simp [manyLoop, hstop]
    | cons b l ih =>
      intro h hG hne fuel hf
      have ih := ih (fun x hx => h x (List.mem_cons_of_mem _ hx)) (fun x hx => hG x (List.mem_cons_of_mem _ hx))
        (fun x hx => hne x (List.mem_cons_of_mem _ hx))
      rw [List.flatMap_cons, List.append_assoc] at hf ⊢
      refine ⟨hG b (by simp) _, ?_⟩
      have hpos := List.length_pos_iff.2 (hne b (by simp))
      cases fuel with
      | zero => simp only [List.length_append] at hf; omega
      | succ fuel =>
        have := ih fuel (by simp only [List.length_append] at hf ⊢; omega)
        simp [manyLoop, h b (by simp) _ this.1, this.2]
  unfold many
  rw [(key l h hG hne _ (Nat.le_refl _)).2]

/-- The kinds of tokens that start a line. -/
def freshKinds : List String :=
  ["Sig", "ID", "Len", "Mux", "CycleTime", "Type", "Enum", "[", "{ENUMS}", "{SIGNALS}", "{SEND}", "{RECEIVE}",
   "{SENDRECEIVE}"]

/-- The next line starts here, or the text ends. -/
def Fresh (r : List Tok) : Prop := ∀ t, r.head? = some t → t.kind ∈ freshKinds

theorem tok_ne {k : String} {t : Tok} {r : List Tok} (h : t.kind ≠ k) : tok k (t :: r) = none := by
  simp [tok, h]

theorem tok_cons {k : String} {v : Chars} {r : List Tok} : tok k (⟨k, v⟩ :: r) = some (v, r) := by
  simp [tok]

theorem word_cons {v : Chars} {r : List Tok} : word (⟨"WORD", v⟩ :: r) = some (v, r) := by
  simp [word]

theorem tok_fresh {r : List Tok} (h : Fresh r) {k : String} (hk : k ∉ freshKinds) : tok k r = none := by
  cases r with
  | nil => rfl
  | cons t r =>
    have := h t rfl
    apply tok_ne
    rintro rfl
    exact hk this

theorem skip_none {α : Type} {k : String} {p : P α} {r : List Tok} (h : tok k r = none) : skip k p r = none := by
  simp [skip, andThen, h]

theorem andThen_none {α β : Type} {p : P α} {f : α → P β} {r : List Tok} (h : p r = none) : andThen p f r = none := by
  simp [andThen, h]

theorem opt_none {α : Type} {p : P α} {r : List Tok} (h : p r = none) : opt p r = some (none, r) := by
  simp [opt, h]

theorem opt_some {α : Type} {p : P α} {r r' : List Tok} {a : α} (h : p r = some (a, r')) :
    opt p r = some (some a, r') := by
  simp [opt, h]

theorem andThen_some {α β : Type} {p : P α} {f : α → P β} {r r' : List Tok} {a : α} (h : p r = some (a, r')) :
    andThen p f r = f a r' := by
  simp [andThen, h]

theorem skip_cons {α : Type} {p : P α} {r : List Tok} {t : Tok} : skip t.kind p (t :: r) = p r := by
  simp [skip, andThen, tok]

theorem oneOf_none {α : Type} {l : List (P α)} {r : List Tok} (h : ∀ p ∈ l, p r = none) : oneOf l r = none := by
  induction l with
  | nil => rfl
  | cons p l ih =>
    simp only [oneOf, orElse, h p (by simp)]
    exact ih fun q hq => h q (List.mem_cons_of_mem _ hq)

theorem oneOf_skip {α : Type} {p : P α} {l : List (P α)} {r : List Tok} (h : p r = none) :
    oneOf (p :: l) r = oneOf l r := by
  simp [oneOf, orElse, h]

theorem oneOf_hit {α : Type} {p : P α} {l : List (P α)} {r : List Tok} {x : α × List Tok} (h : p r = some x) :
    oneOf (p :: l) r = some x := by
  simp [oneOf, orElse, h]

theorem sigOption_fresh {r : List Tok} (h : ∀ k ∈ ["/u:", "/f:", "/o:", "/min:", "/max:", "/d:", "/ln:", "/e:", "/p:", "/spn:"],
    tok k r = none) : sigOption true r = none := by
  unfold sigOption
  apply oneOf_none
  intro p hp
  simp only [if_true, List.cons_append, List.nil_append, List.mem_cons, List.not_mem_nil, or_false] at hp
  rcases hp with rfl | rfl | rfl | rfl | rfl | rfl | rfl | rfl | rfl | rfl
  · exact andThen_none (h _ (by decide))
  all_goals exact skip_none (h _ (by decide))

/-- An option is read. -/
theorem opt_parse {o : SigOption} (h : OptOk o) (r : List Tok) :
    sigOption true (toksOf (optPieces o) ++ r) = some (o, r) := by
  cases o with
  | unit t =>
    obtain ⟨u, rfl, -⟩ := h
    simp only [optPieces, unitText_drop]
    simp [sigOption, oneOf, orElse, toksOf, Piece.tok, andThen, tok, result, unitText]
  | ignored => exact h.elim
  | enum n =>
    simp [sigOption, oneOf, orElse, toksOf, optPieces, Piece.tok, andThen, tok, result, skip, word]
  | _ => simp [sigOption, oneOf, orElse, toksOf, optPieces, Piece.tok, andThen, tok, result, skip]

theorem opt_toks_ne {o : SigOption} (h : OptOk o) : toksOf (optPieces o) ≠ [] := by
  cases o <;> first | exact h.elim | simp [toksOf, optPieces, Piece.tok]

/-- What may follow an option. -/
def AfterOption (r : List Tok) : Prop := ∀ t, r.head? = some t →
  t.kind ∈ freshKinds ∨ t.kind = "COMMENT" ∨ t.kind ∈ ["/u:", "/f:", "/o:", "/min:", "/max:", "/e:", "/spn:"]

theorem toksOf_flatMap {α : Type} (l : List α) (f : α → List Piece) :
    toksOf (l.flatMap f) = l.flatMap fun a => toksOf (f a) := by
  induction l with
  | nil => rfl
  | cons a l ih => rw [List.flatMap_cons, toksOf_append, ih, List.flatMap_cons]

theorem end_parse {c : Option Chars} (h : CommentOk c) {r : List Tok} (hr : Fresh r) :
    opt (tok "COMMENT") (toksOf (endPieces c) ++ r) = some (c, r) := by
  cases c with
  | none =>
    simp only [endPieces, toksOf, Piece.tok, List.flatMap_cons, List.flatMap_nil, List.append_nil, List.nil_append]
    exact opt_none (tok_fresh hr (by decide))
  | some t =>
    obtain ⟨b, rfl, hb⟩ := h t rfl
    simp only [endPieces, commentText_drop]
    simp [toksOf, Piece.tok, opt, tok, commentText]

theorem head_end {c : Option Chars} {r : List Tok} (hr : Fresh r) : ∀ t, (toksOf (endPieces c) ++ r).head? = some t →
    t.kind ∈ freshKinds ∨ t.kind = "COMMENT" := by
  intro t ht
  cases c with
  | none => exact Or.inl (hr t ht)
  | some => cases ht; exact Or.inr rfl

theorem options_parse {l : List SigOption} (h : ∀ o ∈ l, OptOk o) {c : Option Chars} {r : List Tok} (hr : Fresh r) :
    many (sigOption true) (toksOf (l.flatMap optPieces) ++ (toksOf (endPieces c) ++ r)) =
      some (l, toksOf (endPieces c) ++ r) := by
  rw [toksOf_flatMap]
  have := many_of (G := fun _ => True) (val := id) trivial (sigOption_fresh (r := toksOf (endPieces c) ++ r) (by
      intro k hk
      cases hx : toksOf (endPieces c) ++ r with
      | nil => rfl
      | cons t r' =>
        apply tok_ne
        rintro rfl
        rcases head_end hr t (by rw [hx]; rfl) with hf | hf
        · have : ∀ k ∈ ["/u:", "/f:", "/o:", "/min:", "/max:", "/d:", "/ln:", "/e:", "/p:", "/spn:"], k ∉ freshKinds := by
            decide
          exact this _ hk hf
        · rw [hf] at hk; exact absurd hk (by decide)))
    (l := l) (fun o ho r _ => opt_parse (h o ho) r) (fun _ _ _ => trivial) fun o ho => opt_toks_ne (h o ho)
  simpa using this

theorem sig_parse {l : SigLine} (h : SigOk l) {r : List Tok} (hr : Fresh r) :
    sigLine (toksOf (sigPieces l) ++ r) = some (l, r) := by
  obtain ⟨n, hn, -⟩ := h.length
  have h1 := options_parse h.options (c := l.comment) hr
  have h2 := end_parse h.comment hr
  have h3 : ∀ k ∉ freshKinds, k ≠ "COMMENT" → k ∉ ["/u:", "/f:", "/o:", "/min:", "/max:", "/e:", "/spn:"] →
      tok k (toksOf (l.options.flatMap optPieces) ++ (toksOf (endPieces l.comment) ++ r)) = none := by
    intro k hk1 hk2 hk3
    cases hx : toksOf (l.options.flatMap optPieces) ++ (toksOf (endPieces l.comment) ++ r) with
    | nil => rfl
    | cons t r' =>
      apply tok_ne
      rintro rfl
      cases ho : l.options with
      | nil =>
        rw [ho] at hx
        rcases head_end hr t (by rw [List.flatMap_nil, toksOf_nil, List.nil_append] at hx; rw [hx]; rfl) with hf | hf
        · exact hk1 hf
        · exact hk2 hf
      | cons o os =>
        rw [ho, List.flatMap_cons, toksOf_append] at hx
        have := h.options o (by rw [ho]; simp)
        cases o with
        | ignored => exact this.elim
        | _ =>
          simp only [optPieces, toksOf, Piece.tok, List.flatMap_cons, List.flatMap_nil, List.nil_append, List.append_nil,
            List.cons_append, List.cons.injEq] at hx
          rw [← hx.1] at hk3
          exact hk3 (by simp)
  unfold sigPieces
  rw [toksOf_append, hn]
  simp only [List.append_assoc, toksOf_append]
  have e0 : toksOf [Piece.key "Sig", .lit "=", .str l.name, .sp ' ', .word l.type, .sp ' ', .num ((some n).getD [])] =
    [⟨"Sig", "Sig".toList⟩, ⟨"=", "=".toList⟩, ⟨"STRING", l.name⟩, ⟨"WORD", l.type⟩, ⟨"NUMBER", n⟩] := rfl
  rw [e0]
  simp only [List.cons_append, List.nil_append]
  unfold sigLine
  rw [skip_cons (t := ⟨"Sig", _⟩), skip_cons (t := ⟨"=", _⟩), andThen_some (p := anyTok) rfl, andThen_some word_cons, andThen_some (opt_some tok_cons)]
  have hm : ∀ X : Option Chars → P SigLine, andThen (opt (oneOf [tok "-h", tok "-b"])) (fun _ => andThen (opt (tok "-m")) X)
      (toksOf (if l.motorola then [Piece.sp ' ', .lit "-m"] else []) ++
        (toksOf (l.options.flatMap optPieces) ++ (toksOf (endPieces l.comment) ++ r))) =
      X (if l.motorola then some "-m".toList else none)
        (toksOf (l.options.flatMap optPieces) ++ (toksOf (endPieces l.comment) ++ r)) := by
    intro X
    split
    · simp [andThen, opt, oneOf, orElse, tok, toksOf, Piece.tok]
    · simp only [toksOf_nil, List.nil_append]
      rw [andThen_some (opt_none (oneOf_none (by
        intro p hp
        simp only [List.mem_cons, List.not_mem_nil, or_false] at hp
        rcases hp with rfl | rfl
        · exact h3 _ (by decide) (by decide) (by decide)
        · exact h3 _ (by decide) (by decide) (by decide)))),
        andThen_some (opt_none (h3 _ (by decide) (by decide) (by decide)))]
  rw [hm, andThen_some h1, andThen_some h2]
  unfold result
  congr 2
  cases l
  simp only at hn
  subst hn
  simp only [SigLine.mk.injEq, true_and, and_true]
  split <;> simp_all

theorem value_parse {v : Chars × Chars} (r : List Tok) :
    enumValue (⟨"NUMBER", v.1⟩ :: ⟨"=", "=".toList⟩ :: ⟨"STRING", v.2⟩ :: r) = some (v, r) := by
  simp [enumValue, andThen, skip, tok, result]

theorem values_toks (l : List (Chars × Chars)) : ∀ k, toksOf (valuePieces (k + 1) l) =
    l.flatMap fun v => [⟨",", ",".toList⟩, ⟨"NUMBER", v.1⟩, ⟨"=", "=".toList⟩, ⟨"STRING", v.2⟩] := by
  induction l with
  | nil => intro k; rfl
  | cons v l ih =>
    intro k
    unfold valuePieces
    rw [toksOf_append, toksOf_append, ih, List.flatMap_cons]
    have : toksOf (if (k + 1) % 10 = 0 ∧ k + 1 ≠ 0 then [Piece.lit ",", .sp '\n'] else
        if 0 < k + 1 then [.lit ",", .sp ' '] else []) = [⟨",", ",".toList⟩] := by
      split
      · rfl
      · rw [if_pos (by omega)]; rfl
    rw [this]
    rfl

theorem enum_parse {l : EnumLine} {r : List Tok} (hr : Fresh r) :
    enumLine (toksOf (enumPieces l) ++ r) = some (l, r) := by
  unfold enumPieces
  rw [toksOf_append, toksOf_append]
  have e0 : toksOf [Piece.key "Enum", .lit "=", .word l.name, .lit "("] =
    [⟨"Enum", "Enum".toList⟩, ⟨"=", "=".toList⟩, ⟨"WORD", l.name⟩, ⟨"(", "(".toList⟩] := rfl
  have e1 : toksOf [Piece.lit ")", .sp '\n'] = [⟨")", ")".toList⟩] := rfl
  rw [e0, e1]
  simp only [List.cons_append, List.nil_append, List.append_assoc]
  unfold enumLine
  rw [skip_cons (t := ⟨"Enum", _⟩), skip_cons (t := ⟨"=", _⟩), andThen_some word_cons,
    skip_cons (t := ⟨"(", _⟩)]
  have hend : ∀ X : Chars × Chars → List Tok, True := fun _ => trivial
  cases hv : l.values with
  | nil =>
    simp only [valuePieces, toksOf_nil, List.nil_append]
    rw [andThen_some (opt_none (andThen_none (by simp [enumValue, andThen, tok]))), skip_cons (t := ⟨")", _⟩),
      andThen_some (opt_none (tok_fresh hr (by decide)))]
    unfold result
    cases l
    simp_all
  | cons v vs =>
    unfold valuePieces
    rw [toksOf_append, toksOf_append, values_toks]
    have e2 : toksOf (if 0 % 10 = 0 ∧ 0 ≠ 0 then [Piece.lit ",", .sp '\n'] else
        if 0 < 0 then [.lit ",", .sp ' '] else []) = [] := rfl
    have e3 : toksOf [Piece.num v.1, .lit "=", .str v.2] =
      [⟨"NUMBER", v.1⟩, ⟨"=", "=".toList⟩, ⟨"STRING", v.2⟩] := rfl
    rw [e2, e3]
    simp only [List.cons_append, List.nil_append]
    have := many_of (p := skip "," (andThen (opt (tok "COMMENT")) fun _ => enumValue)) (G := fun _ => True)
      (rest := ⟨")", ")".toList⟩ :: r) (val := id) trivial (by simp [skip, andThen, tok])
      (toks := fun v : Chars × Chars =>
        [⟨",", ",".toList⟩, ⟨"NUMBER", v.1⟩, ⟨"=", "=".toList⟩, ⟨"STRING", v.2⟩]) (l := vs)
      (fun v _ r _ => by simp [skip, andThen, tok, opt, enumValue, result]) (fun _ _ _ => trivial)
      (fun _ _ => by simp)
    rw [andThen_some (opt_some ((andThen_some (value_parse _)).trans (andThen_some this)))]
    simp only [List.map_id]
    rw [skip_cons (t := ⟨")", _⟩), andThen_some (opt_none (tok_fresh hr (by decide)))]
    unfold result
    cases l
    simp_all

theorem hexOk_tok {t : Chars} (h : HexOk t) : toksOf [Piece.hex t.dropLast] = [⟨"HEXNUMBER", t⟩] := by
  obtain ⟨x, rfl, -⟩ := h
  simp [toksOf, Piece.tok]

theorem id_parse {l : IdLine} (h1 : HexOk l.first) (h2 : ∀ t, l.last = some t → HexOk t) (h3 : CommentOk l.comment)
    {r : List Tok} (hr : Fresh r) : idLine (toksOf (linePieces (.id l)) ++ r) = some (l, r) := by
  have he := end_parse h3 hr
  have hh := head_end (c := l.comment) hr
  simp only [linePieces, toksOf_append, List.append_assoc]
  have e0 : toksOf [Piece.key "ID", .lit "=", .hex l.first.dropLast] =
      [⟨"ID", "ID".toList⟩, ⟨"=", "=".toList⟩, ⟨"HEXNUMBER", l.first⟩] := by
    change toksOf [Piece.key "ID", .lit "="] ++ toksOf [Piece.hex l.first.dropLast] = _
    rw [hexOk_tok h1]; rfl
  rw [e0]
  simp only [List.cons_append, List.nil_append]
  unfold idLine
  rw [skip_cons (t := ⟨"ID", _⟩), skip_cons (t := ⟨"=", _⟩), andThen_some tok_cons]
  cases hl : l.last with
  | none =>
    simp only [toksOf_nil, List.nil_append]
    rw [andThen_some (opt_none (by
      cases hx : toksOf (endPieces l.comment) ++ r with
      | nil => rfl
      | cons t r' =>
        apply tok_ne
        intro hk
        rcases hh t (by rw [hx]; rfl) with hf | hf
        · rw [hk] at hf; exact absurd hf (by decide)
        · rw [hk] at hf; exact absurd hf (by decide))), andThen_some he]
    cases l
    simp_all [result]
  | some t =>
    dsimp only
    rw [hexOk_tok (h2 t hl)]
    simp only [List.cons_append, List.nil_append]
    rw [andThen_some (opt_some tok_cons), andThen_some he]
    cases l
    simp_all [result]

theorem mux_parse {l : MuxLine} (h : HexOk l.id) (hf : l.flags = [] ∨ l.flags = ["-m".toList]) (hc : l.comment = none)
    {r : List Tok} (hr : Fresh r) : muxLine (toksOf (linePieces (.mux l)) ++ r) = some (l, r) := by
  simp only [linePieces, toksOf_append, List.append_assoc]
  have e0 : toksOf [Piece.key "Mux", .lit "=", .str l.name, .sp ' ', .num l.start, .lit ",", .num l.length, .sp ' ',
      .hex l.id.dropLast, .sp ' '] = [⟨"Mux", "Mux".toList⟩, ⟨"=", "=".toList⟩, ⟨"STRING", l.name⟩,
        ⟨"NUMBER", l.start⟩, ⟨",", ",".toList⟩, ⟨"NUMBER", l.length⟩, ⟨"HEXNUMBER", l.id⟩] := by
    change toksOf [Piece.key "Mux", .lit "=", .str l.name, .sp ' ', .num l.start, .lit ",", .num l.length, .sp ' '] ++
      toksOf [Piece.hex l.id.dropLast] = _
    rw [hexOk_tok h]; rfl
  have e1 : toksOf [Piece.sp '\n'] = [] := rfl
  rw [e0, e1]
  simp only [List.cons_append, List.nil_append]
  unfold muxLine
  rw [skip_cons (t := ⟨"Mux", _⟩), skip_cons (t := ⟨"=", _⟩), andThen_some (p := anyTok) rfl,
    andThen_some tok_cons, skip_cons (t := ⟨",", _⟩),
    andThen_some tok_cons, andThen_some (a := l.id) (r' := toksOf (if l.flags = [] then [] else [Piece.lit "-m"]) ++ r) (by
      simp [tok, oneOf, orElse])]
  have hstop : oneOf [tok "-t", tok "-m"] r = none := oneOf_none (by
    intro p hp
    simp only [List.mem_cons, List.not_mem_nil, or_false] at hp
    rcases hp with rfl | rfl
    · exact tok_fresh hr (by decide)
    · exact tok_fresh hr (by decide))
  have hm : many (oneOf [tok "-t", tok "-m"]) (toksOf (if l.flags = [] then [] else [Piece.lit "-m"]) ++ r) =
      some (l.flags, r) := by
    have := many_of (p := oneOf [tok "-t", tok "-m"]) (G := fun _ => True) trivial hstop
      (toks := fun f : Chars => [⟨"-m", f⟩]) (val := id) (l := l.flags)
      (fun f _ r _ => by simp [oneOf, orElse, tok]) (fun _ _ _ => trivial) (fun _ _ => by simp)
    rcases hf with hf | hf
    · rw [hf] at this ⊢; simpa using this
    · rw [hf] at this ⊢; simpa [toksOf, Piece.tok] using this
  rw [andThen_some hm, andThen_some (opt_none (tok_fresh hr (by decide)))]
  cases l
  simp_all [result]

theorem line_parse {l : Line} (h : LineOk l) {r : List Tok} (hr : Fresh r) :
    line (toksOf (linePieces l) ++ r) = some (l, r) := by
  cases l with
  | id l =>
    have := id_parse h.1 h.2.1 h.2.2 hr
    unfold line oneOf orElse
    rw [andThen_some this]
    rfl
  | mux l =>
    obtain ⟨-, -, -, h1, h2, h3⟩ := h
    have := mux_parse h1 h2 h3 hr
    obtain ⟨t, hx⟩ : ∃ t, toksOf (linePieces (.mux l)) ++ r = ⟨"Mux", "Mux".toList⟩ :: t := ⟨_, rfl⟩
    unfold line
    simp only [oneOf, orElse]
    have g1 : andThen idLine (fun l => result (Line.id l)) (toksOf (linePieces (.mux l)) ++ r) = none := by
      rw [hx]; simp [andThen, idLine, skip, tok]
    have g2 : (skip "Len" <| skip "=" <| andThen (tok "NUMBER") fun t => result (Line.len t))
        (toksOf (linePieces (.mux l)) ++ r) = none := by
      rw [hx]; simp [andThen, skip, tok]
    rw [g1, g2, andThen_some this]
    rfl
  | len t => simp [line, oneOf, orElse, andThen, idLine, skip, tok, linePieces, toksOf, Piece.tok, result]
  | cycleTime t p =>
    have := tok_fresh hr (k := "-p") (by decide)
    obtain ⟨-, rfl⟩ := h
    have ho := opt_none this
    simp only [linePieces, toksOf, Piece.tok, List.flatMap_cons, List.flatMap_nil, List.nil_append, List.append_nil,
      List.cons_append]
    unfold line
    rw [oneOf_skip (andThen_none (p := idLine) (skip_none (tok_ne (by decide)))), oneOf_skip (skip_none (tok_ne (by decide))),
      oneOf_skip (andThen_none (p := muxLine) (skip_none (tok_ne (by decide))))]
    apply oneOf_hit
    rw [skip_cons (t := ⟨"CycleTime", _⟩), skip_cons (t := ⟨"=", _⟩), andThen_some tok_cons, andThen_some ho]
    rfl
  | sig n t =>
    simp [line, oneOf, orElse, andThen, idLine, muxLine, varLine, skip, tok, linePieces, toksOf, Piece.tok, result, anyTok]
  | type t =>
    simp [line, oneOf, orElse, andThen, idLine, muxLine, varLine, skip, tok, linePieces, toksOf, Piece.tok, result, anyTok]
  | timeout => exact h.elim
  | minInterval => exact h.elim
  | color => exact h.elim
  | var => exact h.elim

/-- What may follow a line. -/
theorem line_fresh {l : Line} (h : LineOk l) (r : List Tok) : Fresh (toksOf (linePieces l) ++ r) := by
  intro t ht
  cases l with
  | timeout => exact h.elim
  | minInterval => exact h.elim
  | color => exact h.elim
  | var => exact h.elim
  | _ => cases ht; decide

/-- What may follow a message. -/
def AfterBlock (r : List Tok) : Prop := ∀ t, r.head? = some t →
  t.kind ∈ ["[", "{SEND}", "{RECEIVE}", "{SENDRECEIVE}"]

theorem line_none {r : List Tok} (h : AfterBlock r) : line r = none := by
  cases r with
  | nil => rfl
  | cons t r =>
    have ht := h t rfl
    have hk : ∀ k ∈ ["ID", "Len", "Mux", "CycleTime", "Timeout", "MinInterval", "Color", "Var", "Sig", "Type"],
        tok k (t :: r) = none := by
      intro k hk
      apply tok_ne
      rintro rfl
      have : ∀ k ∈ ["ID", "Len", "Mux", "CycleTime", "Timeout", "MinInterval", "Color", "Var", "Sig", "Type"],
        k ∉ ["[", "{SEND}", "{RECEIVE}", "{SENDRECEIVE}"] := by decide
      exact this _ hk ht
    unfold line
    apply oneOf_none
    intro p hp
    simp only [List.mem_cons, List.not_mem_nil, or_false] at hp
    rcases hp with rfl | rfl | rfl | rfl | rfl | rfl | rfl | rfl | rfl | rfl
    · exact andThen_none (skip_none (hk _ (by decide)))
    · exact skip_none (hk _ (by decide))
    · exact andThen_none (skip_none (hk _ (by decide)))
    · exact skip_none (hk _ (by decide))
    · exact skip_none (hk _ (by decide))
    · exact skip_none (hk _ (by decide))
    · exact skip_none (hk _ (by decide))
    · exact andThen_none (skip_none (hk _ (by decide)))
    · exact skip_none (hk _ (by decide))
    · exact skip_none (hk _ (by decide))

theorem afterBlock_fresh {r : List Tok} (h : AfterBlock r) : Fresh r := by
  intro t ht
  have := h t ht
  have g : ∀ k ∈ ["[", "{SEND}", "{RECEIVE}", "{SENDRECEIVE}"], k ∈ freshKinds := by decide
  exact g _ this

theorem block_parse {b : Block} (h : BlockOk b) {r : List Tok} (hr : AfterBlock r) :
    block (toksOf (blockPieces b) ++ r) = some (b, r) := by
  unfold blockPieces
  rw [toksOf_append, toksOf_append, toksOf_flatMap]
  have e0 : toksOf [Piece.lit "[", .str b.name, .lit "]", .sp '\n'] =
    [⟨"[", "[".toList⟩, ⟨"STRING", b.name⟩, ⟨"]", "]".toList⟩] := rfl
  have e1 : toksOf [Piece.sp '\n'] = [] := rfl
  rw [e0, e1]
  simp only [List.cons_append, List.nil_append, List.append_nil]
  unfold block
  have := many_of (p := line) (G := Fresh) (afterBlock_fresh hr) (line_none hr)
    (toks := fun l => toksOf (linePieces l)) (val := id) (l := b.lines)
    (fun l hl r hr => line_parse (h.lines l hl) hr) (fun l hl r => line_fresh (h.lines l hl) r)
    (fun l hl => by
      have := h.lines l hl
      cases l <;> first | exact this.elim | simp [linePieces, toksOf, Piece.tok])
  rw [skip_cons (t := ⟨"[", _⟩), andThen_some (p := anyTok) rfl, skip_cons (t := ⟨"]", _⟩), andThen_some this]
  cases b
  simp [result]

/-- The rows of a section. -/
theorem rows_of {α : Type} {p : P α} {f : α → List Piece} {l : List α} {G : List Tok → Prop} {rest : List Tok}
    (hr : G rest) (hstop : p rest = none) (hc : tok "COMMENT" rest = none)
    (h : ∀ a ∈ l, ∀ r, G r → p (toksOf (f a) ++ r) = some (a, r)) (hG : ∀ a ∈ l, ∀ r, G (toksOf (f a) ++ r))
    (hne : ∀ a ∈ l, toksOf (f a) ≠ []) : rows p (toksOf (l.flatMap f) ++ rest) = some (l.map some, rest) := by
  unfold rows
  rw [toksOf_flatMap]
  apply many_of (G := G) hr
  · exact oneOf_none (by
      intro q hq
      simp only [List.mem_cons, List.not_mem_nil, or_false] at hq
      rcases hq with rfl | rfl
      · exact andThen_none hstop
      · exact andThen_none hc)
  · intro a ha r hr'
    simp [oneOf, orElse, andThen, h a ha r hr', result]
  · exact hG
  · exact hne

/-- The start of a section, or the end of the text. -/
def AtSection (r : List Tok) : Prop := ∀ t, r.head? = some t →
  t.kind ∈ ["{ENUMS}", "{SIGNALS}", "{SEND}", "{RECEIVE}", "{SENDRECEIVE}"]

theorem tok_section {r : List Tok} (h : AtSection r) {k : String}
    (hk : k ∉ ["{ENUMS}", "{SIGNALS}", "{SEND}", "{RECEIVE}", "{SENDRECEIVE}"]) : tok k r = none := by
  cases r with
  | nil => rfl
  | cons t r =>
    apply tok_ne
    rintro rfl
    exact hk (h t rfl)

theorem atSection_fresh {r : List Tok} (h : AtSection r) : Fresh r := by
  intro t ht
  have g : ∀ k ∈ ["{ENUMS}", "{SIGNALS}", "{SEND}", "{RECEIVE}", "{SENDRECEIVE}"], k ∈ freshKinds := by decide
  exact g _ (h t ht)

theorem enums_rows {l : List EnumLine} {r : List Tok} (hr : AtSection r) :
    rows enumLine (toksOf (l.flatMap enumPieces) ++ r) = some (l.map some, r) :=
  rows_of (G := Fresh) (atSection_fresh hr) (skip_none (tok_section hr (by decide))) (tok_section hr (by decide))
    (fun _ _ _ h => enum_parse h) (fun e _ r t ht => by cases ht; decide)
    (fun e _ => by simp [enumPieces, toksOf, Piece.tok])

theorem signals_rows {l : List SigLine} (h : ∀ s ∈ l, SigOk s) {r : List Tok} (hr : AtSection r) :
    rows sigLine (toksOf (l.flatMap sigPieces) ++ r) = some (l.map some, r) :=
  rows_of (G := Fresh) (atSection_fresh hr) (skip_none (tok_section hr (by decide))) (tok_section hr (by decide))
    (fun s hs _ h' => sig_parse (h s hs) h') (fun e _ r t ht => by cases ht; decide)
    (fun e _ => by simp [sigPieces, toksOf, Piece.tok])

theorem blocks_rows {l : List Block} (h : ∀ b ∈ l, BlockOk b) {r : List Tok} (hr : AtSection r)
    (hr' : AfterBlock r) : rows block (toksOf (l.flatMap blockPieces) ++ r) = some (l.map some, r) :=
  rows_of (G := AfterBlock) hr' (skip_none (tok_section hr (by decide))) (tok_section hr (by decide))
    (fun b hb _ h' => block_parse (h b hb) h') (fun e _ r t ht => by cases ht; decide)
    (fun e _ => by simp [blockPieces, toksOf, Piece.tok])

/-- The section of a kind of rows, if there are some. -/
def sectionsOf {α : Type} (f : List (Option α) → Section) (l : List α) : List Section :=
  if l.isEmpty then [] else [f (l.map some)]

/-- The sections of a file. -/
def Content.sections (c : Content) : List Section :=
  sectionsOf .enums c.enums ++ (sectionsOf .signals c.signals ++ (sectionsOf .send c.send ++
    (sectionsOf .receive c.receive ++ sectionsOf .sendReceive c.sendReceive)))

/-- One section more. -/
theorem sections_step {α : Type} {f : List (Option α) → Section} {l : List α} {header : String} {g : α → List Piece}
    {rest : List Tok} {more : List Section} (s : List Piece) (hs : toksOf s = toksOf (sectionPieces header g l))
    (hrest : manyLoop section_ rest.length rest = (more, []))
    (hstep : l ≠ [] → section_ (⟨header, header.toList⟩ :: (toksOf (l.flatMap g) ++ rest)) = some (f (l.map some), rest)) :
    manyLoop section_ (toksOf s ++ rest).length (toksOf s ++ rest) = (sectionsOf f l ++ more, []) := by
  rw [hs]
  unfold sectionPieces sectionsOf
  cases l with
  | nil => simpa using hrest
  | cons a l =>
    have h := hstep (by simp)
    simp only [List.isEmpty_cons, Bool.false_eq_true, if_false]
    have e : toksOf ([Piece.lit header, .sp '\n'] ++ (a :: l).flatMap g) =
      ⟨header, header.toList⟩ :: toksOf ((a :: l).flatMap g) := rfl
    rw [e]
    simp only [List.cons_append, List.length_cons, manyLoop]
    rw [h]
    have hfuel : ∀ (n : Nat) (s : List Tok), s.length ≤ n → manyLoop section_ s.length s = (more, []) →
        manyLoop section_ n s = (more, []) := by
      intro n s hn hs
      have key : ∀ (m : Nat) (s : List Tok) (x : List Section), manyLoop section_ m s = (x, []) →
          ∀ n, m ≤ n → manyLoop section_ n s = (x, []) := by
        intro m
        induction m with
        | zero =>
          intro s x hx n _
          simp only [manyLoop, Prod.mk.injEq] at hx
          obtain ⟨rfl, rfl⟩ := hx
          cases n <;> rfl
        | succ m ih =>
          intro s x hx n hn
          cases n with
          | zero => omega
          | succ n =>
            simp only [manyLoop] at hx ⊢
            cases hp : section_ s with
            | none => rw [hp] at hx; exact hx
            | some y =>
              obtain ⟨a, r⟩ := y
              rw [hp] at hx
              dsimp only at hx ⊢
              have h2 : (manyLoop section_ m r).2 = [] := by
                simp only [Prod.mk.injEq] at hx; exact hx.2
              have := ih r (manyLoop section_ m r).1 (by rw [← h2]) n (by omega)
              rw [this]
              simp only [Prod.mk.injEq] at hx ⊢
              exact ⟨hx.1, trivial⟩
      exact key _ s more hs n hn
    dsimp only
    rw [hfuel _ rest (by rw [List.length_append]; omega) hrest]
    rfl

theorem toks_spaced {α : Type} (header : String) (f : α → List Piece) (l : List α) :
    toksOf (spacedPieces header f l) = toksOf (sectionPieces header f l) := by
  unfold spacedPieces sectionPieces
  split
  · rfl
  · rw [toksOf_append, toksOf_append, toksOf_append]
    have : toksOf [Piece.sp '\n'] = [] := rfl
    rw [this, List.append_nil]

theorem atSection_pieces {α : Type} {header : String} {f : α → List Piece} {l : List α} {r : List Tok}
    (hh : header ∈ ["{ENUMS}", "{SIGNALS}", "{SEND}", "{RECEIVE}", "{SENDRECEIVE}"]) (hr : AtSection r) :
    AtSection (toksOf (sectionPieces header f l) ++ r) := by
  unfold sectionPieces
  split
  · exact hr
  · intro t ht; cases ht; exact hh

theorem afterBlock_pieces {α : Type} {header : String} {f : α → List Piece} {l : List α} {r : List Tok}
    (hh : header ∈ ["[", "{SEND}", "{RECEIVE}", "{SENDRECEIVE}"]) (hr : AfterBlock r) :
    AfterBlock (toksOf (sectionPieces header f l) ++ r) := by
  unfold sectionPieces
  split
  · exact hr
  · intro t ht; cases ht; exact hh

theorem section_enums {v : Chars} {R rest : List Tok} {l : List (Option EnumLine)}
    (h : rows enumLine R = some (l, rest)) : section_ (⟨"{ENUMS}", v⟩ :: R) = some (.enums l, rest) := by
  unfold section_
  apply oneOf_hit
  rw [skip_cons (t := ⟨"{ENUMS}", _⟩), andThen_some h]
  rfl

theorem section_signals {v : Chars} {R rest : List Tok} {l : List (Option SigLine)}
    (h : rows sigLine R = some (l, rest)) : section_ (⟨"{SIGNALS}", v⟩ :: R) = some (.signals l, rest) := by
  unfold section_
  rw [oneOf_skip (skip_none (tok_ne (by simp)))]
  apply oneOf_hit
  rw [skip_cons (t := ⟨"{SIGNALS}", _⟩), andThen_some h]
  rfl

theorem section_send {v : Chars} {R rest : List Tok} {l : List (Option Block)}
    (h : rows block R = some (l, rest)) : section_ (⟨"{SEND}", v⟩ :: R) = some (.send l, rest) := by
  unfold section_
  rw [oneOf_skip (skip_none (tok_ne (by simp))), oneOf_skip (skip_none (tok_ne (by simp)))]
  apply oneOf_hit
  rw [skip_cons (t := ⟨"{SEND}", _⟩), andThen_some h]
  rfl

theorem section_receive {v : Chars} {R rest : List Tok} {l : List (Option Block)}
    (h : rows block R = some (l, rest)) : section_ (⟨"{RECEIVE}", v⟩ :: R) = some (.receive l, rest) := by
  unfold section_
  rw [oneOf_skip (skip_none (tok_ne (by simp))), oneOf_skip (skip_none (tok_ne (by simp))),
    oneOf_skip (skip_none (tok_ne (by simp)))]
  apply oneOf_hit
  rw [skip_cons (t := ⟨"{RECEIVE}", _⟩), andThen_some h]
  rfl

theorem section_sendReceive {v : Chars} {R rest : List Tok} {l : List (Option Block)}
    (h : rows block R = some (l, rest)) : section_ (⟨"{SENDRECEIVE}", v⟩ :: R) = some (.sendReceive l, rest) := by
  unfold section_
  rw [oneOf_skip (skip_none (tok_ne (by simp))), oneOf_skip (skip_none (tok_ne (by simp))),
    oneOf_skip (skip_none (tok_ne (by simp))), oneOf_skip (skip_none (tok_ne (by simp)))]
  apply oneOf_hit
  rw [skip_cons (t := ⟨"{SENDRECEIVE}", _⟩), andThen_some h]
  rfl

/-- What is written is read. -/
theorem content_parse {c : Content} (h : ContentOk c) :
    parse (toksOf c.pieces) = .ok { version := "6.0".toList, sections := c.sections } := by
  have s0 : AtSection [] := by intro t ht; cases ht
  have b0 : AfterBlock [] := by intro t ht; cases ht
  have s1 := atSection_pieces (header := "{SENDRECEIVE}") (f := blockPieces) (l := c.sendReceive) (by decide) s0
  have b1 := afterBlock_pieces (header := "{SENDRECEIVE}") (f := blockPieces) (l := c.sendReceive) (by decide) b0
  have s2 := atSection_pieces (header := "{RECEIVE}") (f := blockPieces) (l := c.receive) (by decide) s1
  have b2 := afterBlock_pieces (header := "{RECEIVE}") (f := blockPieces) (l := c.receive) (by decide) b1
  have s3 := atSection_pieces (header := "{SEND}") (f := blockPieces) (l := c.send) (by decide) s2
  have s4 := atSection_pieces (header := "{SIGNALS}") (f := sigPieces) (l := c.signals) (by decide) s3
  have s5 := atSection_pieces (header := "{ENUMS}") (f := enumPieces) (l := c.enums) (by decide) s4
  have m0 : manyLoop section_ ([] : List Tok).length [] = ([], []) := rfl
  have m1 := sections_step (f := .sendReceive) _ rfl m0 (l := c.sendReceive) (header := "{SENDRECEIVE}") (g := blockPieces)
    fun _ => section_sendReceive (blocks_rows h.sendReceive s0 b0)
  have m2 := sections_step (f := .receive) _ rfl m1 (l := c.receive) (header := "{RECEIVE}") (g := blockPieces)
    fun _ => section_receive (blocks_rows h.receive s1 b1)
  have m3 := sections_step (f := .send) _ rfl m2 (l := c.send) (header := "{SEND}") (g := blockPieces)
    fun _ => section_send (blocks_rows h.send s2 b2)
  have m4 := sections_step (f := .signals) _ (toks_spaced _ _ _) m3 (l := c.signals) (header := "{SIGNALS}") (g := sigPieces)
    fun _ => section_signals (signals_rows h.signals s3)
  have m5 := sections_step (f := .enums) _ (toks_spaced _ _ _) m4 (l := c.enums) (header := "{ENUMS}") (g := enumPieces)
    fun _ => by
      rw [toks_spaced]
      exact section_enums (enums_rows s4)
  have e0 : toksOf headPieces = [⟨"FormatVersion", "FormatVersion".toList⟩, ⟨"=", "=".toList⟩, ⟨"NUMBER", "6.0".toList⟩,
    ⟨"COMMENT", "// Do not edit this line!\n".toList⟩, ⟨"Title", "Title".toList⟩, ⟨"=", "=".toList⟩,
    ⟨"STRING", "SYM Database".toList⟩] := by decide +kernel
  have e : toksOf c.pieces = toksOf headPieces ++ (toksOf (spacedPieces "{ENUMS}" enumPieces c.enums) ++
      (toksOf (spacedPieces "{SIGNALS}" sigPieces c.signals) ++ (toksOf (sectionPieces "{SEND}" blockPieces c.send) ++
      (toksOf (sectionPieces "{RECEIVE}" blockPieces c.receive) ++
        (toksOf (sectionPieces "{SENDRECEIVE}" blockPieces c.sendReceive) ++ []))))) := by
    unfold Content.pieces
    simp only [toksOf_append, List.append_nil]
  rw [e, e0]
  rw [toks_spaced, toks_spaced] at m5 ⊢
  generalize toksOf (sectionPieces "{ENUMS}" enumPieces c.enums) ++ _ = R at m5 s5 ⊢
  simp only [List.cons_append, List.nil_append]
  have hset : many setting (⟨"Title", "Title".toList⟩ :: ⟨"=", "=".toList⟩ :: ⟨"STRING", "SYM Database".toList⟩ :: R) =
      some ([()], R) := by
    have := many_of (p := setting) (G := fun _ => True) trivial (rest := R) (by
      unfold setting
      apply oneOf_none
      intro p hp
      simp only [List.mem_cons, List.not_mem_nil, or_false] at hp
      rcases hp with rfl | rfl | rfl | rfl <;> exact skip_none (tok_section s5 (by decide)))
      (toks := fun _ : Unit => [⟨"Title", "Title".toList⟩, ⟨"=", "=".toList⟩, ⟨"STRING", "SYM Database".toList⟩])
      (val := id) (l := [()]) (fun _ _ r _ => by simp [setting, oneOf, orElse, skip, andThen, tok, result])
      (fun _ _ _ => trivial) (fun _ _ => by simp)
    simpa using this
  have hdoc : document (⟨"FormatVersion", "FormatVersion".toList⟩ :: ⟨"=", "=".toList⟩ :: ⟨"NUMBER", "6.0".toList⟩ ::
      ⟨"COMMENT", "// Do not edit this line!\n".toList⟩ :: ⟨"Title", "Title".toList⟩ :: ⟨"=", "=".toList⟩ ::
      ⟨"STRING", "SYM Database".toList⟩ :: R) = some ({ version := "6.0".toList, sections := c.sections }, []) := by
    unfold document
    rw [andThen_some (opt_none (tok_ne (by decide))), skip_cons (t := ⟨"FormatVersion", _⟩), skip_cons (t := ⟨"=", _⟩),
      andThen_some tok_cons, skip_cons (t := ⟨"COMMENT", _⟩), andThen_some hset]
    unfold andThen many
    rw [m5]
    simp [result, Content.sections]
  unfold parse
  rw [hdoc]

end Cantools.Sym
