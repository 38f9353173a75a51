import Verif.Model.SymLex
import Verif.Lemmas.DbcNumber
import Verif.Props.Dbc
import Verif.Spec.DbcFile

/-
Lexing of written SYM texts.
-/

namespace Cantools.Sym
open Cantools Cantools.Dbc Spec

/-! ### Every step shortens the text -/

theorem span_parts {p : Char → Bool} {s a b : Chars} (h : s.span p = (a, b)) : s = a ++ b := by
  rw [span_eq, Prod.mk.injEq] at h
  rw [← h.1, ← h.2, List.takeWhile_append_dropWhile]

theorem takeMinus_parts (s : Chars) : s = (takeMinus s).1 ++ (takeMinus s).2 := by
  unfold takeMinus; split <;> simp

theorem takePoint_parts (s : Chars) : s = (takePoint s).1 ++ (takePoint s).2 := by
  unfold takePoint; split <;> simp

theorem takeSign_parts (s : Chars) : s = (takeSign s).1 ++ (takeSign s).2 := by
  unfold takeSign; split <;> simp

theorem takeFraction_length (s : Chars) : (takeFraction s).2.length ≤ s.length := by
  unfold takeFraction
  split
  · rename_i r
    generalize h : r.span isDigit = x
    obtain ⟨d, r1⟩ := x
    have := congrArg List.length (span_parts h)
    dsimp only
    split <;> simp at this ⊢; omega
  · exact Nat.le_refl _

theorem takeExponent_length (s : Chars) : (takeExponent s).2.length ≤ s.length := by
  unfold takeExponent
  split
  · simp
  · rename_i c r
    split
    · have h0 := congrArg List.length (takeSign_parts r)
      generalize takeSign r = y at *
      obtain ⟨sg, r1⟩ := y
      dsimp only at *
      generalize h : r1.span isDigit = x
      obtain ⟨d, r2⟩ := x
      have := congrArg List.length (span_parts h)
      dsimp only
      split <;> simp at this h0 ⊢; omega
    · simp

theorem stripPrefix_length {p s r : Chars} (h : stripPrefix p s = some r) : s = p ++ r := by
  induction p generalizing s with
  | nil => simpa [stripPrefix] using h
  | cons c p ih =>
    cases s with
    | nil => simp [stripPrefix] at h
    | cons d s =>
      simp only [stripPrefix] at h
      split at h
      · rename_i hc; subst hc; rw [ih h]; simp
      · cases h

theorem literals_ne : ∀ l ∈ literals, l.toList ≠ [] := by decide +kernel

theorem lexStep_length {c : Char} {s r : Chars} {t : Option Tok} (h : lexStep (c :: s) = .ok (t, r)) :
    r.length < (c :: s).length := by
  unfold lexStep at h
  dsimp only at h
  split at h
  · cases h
    have := (List.dropWhile_sublist (l := s) isBlank).length_le
    simp only [List.length_cons]; omega
  · split at h
    · rename_i v r' hc
      cases h
      unfold lexComment at hc
      split at hc
      · rename_i r0 heq
        split at hc
        · rename_i body rest hs
          cases hc
          have := congrArg List.length (span_parts hs)
          rw [heq]; simp at this ⊢; omega
        · cases hc
      · cases hc
    · split at h
      · rename_i v r' hh
        cases h
        unfold lexHex at hh
        split at hh
        · rename_i body rest hs
          have := congrArg List.length (span_parts hs)
          split at hh
          · cases hh; simp at this ⊢; omega
          · cases hh
        · cases hh
      · split at h
        · rename_i v r' hn
          cases h
          unfold lexNumber at hn
          have h0 := congrArg List.length (takeMinus_parts (c :: s))
          generalize takeMinus (c :: s) = y at *
          obtain ⟨sg, r1⟩ := y
          dsimp only at hn h0
          generalize hsp : r1.span isDigit = x at hn
          obtain ⟨d, r2⟩ := x
          have h1 := congrArg List.length (span_parts hsp)
          dsimp only at hn
          split at hn
          · cases hn
          · rename_i hd
            have hd := List.length_pos_iff.2 hd
            have h2 := takeFraction_length r2
            have h3 := takeExponent_length (takeFraction r2).2
            simp only [Option.some.injEq, Prod.mk.injEq] at hn
            obtain ⟨-, rfl⟩ := hn
            simp at h0 h1 ⊢; omega
        · split at h
          · rename_i v r' hs
            cases h
            unfold readString at hs
            split at hs
            · rename_i text heq
              simp only [List.cons.injEq] at heq
              obtain ⟨rfl, rfl⟩ := heq
              unfold lexString at hs
              rw [Option.map_eq_some_iff] at hs
              obtain ⟨⟨m, r0⟩, hm, he⟩ := hs
              simp only [Prod.mk.injEq] at he
              obtain ⟨-, rfl⟩ := he
              have := (matchString_split hm).1
              rw [this]
              simp only [List.length_cons, List.length_append]
              omega
            · cases hs
          · split at h
            · rename_i v r' hu
              cases h
              unfold lexUnit at hu
              split at hu
              · rename_i r0 heq
                rw [heq]
                split at hu
                · rename_i t rest hm
                  split at hm
                  · cases hu
                    have := (matchString_split hm).1
                    rw [this]; simp; omega
                  · cases hm
                · generalize hsp : (r0.span fun c => !Regex.isSpace c) = x at hu
                  obtain ⟨w, rest⟩ := x
                  have := congrArg List.length (span_parts hsp)
                  dsimp only at hu
                  split at hu
                  · cases hu
                  · cases hu; simp at this ⊢; omega
              · cases hu
            · split at h
              · rename_i t' r' hl
                cases h
                unfold lexLiteral at hl
                obtain ⟨l, hm, hl⟩ := List.exists_of_findSome?_eq_some hl
                rw [Option.map_eq_some_iff] at hl
                obtain ⟨r0, h1, h2⟩ := hl
                cases h2
                have h3 := congrArg List.length (stripPrefix_length h1)
                have h4 := List.length_pos_iff.2 (literals_ne l hm)
                simp at h3 ⊢; omega
              · generalize hsp : (c :: s).span isWordC = x at h
                obtain ⟨w, rest⟩ := x
                have := congrArg List.length (span_parts hsp)
                dsimp only at h
                split at h
                · cases h
                · rename_i hw
                  cases h
                  have := List.length_pos_iff.2 hw
                  simp at *; omega

theorem tokenizeLoop_fuel : ∀ (n : Nat) (s : Chars) (fuel : Nat), s.length ≤ n → s.length ≤ fuel →
    tokenizeLoop fuel s = tokenizeLoop s.length s := by
  intro n
  induction n with
  | zero =>
    intro s fuel h _
    have : s = [] := List.eq_nil_of_length_eq_zero (by omega)
    subst this
    unfold tokenizeLoop
    rfl
  | succ n ih =>
    intro s fuel h hf
    cases s with
    | nil => unfold tokenizeLoop; rfl
    | cons c r =>
      cases fuel with
      | zero => simp at hf
      | succ fuel =>
        simp only [List.length_cons] at h hf ⊢
        simp only [tokenizeLoop]
        cases hl : lexStep (c :: r) with
        | error e => rfl
        | ok x =>
          obtain ⟨t, r'⟩ := x
          have := lexStep_length hl
          simp only [List.length_cons] at this
          dsimp only
          rw [ih r' fuel (by omega) (by omega), ih r' r.length (by omega) (by omega)]

theorem tokenize_step {c : Char} {s r : Chars} {t : Option Tok} (h : lexStep (c :: s) = .ok (t, r)) :
    tokenize (c :: s) = (tokenize r).map (t.toList ++ ·) := by
  have := lexStep_length h
  simp only [List.length_cons] at this
  unfold tokenize
  simp only [List.length_cons, tokenizeLoop, h]
  rw [tokenizeLoop_fuel r.length r s.length (by omega) (by omega)]

theorem tokenize_dropWhile (r : Chars) : tokenize (r.dropWhile isBlank) = tokenize r := by
  cases r with
  | nil => rfl
  | cons c r =>
    rw [List.dropWhile_cons]
    split
    · rename_i h
      have : lexStep (c :: r) = .ok (none, r.dropWhile isBlank) := by
        unfold lexStep; simp [h]
      rw [tokenize_step this]
      cases tokenize (r.dropWhile isBlank) <;> simp [Except.map]
    · rfl

theorem tokenize_blank {c : Char} (h : isBlank c = true) (r : Chars) : tokenize (c :: r) = tokenize r := by
  have := tokenize_dropWhile (c :: r)
  rw [List.dropWhile_cons, if_pos h, tokenize_dropWhile] at this
  exact this.symm

/-! ### Pieces -/

/-- The text of a number. -/
def IsNum (t : Chars) : Prop :=
  ∃ neg d frac ex, t = numberText neg d frac ex ∧ Digits d ∧ (∀ f, frac = some f → Digits f) ∧
    ∀ s e, ex = some (s, e) → (s = '+' ∨ s = '-') ∧ Digits e

/-- Hexadecimal digits, perhaps with a sign, the first of which is a decimal one. -/
def IsHex (t : Chars) : Prop :=
  ∃ neg : Bool, ∃ c r, t = (if neg then ['-'] else []) ++ c :: r ∧ isDigit c = true ∧
    ∀ x ∈ r, Regex.isUpperHex x = true

inductive Piece where
  | sp (c : Char)
  | lit (l : String)
  | key (k : String)
  | word (w : Chars)
  | num (t : Chars)
  | hex (t : Chars)
  | str (t : Chars)
  | unit (t : Chars)
  | comment (t : Chars)

def Piece.text : Piece → Chars
  | .sp c => [c]
  | .lit l => l.toList
  | .key k => k.toList
  | .word w => w
  | .num t => t
  | .hex t => t ++ ['h']
  | .str t => '"' :: (t ++ ['"'])
  | .unit t => '/' :: 'u' :: ':' :: '"' :: (t ++ ['"'])
  | .comment t => '/' :: '/' :: (t ++ ['\n'])

def Piece.tok : Piece → List Tok
  | .sp _ => []
  | .lit l => [⟨l, l.toList⟩]
  | .key k => [⟨k, k.toList⟩]
  | .word w => [⟨"WORD", w⟩]
  | .num t => [⟨"NUMBER", t⟩]
  | .hex t => [⟨"HEXNUMBER", t ++ ['h']⟩]
  | .str t => [⟨"STRING", t⟩]
  | .unit t => [⟨"/u:", '/' :: 'u' :: ':' :: '"' :: (t ++ ['"'])⟩]
  | .comment t => [⟨"COMMENT", '/' :: '/' :: (t ++ ['\n'])⟩]

def Piece.Ok : Piece → Prop
  | .sp c => isBlank c = true
  | .lit l => l ∈ literals
  | .key k => k.toList ∈ keywords
  | .word w => Ident w ∧ w ∉ keywords
  | .num t => IsNum t
  | .hex t => IsHex t
  | .str t => PlainText t
  | .unit t => PlainText t
  | .comment t => '\n' ∉ t

/-- What may come next. -/
def Piece.next : Piece → Char → Bool
  | .key _, c => !isWordC c
  | .word _, c => !isWordC c
  | .num _, c => decide (c ∈ [' ', '\n', '=', ','])
  | _, _ => true

def textOf (ps : List Piece) : Chars := ps.flatMap Piece.text
def toksOf (ps : List Piece) : List Tok := ps.flatMap Piece.tok

def Chain : List Piece → Prop
  | [] => True
  | p :: r => p.Ok ∧ (∀ c, (textOf r).head? = some c → p.next c = true) ∧ Chain r

theorem textOf_cons (p : Piece) (r : List Piece) : textOf (p :: r) = p.text ++ textOf r := rfl
theorem toksOf_cons (p : Piece) (r : List Piece) : toksOf (p :: r) = p.tok ++ toksOf r := rfl
theorem textOf_append (a b : List Piece) : textOf (a ++ b) = textOf a ++ textOf b := by simp [textOf]
theorem toksOf_append (a b : List Piece) : toksOf (a ++ b) = toksOf a ++ toksOf b := by simp [toksOf]
@[simp] theorem textOf_nil : textOf [] = [] := rfl
@[simp] theorem toksOf_nil : toksOf [] = [] := rfl

theorem text_ne {p : Piece} (h : p.Ok) : p.text ≠ [] := by
  cases p with
  | lit l => exact literals_ne l h
  | key k =>
    have : ∀ k ∈ keywords, k ≠ [] := by decide +kernel
    exact this _ h
  | word w => exact h.1.1
  | num t =>
    obtain ⟨neg, d, frac, ex, rfl, hd, _⟩ := h
    obtain ⟨c, r, rfl⟩ := List.exists_cons_of_ne_nil hd.1
    simp [Piece.text, numberText]
  | _ => simp [Piece.text]

theorem next_blank {p : Piece} {c : Char} (h : c = ' ' ∨ c = '\n') : p.next c = true := by
  have h1 : isWordC c = false := by rcases h with rfl | rfl <;> decide
  have h2 : c ∈ [' ', '\n', '=', ','] := by rcases h with rfl | rfl <;> decide
  cases p <;> simp only [Piece.next, h1, h2, Bool.not_false, decide_true]

/-- Nothing, or something that starts with a blank. -/
def Blank (ps : List Piece) : Prop := ∀ p r, ps = p :: r → p = .sp ' ' ∨ p = .sp '\n'

/-- Nothing, or something after which anything may come. -/
def Closed (ps : List Piece) : Prop := ∀ p, ps.getLast? = some p → ∀ c, p.next c = true

theorem blank_nil : Blank [] := by intro p r h; cases h
theorem blank_cons {r : List Piece} : Blank (.sp ' ' :: r) := by
  intro p r h; cases h; exact Or.inl rfl
theorem blank_newline {r : List Piece} : Blank (.sp '\n' :: r) := by
  intro p r h; cases h; exact Or.inr rfl
theorem blank_append {a b : List Piece} (ha : Blank a) (hb : Blank b) : Blank (a ++ b) := by
  cases a with
  | nil => exact hb
  | cons p r => intro q s h; cases h; exact ha p r rfl

theorem chain_append {a b : List Piece} (ha : Chain a) (hb : Chain b)
    (h : ∀ p, a.getLast? = some p → ∀ c, (textOf b).head? = some c → p.next c = true) : Chain (a ++ b) := by
  induction a with
  | nil => exact hb
  | cons p r ih =>
    obtain ⟨h1, h2, h3⟩ := ha
    refine ⟨h1, ?_, ih h3 fun q hq => h q (by rw [List.getLast?_cons, hq]; rfl)⟩
    intro c hc
    cases r with
    | nil => exact h p rfl c hc
    | cons q r =>
      apply h2
      change (textOf (q :: r ++ b)).head? = some c at hc
      rw [textOf_append] at hc
      obtain ⟨x, y, hxy⟩ := List.exists_cons_of_ne_nil (text_ne h3.1)
      rw [textOf_cons, hxy] at hc ⊢
      exact hc

theorem chain_blank {a b : List Piece} (ha : Chain a) (hb : Chain b) (h : Blank b) : Chain (a ++ b) := by
  apply chain_append ha hb
  intro p _ c hc
  cases b with
  | nil => cases hc
  | cons q r =>
    rcases h q r rfl with rfl | rfl <;>
      (simp only [textOf_cons, Piece.text, List.cons_append, List.head?_cons, Option.some.injEq] at hc
       subst hc
       exact next_blank (by simp))

theorem chain_closed {a b : List Piece} (ha : Chain a) (hb : Chain b) (h : Closed a) : Chain (a ++ b) :=
  chain_append ha hb fun p hp c _ => h p hp c

theorem closed_append {a b : List Piece} (ha : Closed a) (hb : Closed b) : Closed (a ++ b) := by
  intro p hp
  rw [List.getLast?_append] at hp
  cases hl : b.getLast? with
  | none => rw [hl] at hp; exact ha p hp
  | some q => rw [hl] at hp; cases hp; exact hb _ hl

theorem closed_nil : Closed [] := by intro p h; cases h

/-- Something after which anything may come comes last. -/
theorem closed_last {a b : List Piece} (hb : b ≠ []) (h : Closed b) : Closed (a ++ b) := by
  intro p hp
  rw [List.getLast?_append] at hp
  cases hl : b.getLast? with
  | none => rw [List.getLast?_eq_none_iff] at hl; exact absurd hl hb
  | some q => rw [hl] at hp; cases hp; exact h _ hl

theorem closed_flatMap {α : Type} {l : List α} {f : α → List Piece} (h : ∀ a ∈ l, Closed (f a)) :
    Closed (l.flatMap f) := by
  induction l with
  | nil => exact closed_nil
  | cons a l ih =>
    rw [List.flatMap_cons]
    exact closed_append (h a (by simp)) (ih fun b hb => h b (List.mem_cons_of_mem _ hb))

theorem chain_flatMap {α : Type} {l : List α} {f : α → List Piece} (h : ∀ a ∈ l, Closed (f a))
    (hc : ∀ a ∈ l, Chain (f a)) : Chain (l.flatMap f) := by
  induction l with
  | nil => exact trivial
  | cons a l ih =>
    rw [List.flatMap_cons]
    exact chain_closed (hc a (by simp)) (ih (fun b hb => h b (List.mem_cons_of_mem _ hb))
      fun b hb => hc b (List.mem_cons_of_mem _ hb)) (h a (by simp))

/-! ### Single steps -/

theorem lexComment_none {c : Char} {r : Chars} (h : c ≠ '/' ∨ r.head? ≠ some '/') : lexComment (c :: r) = none := by
  unfold lexComment
  split
  · rename_i heq
    simp only [List.cons.injEq] at heq
    obtain ⟨rfl, rfl⟩ := heq
    rcases h with h | h
    · exact absurd rfl h
    · exact absurd rfl h
  · rfl

theorem isExponent_chars {s : Chars} (h : isExponent s = true) : ∀ c ∈ s, c = '+' ∨ c = '-' ∨ isDigit c = true := by
  unfold isExponent at h
  simp only [Bool.and_eq_true, List.all_eq_true] at h
  intro c hc
  have hp : (takeSign s).1 = [] ∨ (takeSign s).1 = ['+'] ∨ (takeSign s).1 = ['-'] := by
    unfold takeSign; split <;> simp
  rw [takeSign_parts s, List.mem_append] at hc
  rcases hc with hc | hc
  · rcases hp with hp | hp | hp <;> rw [hp] at hc <;> simp at hc <;> simp [hc]
  · exact Or.inr (Or.inr (h.2 c hc))

theorem takeWhile_all {p : Char → Bool} {s : Chars} {c : Char} (h : c ∈ s.takeWhile p) : p c = true := by
  induction s with
  | nil => cases h
  | cons a s ih =>
    rw [List.takeWhile_cons] at h
    split at h
    · rcases List.mem_cons.1 h with rfl | h
      · assumption
      · exact ih h
    · cases h

theorem digit_upperHex {c : Char} (h : isDigit c = true) : Regex.isUpperHex c = true := by
  unfold isDigit at h
  simp only [Bool.and_eq_true, decide_eq_true_eq] at h
  simp [Regex.isUpperHex, Regex.isDigit, h]

/-- The characters a hexadecimal number may have. -/
def hexChar (c : Char) : Bool :=
  Regex.isUpperHex c || decide (c = '.') || decide (c = 'e') || decide (c = '+') || decide (c = '-')

theorem isHexBody_chars {s : Chars} (h : isHexBody s = true) : ∀ c ∈ s, hexChar c = true := by
  unfold isHexBody at h
  have h0 := takeMinus_parts s
  have hm : ∀ c ∈ (takeMinus s).1, c = '-' := by unfold takeMinus; split <;> simp
  generalize takeMinus s = y at *
  obtain ⟨m, r⟩ := y
  dsimp only at h h0 hm
  generalize hs1 : r.span isDigit = x at h
  obtain ⟨d, r1⟩ := x
  have h1 := span_parts hs1
  have hd : ∀ c ∈ d, isDigit c = true := by
    rw [span_eq, Prod.mk.injEq] at hs1; rw [← hs1.1]; exact fun c hc => takeWhile_all hc
  dsimp only at h
  have h2 := takePoint_parts r1
  have hp : ∀ c ∈ (takePoint r1).1, c = '.' := by unfold takePoint; split <;> simp
  generalize takePoint r1 = z at *
  obtain ⟨p, r2⟩ := z
  dsimp only at h h2 hp
  generalize hs2 : r2.span Regex.isUpperHex = w at h
  obtain ⟨x, r3⟩ := w
  have h3 := span_parts hs2
  have hx : ∀ c ∈ x, Regex.isUpperHex c = true := by
    rw [span_eq, Prod.mk.injEq] at hs2; rw [← hs2.1]; exact fun c hc => takeWhile_all hc
  dsimp only at h
  rw [Bool.and_eq_true] at h
  have hr3 : ∀ c ∈ r3, hexChar c = true := by
    have key : ∀ t, isExponent t = true → ∀ c ∈ t, hexChar c = true := by
      intro t ht c hc
      rcases isExponent_chars ht c hc with rfl | rfl | hd'
      · decide
      · decide
      · simp [hexChar, digit_upperHex hd']
    have h := h.2
    split at h
    · intro c hc; cases hc
    · intro c hc
      rcases List.mem_cons.1 hc with rfl | hc
      · decide
      · exact key _ h c hc
    · rw [Bool.and_eq_true] at h
      exact key _ h.2
  intro c hc
  rw [h0, h1, h2, h3] at hc
  simp only [List.mem_append] at hc
  rcases hc with hc | hc | hc | hc | hc
  · rw [hm c hc]; decide
  · simp [hexChar, digit_upperHex (hd c hc)]
  · rw [hp c hc]; decide
  · simp [hexChar, hx c hc]
  · exact hr3 c hc

theorem isHexBody_head {s : Chars} (h : isHexBody s = true) :
    ∃ c r, s = c :: r ∧ (isDigit c = true ∨ (c = '-' ∧ ∃ d q, r = d :: q ∧ isDigit d = true)) := by
  unfold isHexBody at h
  generalize hs : (takeMinus s).2.span isDigit = x at h
  obtain ⟨d, r1⟩ := x
  dsimp only at h
  rw [Bool.and_eq_true] at h
  have hd : d ≠ [] := by simpa using h.1
  rw [span_eq, Prod.mk.injEq] at hs
  obtain ⟨e, d', rfl⟩ := List.exists_cons_of_ne_nil hd
  have he : (takeMinus s).2.head? = some e ∧ isDigit e = true := by
    cases ht : (takeMinus s).2 with
    | nil => rw [ht] at hs; simp at hs
    | cons a b =>
      rw [ht, List.takeWhile_cons] at hs
      split at hs
      · rename_i ha
        simp only [List.cons.injEq] at hs
        obtain ⟨⟨rfl, -⟩, -⟩ := hs
        exact ⟨rfl, ha⟩
      · simp at hs
  unfold takeMinus at he
  split at he
  · rename_i r
    cases r with
    | nil => simp at he
    | cons a b =>
      simp only [List.head?_cons, Option.some.injEq] at he
      exact ⟨'-', a :: b, rfl, Or.inr ⟨rfl, a, b, rfl, he.1 ▸ he.2⟩⟩
  · cases s with
    | nil => simp at he
    | cons a b =>
      simp only [List.head?_cons, Option.some.injEq] at he
      exact ⟨a, b, rfl, Or.inl (he.1 ▸ he.2)⟩

/-- A hexadecimal number starts with a digit or a sign with a digit. -/
theorem lexHex_none {c : Char} {r : Chars} (h1 : isDigit c = false)
    (h2 : c ≠ '-' ∨ ∀ d, r.head? = some d → isDigit d = false) : lexHex (c :: r) = none := by
  unfold lexHex
  split
  · rename_i body rest hs
    rw [if_neg]
    intro hb
    obtain ⟨e, q, rfl, he⟩ := isHexBody_head hb
    have := span_parts hs
    simp only [List.cons_append, List.cons.injEq] at this
    obtain ⟨rfl, rfl⟩ := this
    rcases he with he | ⟨rfl, d, q', rfl, hd⟩
    · rw [h1] at he; cases he
    · rcases h2 with h2 | h2
      · exact h2 rfl
      · rw [h2 d rfl] at hd; cases hd
  · rfl

theorem lexNumber_none {c : Char} {r : Chars} (h1 : isDigit c = false)
    (h2 : c ≠ '-' ∨ ∀ d, r.head? = some d → isDigit d = false) : lexNumber (c :: r) = none := by
  unfold lexNumber takeMinus
  split
  · rename_i r' heq
    split at heq
    · rename_i r'' heq2
      simp only [List.cons.injEq] at heq2
      obtain ⟨rfl, rfl⟩ := heq2
      cases heq
      rcases h2 with h2 | h2
      · exact absurd rfl h2
      · rw [span_eq]
        have : r.takeWhile isDigit = [] := by
          cases r with
          | nil => rfl
          | cons d q => simp [h2 d rfl]
        simp [this]
    · cases heq
      rw [span_eq]
      simp [h1]

/-- The steps in which the text of a number is read. -/
theorem lexNumber_num {t rest : Chars} (ht : IsNum t)
    (hr : ∀ c, rest.head? = some c → c ∈ [' ', '\n', '=', ',']) : lexNumber (t ++ rest) = some (t, rest) := by
  obtain ⟨neg, d, frac, ex, rfl, hd, hf, he⟩ := ht
  have hsep : Sep rest := by
    intro c hc
    have := hr c hc
    simp only [List.mem_cons, List.not_mem_nil, or_false] at this
    rcases this with rfl | rfl | rfl | rfl <;> decide
  have hE : takeExponent (exText ex ++ rest) = (exText ex, rest) := by
    cases ex with
    | none => exact takeExponent_none hsep
    | some p => obtain ⟨s, e⟩ := p; exact takeExponent_some (he s e rfl).1 (he s e rfl).2 hsep
  have hXd : ∀ c, (exText ex ++ rest).head? = some c → isDigit c = false ∧ c ≠ '.' := by
    intro c hc
    cases ex with
    | none => exact ⟨sep_no_digit hsep c hc, (hsep c hc).2⟩
    | some p =>
      obtain ⟨s, e⟩ := p
      simp only [exText, List.cons_append, List.head?_cons, Option.some.injEq] at hc
      subst hc; decide
  have hF : takeFraction (fracText frac ++ (exText ex ++ rest)) = (fracText frac, exText ex ++ rest) := by
    cases frac with
    | none =>
      simp only [fracText, List.nil_append]
      unfold takeFraction
      split
      · rename_i heq; exact absurd rfl (hXd '.' (by rw [heq]; rfl)).2
      · rfl
    | some f =>
      have := span_digits (hf f rfl).2 fun c hc => (hXd c hc).1
      simp only [fracText, List.cons_append, takeFraction, this, if_neg (hf f rfl).1]
  have hPd : ∀ c, (fracText frac ++ (exText ex ++ rest)).head? = some c → isDigit c = false := by
    intro c hc
    cases frac with
    | none => exact (hXd c hc).1
    | some f =>
      simp only [fracText, List.cons_append, List.head?_cons, Option.some.injEq] at hc
      subst hc; decide
  have hA := span_digits hd.2 hPd
  have hS : takeMinus (numberText neg d frac ex ++ rest) =
      (if neg then ['-'] else [], d ++ (fracText frac ++ (exText ex ++ rest))) := by
    have e : numberText neg d frac ex ++ rest =
        (if neg then ['-'] else []) ++ (d ++ (fracText frac ++ (exText ex ++ rest))) := by
      simp only [numberText, List.append_assoc]
    rw [e]
    cases neg with
    | true => rfl
    | false =>
      obtain ⟨c', d', rfl⟩ := List.exists_cons_of_ne_nil hd.1
      have := (digit_facts (hd.2 c' (by simp))).1
      simp only [Bool.false_eq_true, if_false, List.nil_append, List.cons_append]
      unfold takeMinus
      split
      · rename_i heq; simp only [List.cons.injEq] at heq; exact absurd heq.1 this
      · rfl
  unfold lexNumber
  simp only [hS, hA, hF, hE, if_neg hd.1]
  congr 2

theorem isNum_chars {t : Chars} (h : IsNum t) : ∀ c ∈ t, c ≠ 'h' := by
  obtain ⟨neg, d, frac, ex, rfl, hd, hf, he⟩ := h
  have hdig : ∀ {l : Chars}, Digits l → 'h' ∉ l := fun hl hm => absurd (hl.2 'h' hm) (by decide)
  intro c hc hch
  subst hch
  unfold numberText at hc
  simp only [List.mem_append] at hc
  rcases hc with hc | hc | hc | hc
  · cases neg <;> simp at hc
  · exact hdig hd hc
  · cases frac with
    | none => cases hc
    | some f =>
      rcases List.mem_cons.1 hc with hc | hc
      · exact absurd hc (by decide)
      · exact hdig (hf f rfl) hc
  · cases ex with
    | none => cases hc
    | some p =>
      obtain ⟨s, e⟩ := p
      simp only [exText, List.mem_cons] at hc
      rcases hc with hc | hc | hc
      · exact absurd hc (by decide)
      · rcases (he s e rfl).1 with rfl | rfl <;> exact absurd hc (by decide)
      · exact hdig (he s e rfl).2 hc

theorem lexHex_num {t rest : Chars} (ht : IsNum t)
    (hr : ∀ c, rest.head? = some c → c ∈ [' ', '\n', '=', ',']) : lexHex (t ++ rest) = none := by
  unfold lexHex
  split
  · rename_i body rest' hs
    rw [if_neg]
    intro hb
    have hall := isHexBody_chars hb
    cases rest with
    | nil =>
      rw [List.append_nil] at hs
      have := span_parts hs
      exact isNum_chars ht 'h' (by rw [this]; simp) rfl
    | cons c r =>
      have hc := hr c rfl
      have hc' : c ≠ 'h' ∧ hexChar c = false := by
        simp only [List.mem_cons, List.not_mem_nil, or_false] at hc
        rcases hc with rfl | rfl | rfl | rfl <;> decide
      rw [span_eq, Prod.mk.injEq] at hs
      have hmem : c ∈ body := by
        rw [← hs.1, List.takeWhile_append_of_pos (fun x hx => by simpa using isNum_chars ht x hx)]
        simp [hc'.1]
      rw [hall c hmem] at hc'
      exact absurd hc'.2 (by decide)
  · rfl

theorem isNum_head {t : Chars} (h : IsNum t) : ∃ c r, t = c :: r ∧ isBlank c = false ∧ c ≠ '/' := by
  obtain ⟨neg, d, frac, ex, rfl, hd, -, -⟩ := h
  obtain ⟨c, r, rfl⟩ := List.exists_cons_of_ne_nil hd.1
  cases neg with
  | true => exact ⟨'-', _, rfl, by decide, by decide⟩
  | false =>
    have h := wordChar_not (isDigit_word (hd.2 c (by simp)))
    exact ⟨c, _, rfl, h⟩

theorem isHexBody_hex {t : Chars} (h : IsHex t) : isHexBody t = true := by
  obtain ⟨neg, c, r, rfl, hc, hr⟩ := h
  have hm : (takeMinus ((if neg then ['-'] else []) ++ c :: r)).2 = c :: r := by
    cases neg with
    | true => rfl
    | false =>
      simp only [Bool.false_eq_true, if_false, List.nil_append]
      unfold takeMinus
      split
      · rename_i heq; simp only [List.cons.injEq] at heq
        exact absurd heq.1 (digit_facts hc).1
      · rfl
  have hd : ∀ x ∈ r.dropWhile isDigit, Regex.isUpperHex x = true := fun x hx =>
    hr x ((List.dropWhile_sublist _).subset hx)
  have hp : (takePoint (r.dropWhile isDigit)).2 = r.dropWhile isDigit := by
    unfold takePoint
    split
    · rename_i heq
      have := hd '.' (by rw [heq]; simp)
      exact absurd this (by decide)
    · rfl
  unfold isHexBody
  rw [hm, span_eq]
  dsimp only
  rw [List.dropWhile_cons, if_pos hc, List.takeWhile_cons, if_pos hc, hp, span_eq]
  have := (takeWhile_append_sep (rest := []) hd (by intro c h; cases h)).2
  rw [List.append_nil] at this
  simp [this]

theorem isHex_chars {t : Chars} (h : IsHex t) : ∀ c ∈ t, c ≠ 'h' := by
  intro c hc e
  subst e
  have := isHexBody_chars (isHexBody_hex h) _ hc
  exact absurd this (by decide)

theorem lexHex_hex {t : Chars} (h : IsHex t) (rest : Chars) : lexHex (t ++ ['h'] ++ rest) = some (t ++ ['h'], rest) := by
  have : (t ++ ['h'] ++ rest).span (· ≠ 'h') = (t, 'h' :: rest) := by
    rw [span_eq, List.append_assoc]
    have := takeWhile_append_sep (p := fun c => decide (c ≠ 'h')) (w := t) (rest := ['h'] ++ rest)
      (fun c hc => by simpa using isHex_chars h c hc) (by intro c hc; cases hc; decide)
    exact Prod.ext this.1 this.2
  unfold lexHex
  rw [this]
  simp [isHexBody_hex h]

theorem isHex_head {t : Chars} (h : IsHex t) : ∃ c r, t = c :: r ∧ isBlank c = false ∧ c ≠ '/' := by
  obtain ⟨neg, c, r, rfl, hc, -⟩ := h
  cases neg with
  | true => exact ⟨'-', _, rfl, by decide, by decide⟩
  | false => exact ⟨c, _, rfl, wordChar_not (isDigit_word hc)⟩

theorem readString_plain {t : Chars} (h : PlainText t) (rest : Chars) :
    readString ('"' :: (t ++ ['"']) ++ rest) = some (t, rest) := by
  have := (C29_plain_iff_partial t).2 h rest
  simpa [dumpPlain] using this

theorem matchString_plain {t : Chars} (h : PlainText t) (rest : Chars) :
    matchString (t ++ '"' :: rest) = some (t, rest) := by
  have := readString_plain h rest
  simp only [List.cons_append, List.append_assoc, List.nil_append, readString, lexString,
    Option.map_eq_some_iff] at this
  obtain ⟨⟨m, r⟩, h1, h2⟩ := this
  simp only [Prod.mk.injEq] at h2
  obtain ⟨h2, rfl⟩ := h2
  have := (matchString_split h1).1
  have e : t ++ '"' :: r = m ++ '"' :: r := by rw [this]
  have := List.append_cancel_right e
  rw [h1, this]

/-- Two texts differ at some place. -/
def differ : Chars → Chars → Bool
  | c :: p, d :: s => if c = d then differ p s else true
  | _, _ => false

theorem stripPrefix_differ {p s : Chars} (rest : Chars) (h : differ p s = true) : stripPrefix p (s ++ rest) = none := by
  induction p generalizing s with
  | nil => cases s <;> cases h
  | cons c p ih =>
    cases s with
    | nil => cases h
    | cons d s =>
      simp only [differ] at h
      simp only [List.cons_append, stripPrefix]
      split
      · rename_i hc; rw [if_pos hc] at h; exact ih h
      · rfl

theorem stripPrefix_self (p rest : Chars) : stripPrefix p (p ++ rest) = some rest := by
  induction p with
  | nil => rfl
  | cons c p ih => simpa [stripPrefix] using ih

theorem lexLiteral_lit {l : String} (hl : l ∈ literals) (rest : Chars) :
    lexLiteral (l.toList ++ rest) = some (⟨l, l.toList⟩, rest) := by
  have hd : ∀ l ∈ literals, ∀ l' ∈ literals, l' = l ∨ differ l'.toList l.toList = true := by decide +kernel
  unfold lexLiteral
  have key : ∀ L : List String, (∀ l' ∈ L, l' ∈ literals) → l ∈ L →
      L.findSome? (fun l' => (stripPrefix l'.toList (l.toList ++ rest)).map fun r => ((⟨l', l'.toList⟩ : Tok), r)) =
        some (⟨l, l.toList⟩, rest) := by
    intro L hL hm
    induction L with
    | nil => cases hm
    | cons a L ih =>
      rw [List.findSome?_cons]
      rcases hd l hl a (hL a (by simp)) with rfl | h
      · rw [stripPrefix_self]; rfl
      · rw [stripPrefix_differ rest h]
        apply ih fun x hx => hL x (List.mem_cons_of_mem _ hx)
        rcases List.mem_cons.1 hm with rfl | hm
        · have : ∀ c : Chars, differ c c = false := by
            intro c; induction c with
            | nil => rfl
            | cons a c ih => simpa [differ] using ih
          rw [this] at h; cases h
        · exact hm
  exact key literals (fun _ h => h) hl

/-- The characters the tokens with a fixed text start with. -/
def literalHeads : Chars := ['/', '-', '(', ')', '[', ']', ',', '=', '{']

theorem lexLiteral_none {c : Char} (h : c ∉ literalHeads) (r : Chars) : lexLiteral (c :: r) = none := by
  have hd : ∀ l ∈ literals, ∃ d ∈ literalHeads, l.toList.head? = some d := by decide +kernel
  unfold lexLiteral
  rw [List.findSome?_eq_none_iff]
  intro l hl
  obtain ⟨d, hd, he⟩ := hd l hl
  cases hl' : l.toList with
  | nil => rw [hl'] at he; cases he
  | cons e p =>
    rw [hl'] at he
    cases he
    simp only [stripPrefix, Option.map_eq_none_iff]
    rw [if_neg]
    rintro rfl
    exact h hd

theorem wordChar_wordC {c : Char} (h : isWordChar c = true) :
    isWordC c = true ∧ c ∉ literalHeads ∧ c ≠ '"' := by
  have hs : ∀ x, isWordChar x = false → c ≠ x := by rintro x hx rfl; rw [h] at hx; cases hx
  refine ⟨?_, ?_, hs '"' (by decide)⟩
  · unfold isWordC Regex.isSpace
    have h1 : ¬ ('\t' ≤ c ∧ c ≤ '\r') := by
      rintro ⟨ha, hb⟩
      have e : c = Char.ofNat c.toNat := (Char.ofNat_toNat c).symm
      have ha : (9 : Nat) ≤ c.toNat := ha
      have hb : c.toNat ≤ (13 : Nat) := hb
      have : c.toNat = 9 ∨ c.toNat = 10 ∨ c.toNat = 11 ∨ c.toNat = 12 ∨ c.toNat = 13 := by omega
      rcases this with g | g | g | g | g <;> rw [g] at e <;> exact hs _ (by decide) e
    have h2 : ¬ ('\x1c' ≤ c ∧ c ≤ '\x1f') := by
      rintro ⟨ha, hb⟩
      have e : c = Char.ofNat c.toNat := (Char.ofNat_toNat c).symm
      have ha : (28 : Nat) ≤ c.toNat := ha
      have hb : c.toNat ≤ (31 : Nat) := hb
      have : c.toNat = 28 ∨ c.toNat = 29 ∨ c.toNat = 30 ∨ c.toNat = 31 := by omega
      rcases this with g | g | g | g <;> rw [g] at e <;> exact hs _ (by decide) e
    simp only [h1, h2, hs ' ' (by decide), hs '=' (by decide), hs '(' (by decide), hs ']' (by decide),
      hs '-' (by decide), decide_false, Bool.or_false, Bool.not_false, Bool.and_true,
      Bool.not_eq_true', beq_eq_false_iff_ne, ne_eq, not_false_eq_true]
  · unfold literalHeads
    simp only [List.mem_cons, List.not_mem_nil, or_false, not_or]
    exact ⟨hs _ (by decide), hs _ (by decide), hs _ (by decide), hs _ (by decide), hs _ (by decide),
      hs _ (by decide), hs _ (by decide), hs _ (by decide), hs _ (by decide)⟩

theorem lexStep_word {w rest : Chars} (hw : Ident w) (hr : ∀ c, rest.head? = some c → isWordC c = false) :
    lexStep (w ++ rest) = .ok (some ⟨kindOf w, w⟩, rest) := by
  obtain ⟨h1, h2, h3⟩ := hw
  cases w with
  | nil => exact absurd rfl h1
  | cons c w =>
    have hc := h2 c (by simp)
    obtain ⟨g1, g2⟩ := wordChar_not hc
    obtain ⟨g3, g4⟩ := wordChar_sign hc
    obtain ⟨-, g5, g6⟩ := wordChar_wordC hc
    have t := takeWhile_append_sep (p := isWordC) (fun c hc => (wordChar_wordC (h2 c hc)).1) hr
    unfold lexStep
    rw [List.cons_append]
    dsimp only
    rw [lexComment_none (Or.inl g2), lexHex_none (h3 c rfl) (Or.inl g3), lexNumber_none (h3 c rfl) (Or.inl g3),
      lexLiteral_none g5]
    have hs : readString (c :: (w ++ rest)) = none := by
      unfold readString; split
      · rename_i heq; simp only [List.cons.injEq] at heq; exact absurd heq.1 g6
      · rfl
    have hu : lexUnit (c :: (w ++ rest)) = none := by
      unfold lexUnit; split
      · rename_i heq; simp only [List.cons.injEq] at heq; exact absurd heq.1 g2
      · rfl
    rw [hs, hu]
    dsimp only
    rw [← List.cons_append, span_eq, t.1, t.2]
    simp [g1]

theorem keyword_ident : ∀ k ∈ keywords, Ident k := by
  have : ∀ k ∈ keywords, identB k = true := by decide +kernel
  exact fun k hk => ident_of_identB (this k hk)

/-- What is used of the tokens with a fixed text. -/
def literalFine : Chars → Bool
  | [] => false
  | c :: r => !isBlank c && !isDigit c && decide (c ≠ '"') &&
    (decide (c ≠ '/') || r.head?.any fun d => decide (d ≠ '/') && decide (d ≠ 'u')) &&
    (decide (c ≠ '-') || r.head?.any fun d => !isDigit d)

theorem literals_fine : ∀ l ∈ literals, literalFine l.toList = true := by decide +kernel

theorem literalFine_facts {c : Char} {r : Chars} (h : literalFine (c :: r) = true) :
    isBlank c = false ∧ isDigit c = false ∧ c ≠ '"' ∧ (c = '/' → ∃ d, r.head? = some d ∧ d ≠ '/' ∧ d ≠ 'u') ∧
      (c = '-' → ∃ d, r.head? = some d ∧ isDigit d = false) := by
  simp only [literalFine, Bool.and_eq_true, Bool.or_eq_true, Bool.not_eq_true', decide_eq_true_eq,
    Option.any_eq_true] at h
  obtain ⟨⟨⟨⟨h1, h2⟩, h3⟩, h4⟩, h5⟩ := h
  refine ⟨h1, h2, h3, fun hc => ?_, fun hc => ?_⟩
  · rcases h4 with h4 | h4
    · exact absurd hc h4
    · exact h4
  · rcases h5 with h5 | h5
    · exact absurd hc h5
    · exact h5

theorem lexStep_piece {p : Piece} (hp : p.Ok) {rest : Chars} (hr : ∀ c, rest.head? = some c → p.next c = true)
    (hs : ∀ c, p ≠ .sp c) : ∃ c r, p.text = c :: r ∧
      ∃ t, p.tok = [t] ∧ lexStep (p.text ++ rest) = .ok (some t, rest) := by
  cases p with
  | sp c => exact absurd rfl (hs c)
  | key k =>
    have hi := keyword_ident _ hp
    have := lexStep_word hi (rest := rest) fun c hc => by simpa [Piece.next] using hr c hc
    unfold kindOf at this
    have hp : k.toList ∈ keywords := hp
    rw [if_pos hp, String.ofList_toList] at this
    obtain ⟨c, r, h⟩ := List.exists_cons_of_ne_nil hi.1
    exact ⟨c, r, h, _, rfl, this⟩
  | word w =>
    have := lexStep_word hp.1 (rest := rest) fun c hc => by simpa [Piece.next] using hr c hc
    unfold kindOf at this
    rw [if_neg hp.2] at this
    obtain ⟨c, r, rfl⟩ := List.exists_cons_of_ne_nil hp.1.1
    exact ⟨c, r, rfl, _, rfl, this⟩
  | num t =>
    obtain ⟨c, r, rfl, h1, h2⟩ := isNum_head hp
    refine ⟨c, r, rfl, _, rfl, ?_⟩
    have hr' : ∀ c, rest.head? = some c → c ∈ [' ', '\n', '=', ','] := fun c hc => by
      simpa [Piece.next] using hr c hc
    have e1 := lexHex_num hp hr'
    have e2 := lexNumber_num hp hr'
    unfold lexStep
    simp only [Piece.text, List.cons_append] at e1 e2 ⊢
    rw [lexComment_none (Or.inl h2), e1, e2]
    simp [h1]
  | hex t =>
    obtain ⟨c, r, rfl, h1, h2⟩ := isHex_head hp
    refine ⟨c, r ++ ['h'], rfl, _, rfl, ?_⟩
    have e1 := lexHex_hex hp rest
    unfold lexStep
    simp only [Piece.text, List.cons_append] at e1 ⊢
    rw [lexComment_none (Or.inl h2), e1]
    simp [h1]
  | str t =>
    refine ⟨'"', _, rfl, _, rfl, ?_⟩
    have e := readString_plain hp rest
    unfold lexStep
    simp only [Piece.text, List.cons_append] at e ⊢
    rw [lexComment_none (Or.inl (by decide)), lexHex_none (by decide) (Or.inl (by decide)),
      lexNumber_none (by decide) (Or.inl (by decide)), e]
    simp [isBlank]
  | unit t =>
    refine ⟨'/', _, rfl, _, rfl, ?_⟩
    have e := matchString_plain hp rest
    unfold lexStep
    simp only [Piece.text, List.cons_append, List.append_assoc, List.nil_append]
    rw [lexComment_none (Or.inr (by simp)), lexHex_none (by decide) (Or.inl (by decide)),
      lexNumber_none (by decide) (Or.inl (by decide))]
    simp [isBlank, readString, lexUnit, e]
  | comment t =>
    refine ⟨'/', _, rfl, _, rfl, ?_⟩
    have hp : '\n' ∉ t := hp
    have e : (t ++ '\n' :: rest).span (· ≠ '\n') = (t, '\n' :: rest) := by
      rw [span_eq]
      have := takeWhile_append_sep (p := fun c => decide (c ≠ '\n')) (w := t) (rest := '\n' :: rest)
        (fun c hc => by simpa using fun h : c = '\n' => hp (h ▸ hc)) (by intro c hc; cases hc; decide)
      exact Prod.ext this.1 this.2
    unfold lexStep
    simp only [Piece.text, List.cons_append, List.append_assoc, List.nil_append, lexComment, e]
    simp [isBlank]
  | lit l =>
    have hf := literals_fine l hp
    obtain ⟨c, r, hcr⟩ := List.exists_cons_of_ne_nil (literals_ne l hp)
    refine ⟨c, r, hcr, _, rfl, ?_⟩
    have e := lexLiteral_lit hp rest
    simp only [Piece.text]
    rw [hcr] at hf e ⊢
    obtain ⟨h1, h2, h3, h4, h5⟩ := literalFine_facts hf
    have hh : ∀ d, r.head? = some d → (r ++ rest).head? = some d := by
      intro d hd; cases r with
      | nil => cases hd
      | cons => exact hd
    have hn : c ≠ '-' ∨ ∀ d, (r ++ rest).head? = some d → isDigit d = false := by
      by_cases hm : c = '-'
      · obtain ⟨d, g1, g2⟩ := h5 hm
        right
        intro d' hd'
        rw [hh d g1] at hd'
        cases hd'; exact g2
      · exact Or.inl hm
    unfold lexStep
    rw [List.cons_append] at e ⊢
    rw [lexComment_none (by
      by_cases hm : c = '/'
      · obtain ⟨d, g1, g2, -⟩ := h4 hm
        right; rw [hh d g1]; simpa using g2
      · exact Or.inl hm), lexHex_none h2 hn, lexNumber_none h2 hn, e]
    have hs : readString (c :: (r ++ rest)) = none := by
      unfold readString; split
      · rename_i heq; simp only [List.cons.injEq] at heq; exact absurd heq.1 h3
      · rfl
    have hu : lexUnit (c :: (r ++ rest)) = none := by
      unfold lexUnit; split
      · rename_i heq; simp only [List.cons.injEq] at heq
        obtain ⟨d, g1, -, g2⟩ := h4 heq.1
        have := hh d g1
        rw [heq.2] at this
        cases this; exact absurd rfl g2
      · rfl
    rw [hs, hu]
    simp [h1]

/-- A text put together from pieces gives the tokens of the pieces. -/
theorem tokenize_pieces : ∀ (ps : List Piece), Chain ps → tokenize (textOf ps) = .ok (toksOf ps) := by
  intro ps
  induction ps with
  | nil => intro _; rfl
  | cons p r ih =>
    rintro ⟨h1, h2, h3⟩
    have ih := ih h3
    rw [textOf_cons, toksOf_cons]
    by_cases hp : ∃ c, p = .sp c
    · obtain ⟨c, rfl⟩ := hp
      have : isBlank c = true := h1
      simp only [Piece.text, Piece.tok, List.cons_append, List.nil_append]
      rw [tokenize_blank this, ih]
    · obtain ⟨c, t, he, tk, ht, hs⟩ := lexStep_piece h1 h2 fun c hc => hp ⟨c, hc⟩
      rw [he, List.cons_append] at hs ⊢
      rw [tokenize_step hs, ih, ht]
      rfl

end Cantools.Sym
