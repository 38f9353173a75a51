import Verif.Spec.DbcNumber
import Verif.Props.Dbc
import Mathlib.Data.List.TakeDrop

/-
The tokenizer of DBC files on texts that are put together from pieces.
-/

namespace Cantools.Dbc
open Cantools Spec

/-! ### The amount of fuel does not matter -/

theorem span_eq {p : Char → Bool} (s : Chars) : s.span p = (s.takeWhile p, s.dropWhile p) :=
  List.span_eq_takeWhile_dropWhile ..

theorem span_length (p : Char → Bool) (s : Chars) :
    (s.span p).1.length + (s.span p).2.length = s.length := by
  rw [span_eq]
  rw [← List.length_append, List.takeWhile_append_dropWhile]

theorem takeSign_length (s : Chars) : (takeSign s).1.length + (takeSign s).2.length = s.length := by
  unfold takeSign
  split <;> simp <;> omega

theorem takePoint_length (s : Chars) : (takePoint s).1.length + (takePoint s).2.length = s.length := by
  unfold takePoint
  split <;> simp; omega

theorem takeExponent_length (s : Chars) :
    (takeExponent s).1.length + (takeExponent s).2.length = s.length := by
  unfold takeExponent
  split
  · rfl
  · rename_i c r
    split
    · dsimp only
      split
      · simp
      · have h1 := takeSign_length r
        have h2 := span_length isDigit (takeSign r).2
        simp only [List.length_cons, List.length_append]
        omega
    · simp

theorem lexNumber_length {s v r : Chars} (h : lexNumber s = some (v, r)) : r.length < s.length := by
  unfold lexNumber at h
  dsimp only at h
  split at h
  · cases h
  · rename_i hd
    simp only [Option.some.injEq, Prod.mk.injEq] at h
    obtain ⟨-, rfl⟩ := h
    have h1 := takeSign_length s
    have h2 := span_length isDigit (takeSign s).2
    have h3 := takePoint_length ((takeSign s).2.span isDigit).2
    have h4 := span_length isDigit (takePoint ((takeSign s).2.span isDigit).2).2
    have h5 := takeExponent_length ((takePoint ((takeSign s).2.span isDigit).2).2.span isDigit).2
    have h6 := List.length_pos_iff.2 hd
    omega

theorem lexStep_length {c : Char} {s r : Chars} {t : Option Tok} (h : lexStep (c :: s) = .ok (t, r)) :
    r.length < (c :: s).length := by
  unfold lexStep at h
  split at h
  · rename_i r' hr
    cases h
    unfold lexSkip at hr
    split at hr
    · rename_i r0 heq
      simp only [List.cons.injEq] at heq
      obtain ⟨rfl, rfl⟩ := heq
      cases hd : r0.dropWhile (· ≠ '\n') with
      | nil => rw [hd] at hr; cases hr
      | cons a b =>
        rw [hd] at hr
        cases hr
        have := (List.dropWhile_sublist (l := r0) (· ≠ '\n')).length_le
        rw [hd] at this
        simp only [List.length_cons] at this ⊢
        omega
    · rename_i c' r0 _ heq
      simp only [List.cons.injEq] at heq
      obtain ⟨rfl, rfl⟩ := heq
      split at hr
      · cases hr
        have := (List.dropWhile_sublist (l := s) isBlank).length_le
        simp only [List.length_cons]
        omega
      · cases hr
    · cases hr
  · split at h
    · rename_i hn
      cases h
      exact lexNumber_length hn
    · split at h
      · rename_i hw
        cases h
        unfold lexWord at hw
        dsimp only at hw
        split at hw
        · cases hw
        · rename_i hne
          simp only [Option.some.injEq, Prod.mk.injEq] at hw
          obtain ⟨-, rfl⟩ := hw
          have h1 := span_length isWordChar (c :: s)
          have h2 := List.length_pos_iff.2 hne
          omega
      · split at h
        · rename_i hs
          cases h
          unfold readString at hs
          split at hs
          · rename_i text heq
            simp only [List.cons.injEq] at heq
            obtain ⟨rfl, rfl⟩ := heq
            unfold lexString at hs
            rw [Option.map_eq_some_iff] at hs
            obtain ⟨⟨m, r0⟩, hm, he⟩ := hs
            simp only [Prod.mk.injEq] at he
            obtain ⟨-, rfl⟩ := he
            have := (matchString_split hm).1
            rw [this]
            simp only [List.length_cons, List.length_append]
            omega
          · cases hs
        · dsimp only at h
          split at h
          · cases h; simp
          · cases h

theorem tokenizeLoop_fuel : ∀ (n : Nat) (s : Chars) (fuel : Nat), s.length ≤ n → s.length ≤ fuel →
    tokenizeLoop fuel s = tokenizeLoop s.length s := by
  intro n
  induction n with
  | zero =>
    intro s fuel h _
    have : s = [] := List.eq_nil_of_length_eq_zero (by omega)
    subst this
    unfold tokenizeLoop
    rfl
  | succ n ih =>
    intro s fuel h hf
    cases s with
    | nil => unfold tokenizeLoop; rfl
    | cons c r =>
      cases fuel with
      | zero => simp at hf
      | succ fuel =>
        simp only [List.length_cons] at h hf ⊢
        simp only [tokenizeLoop]
        cases hl : lexStep (c :: r) with
        | error e => rfl
        | ok x =>
          obtain ⟨t, r'⟩ := x
          have := lexStep_length hl
          simp only [List.length_cons] at this
          dsimp only
          rw [ih r' fuel (by omega) (by omega), ih r' r.length (by omega) (by omega)]

theorem tokenize_step {c : Char} {s r : Chars} {t : Option Tok} (h : lexStep (c :: s) = .ok (t, r)) :
    tokenize (c :: s) = (tokenize r).map (t.toList ++ ·) := by
  have := lexStep_length h
  simp only [List.length_cons] at this
  unfold tokenize
  simp only [List.length_cons, tokenizeLoop, h]
  rw [tokenizeLoop_fuel r.length r s.length (by omega) (by omega)]

/-! ### Pieces -/

/-- What may follow a word, a number or a sign. -/
def Sep (s : Chars) : Prop := ∀ c, s.head? = some c → isWordChar c = false ∧ c ≠ '.'

/-- `Ident` as a test. -/
def identB (w : Chars) : Bool := !w.isEmpty && w.all isWordChar && !(w.head?.any isDigit)

theorem ident_of_identB {w : Chars} (h : identB w = true) : Ident w := by
  unfold identB at h
  simp only [Bool.and_eq_true, Bool.not_eq_true', List.isEmpty_eq_false_iff, List.all_eq_true] at h
  refine ⟨h.1.1, h.1.2, fun c hc => ?_⟩
  have := h.2
  rw [hc] at this
  exact this

theorem keyword_ident : ∀ k ∈ keywords, Ident k := by
  have : ∀ k ∈ keywords, identB k = true := by decide +kernel
  exact fun k hk => ident_of_identB (this k hk)

theorem kindOf_keyword {k : String} (h : k.toList ∈ keywords) : kindOf k.toList = k := by
  unfold kindOf
  rw [if_pos h, String.ofList_toList]

theorem kindOf_name {w : Chars} (h : w ∉ keywords) : kindOf w = "WORD" := by
  unfold kindOf
  rw [if_neg h]

/-- The text of a number. -/
def IsNumber (t : Chars) : Prop := ∀ rest, Sep rest → lexNumber (t ++ rest) = some (t, rest)

/-- `raw` is a string between quotes that stands for `val`. -/
def Quoted (raw val : Chars) : Prop := ∀ rest, readString (raw ++ rest) = some (val, rest)

inductive Piece where
  | sp (c : Char)
  | key (k : String)
  | word (w : Chars)
  | num (t : Chars)
  | str (raw val : Chars)
  | pun (c : Char)

def Piece.text : Piece → Chars
  | .sp c => [c]
  | .key k => k.toList
  | .word w => w
  | .num t => t
  | .str raw _ => raw
  | .pun c => [c]

def Piece.tok : Piece → List Tok
  | .sp _ => []
  | .key k => [⟨k, k.toList⟩]
  | .word w => [⟨"WORD", w⟩]
  | .num t => [⟨"NUMBER", t⟩]
  | .str _ val => [⟨"STRING", val⟩]
  | .pun c => [⟨(punct? c).getD "", [c]⟩]

def Piece.Ok : Piece → Prop
  | .sp c => isBlank c = true
  | .key k => k.toList ∈ keywords
  | .word w => Name w
  | .num t => IsNumber t
  | .str raw val => Quoted raw val
  | .pun c => (punct? c).isSome = true

/-- Pieces that need a separator. -/
def Piece.open_ : Piece → Bool
  | .sp _ => false
  | .key _ => true
  | .word _ => true
  | .num _ => true
  | .str _ _ => false
  | .pun c => decide (c = '+') || decide (c = '-')

def textOf (ps : List Piece) : Chars := ps.flatMap Piece.text
def toksOf (ps : List Piece) : List Tok := ps.flatMap Piece.tok

def Chain : List Piece → Prop
  | [] => True
  | p :: r => p.Ok ∧ (p.open_ = true → Sep (textOf r)) ∧ Chain r

theorem textOf_cons (p : Piece) (r : List Piece) : textOf (p :: r) = p.text ++ textOf r := rfl
theorem toksOf_cons (p : Piece) (r : List Piece) : toksOf (p :: r) = p.tok ++ toksOf r := rfl
theorem textOf_append (a b : List Piece) : textOf (a ++ b) = textOf a ++ textOf b := by
  simp [textOf]
theorem toksOf_append (a b : List Piece) : toksOf (a ++ b) = toksOf a ++ toksOf b := by
  simp [toksOf]

/-! ### Single steps -/

theorem isBlank_cases {c : Char} (h : isBlank c = true) : c = ' ' ∨ c = '\r' ∨ c = '\n' ∨ c = '\t' := by
  unfold isBlank at h
  simp only [Bool.or_eq_true, decide_eq_true_eq] at h
  tauto

theorem lexSkip_blank {c : Char} (h : isBlank c = true) (r : Chars) :
    lexSkip (c :: r) = some (r.dropWhile isBlank) := by
  unfold lexSkip
  rcases isBlank_cases h with rfl | rfl | rfl | rfl <;> simp [isBlank]

theorem tokenize_dropWhile (r : Chars) : tokenize (r.dropWhile isBlank) = tokenize r := by
  cases r with
  | nil => rfl
  | cons c r =>
    rw [List.dropWhile_cons]
    split
    · rename_i h
      have : lexStep (c :: r) = .ok (none, r.dropWhile isBlank) := by
        unfold lexStep; rw [lexSkip_blank h]
      rw [tokenize_step this]
      cases tokenize (r.dropWhile isBlank) <;> simp [Except.map]
    · rfl

theorem tokenize_blank {c : Char} (h : isBlank c = true) (r : Chars) : tokenize (c :: r) = tokenize r := by
  have := tokenize_dropWhile (c :: r)
  rw [List.dropWhile_cons, if_pos h, tokenize_dropWhile] at this
  exact this.symm

theorem lexSkip_none {c : Char} (r : Chars) (h1 : isBlank c = false) (h2 : c ≠ '/') :
    lexSkip (c :: r) = none := by
  unfold lexSkip
  split
  · rename_i heq
    simp only [List.cons.injEq] at heq
    exact absurd heq.1 h2
  · rename_i heq
    simp only [List.cons.injEq] at heq
    obtain ⟨rfl, rfl⟩ := heq
    simp [h1]
  · rfl

theorem wordChar_not {c : Char} (h : isWordChar c = true) : isBlank c = false ∧ c ≠ '/' := by
  constructor
  · cases hb : isBlank c with
    | false => rfl
    | true =>
      rcases isBlank_cases hb with rfl | rfl | rfl | rfl <;> exact absurd h (by decide)
  · rintro rfl; exact absurd h (by decide)

theorem wordChar_sign {c : Char} (h : isWordChar c = true) : c ≠ '-' ∧ c ≠ '+' := by
  constructor <;> (rintro rfl; exact absurd h (by decide))

theorem takeWhile_append_sep {p : Char → Bool} {w rest : Chars} (hw : ∀ c ∈ w, p c = true)
    (hr : ∀ c, rest.head? = some c → p c = false) :
    (w ++ rest).takeWhile p = w ∧ (w ++ rest).dropWhile p = rest := by
  induction w with
  | nil =>
    cases rest with
    | nil => simp
    | cons c r => simp [hr c rfl]
  | cons a w ih =>
    have := ih fun c hc => hw c (List.mem_cons_of_mem _ hc)
    simp [hw a (by simp), this]

theorem takeSign_of_ne {s : Chars} (h : ∀ c, s.head? = some c → c ≠ '-' ∧ c ≠ '+') :
    takeSign s = ([], s) := by
  unfold takeSign
  split
  · exact absurd rfl (h '-' rfl).1
  · exact absurd rfl (h '+' rfl).2
  · rfl

theorem lexNumber_none {s : Chars} (h : ∀ c, s.head? = some c → isDigit c = false ∧ c ≠ '-' ∧ c ≠ '+') :
    lexNumber s = none := by
  unfold lexNumber
  rw [takeSign_of_ne fun c hc => (h c hc).2]
  dsimp only
  rw [span_eq]
  have : s.takeWhile isDigit = [] := by
    cases s with
    | nil => rfl
    | cons c r => simp [(h c rfl).1]
  simp [this]

theorem isDigit_word {c : Char} (h : isDigit c = true) : isWordChar c = true := by
  unfold isWordChar; simp [h]

/-- A word is read up to its end. -/
theorem lexStep_word {w rest : Chars} (hw : Ident w) (hr : Sep rest) :
    lexStep (w ++ rest) = .ok (some ⟨kindOf w, w⟩, rest) := by
  obtain ⟨h1, h2, h3⟩ := hw
  cases w with
  | nil => exact absurd rfl h1
  | cons c w =>
    have hc := h2 c (by simp)
    obtain ⟨g1, g2⟩ := wordChar_not hc
    obtain ⟨g3, g4⟩ := wordChar_sign hc
    have t := takeWhile_append_sep (p := isWordChar) h2 fun c hc => (hr c hc).1
    unfold lexStep
    rw [List.cons_append, lexSkip_none _ g1 g2, lexNumber_none (by
      intro d hd
      simp only [List.head?_cons, Option.some.injEq] at hd
      subst hd
      exact ⟨h3 c rfl, g3, g4⟩)]
    rw [← List.cons_append]
    have : lexWord (c :: w ++ rest) = some (c :: w, rest) := by
      unfold lexWord
      rw [span_eq, t.1, t.2]
      simp
    rw [this]

theorem number_head {t : Chars} (h : IsNumber t) : ∃ c r, t = c :: r ∧ isBlank c = false ∧ c ≠ '/' := by
  have := h [] (by intro c hc; cases hc)
  rw [List.append_nil] at this
  cases t with
  | nil =>
    have h0 : lexNumber [] = none := by decide
    rw [h0] at this; cases this
  | cons c r =>
    refine ⟨c, r, rfl, ?_⟩
    by_contra hc
    have hd : isDigit c = false ∧ c ≠ '-' ∧ c ≠ '+' := by
      rw [not_and_or] at hc
      rcases hc with hc | hc
      · have hb : isBlank c = true := by simpa using hc
        rcases isBlank_cases hb with rfl | rfl | rfl | rfl <;> decide
      · rw [not_not] at hc
        subst hc; decide
    rw [lexNumber_none (by
      intro d hd'
      simp only [List.head?_cons, Option.some.injEq] at hd'
      subst hd'
      exact hd)] at this
    cases this

theorem quoted_head {raw val : Chars} (h : Quoted raw val) : ∃ r, raw = '"' :: r := by
  have := h []
  rw [List.append_nil] at this
  unfold readString at this
  split at this
  · exact ⟨_, rfl⟩
  · cases this

/-- The step for a piece that gives a token. -/
theorem lexStep_piece {p : Piece} (hp : p.Ok) {rest : Chars} (hr : p.open_ = true → Sep rest)
    (hs : ∀ c, p ≠ .sp c) : ∃ c r, p.text = c :: r ∧
      ∃ t, p.tok = [t] ∧ lexStep (p.text ++ rest) = .ok (some t, rest) := by
  cases p with
  | sp c => exact absurd rfl (hs c)
  | key k =>
    have hi := keyword_ident _ hp
    have := lexStep_word hi (hr rfl)
    rw [kindOf_keyword hp] at this
    obtain ⟨c, r, h⟩ := List.exists_cons_of_ne_nil hi.1
    exact ⟨c, r, h, _, rfl, this⟩
  | word w =>
    have := lexStep_word (w := w) hp.1 (hr rfl)
    rw [kindOf_name hp.2] at this
    obtain ⟨c, r, rfl⟩ := List.exists_cons_of_ne_nil hp.1.1
    exact ⟨c, r, rfl, _, rfl, this⟩
  | num t =>
    obtain ⟨c, r, rfl, h1, h2⟩ := number_head hp
    refine ⟨c, r, rfl, _, rfl, ?_⟩
    have := hp rest (hr rfl)
    unfold lexStep
    simp only [Piece.text]
    rw [List.cons_append, lexSkip_none _ h1 h2]
    rw [List.cons_append] at this
    rw [this]
  | str raw val =>
    obtain ⟨r, rfl⟩ := quoted_head hp
    refine ⟨'"', r, rfl, _, rfl, ?_⟩
    have := hp rest
    unfold lexStep
    simp only [Piece.text]
    rw [List.cons_append] at this ⊢
    rw [lexSkip_none _ (by decide) (by decide), lexNumber_none (by
      intro d hd
      simp only [List.head?_cons, Option.some.injEq] at hd
      subst hd; decide)]
    have hw : lexWord ('"' :: (r ++ rest)) = none := by
      unfold lexWord
      rw [span_eq, List.takeWhile_cons]
      simp [isWordChar, isDigit]
    rw [hw, this]
  | pun c =>
    refine ⟨c, [], rfl, _, rfl, ?_⟩
    simp only [Piece.text, List.cons_append, List.nil_append]
    have hp' : (punct? c).isSome = true := hp
    obtain ⟨k, hk⟩ := Option.isSome_iff_exists.1 hp'
    have hfacts : isBlank c = false ∧ c ≠ '/' ∧ isWordChar c = false ∧ c ≠ '"' := by
      refine ⟨?_, ?_, ?_, ?_⟩
      · cases hb : isBlank c with
        | false => rfl
        | true => rcases isBlank_cases hb with rfl | rfl | rfl | rfl <;> exact absurd hp' (by decide)
      · rintro rfl; exact absurd hp' (by decide)
      · unfold punct? at hk
        split at hk <;> first | decide | cases hk
      · rintro rfl; exact absurd hp' (by decide)
    have hdig : isDigit c = false := by
      cases hd : isDigit c with
      | false => rfl
      | true => rw [isDigit_word hd] at hfacts; exact absurd hfacts.2.2.1 (by decide)
    have hn : lexNumber (c :: rest) = none := by
      by_cases hsign : c = '+' ∨ c = '-'
      · have hsep : Sep rest := hr (by
          unfold Piece.open_
          rcases hsign with rfl | rfl <;> rfl)
        have hts : takeSign (c :: rest) = ([c], rest) := by
          rcases hsign with rfl | rfl <;> rfl
        unfold lexNumber
        rw [hts]
        dsimp only
        rw [span_eq]
        have : rest.takeWhile isDigit = [] := by
          cases rest with
          | nil => rfl
          | cons d r =>
            have := (hsep d rfl).1
            rw [List.takeWhile_cons, if_neg]
            intro hd
            rw [isDigit_word hd] at this
            cases this
        simp [this]
      · rw [not_or] at hsign
        apply lexNumber_none
        intro d hd
        simp only [List.head?_cons, Option.some.injEq] at hd
        subst hd
        exact ⟨hdig, hsign.2, hsign.1⟩
    have hw : lexWord (c :: rest) = none := by
      unfold lexWord
      rw [span_eq, List.takeWhile_cons]
      simp [hfacts.2.2.1]
    have hrs : readString (c :: rest) = none := by
      unfold readString
      split
      · rename_i heq
        simp only [List.cons.injEq] at heq
        exact absurd heq.1 hfacts.2.2.2
      · rfl
    unfold lexStep
    rw [lexSkip_none _ hfacts.1 hfacts.2.1, hn, hw, hrs]
    simp only [hk, Option.getD_some]

/-- A text put together from pieces gives the tokens of the pieces. -/
theorem tokenize_pieces : ∀ (ps : List Piece), Chain ps → tokenize (textOf ps) = .ok (toksOf ps) := by
  intro ps
  induction ps with
  | nil => intro _; rfl
  | cons p r ih =>
    rintro ⟨h1, h2, h3⟩
    have ih := ih h3
    rw [textOf_cons, toksOf_cons]
    by_cases hp : ∃ c, p = .sp c
    · obtain ⟨c, rfl⟩ := hp
      have : isBlank c = true := h1
      simp only [Piece.text, Piece.tok, List.cons_append, List.nil_append]
      rw [tokenize_blank this, ih]
    · obtain ⟨c, t, he, tk, ht, hs⟩ := lexStep_piece h1 h2 fun c hc => hp ⟨c, hc⟩
      rw [he, List.cons_append] at hs ⊢
      rw [tokenize_step hs, ih, ht]
      rfl

end Cantools.Dbc
