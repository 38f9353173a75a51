import Verif.Spec.DbcNumber
import Verif.Lemmas.DbcLex
import Verif.Lemmas.KcdText

/-
The texts of numbers in DBC files.
-/

namespace Cantools.Dbc
open Cantools Spec

theorem digit_facts {c : Char} (h : isDigit c = true) : c ≠ '-' ∧ c ≠ '+' ∧ c ≠ '.' ∧ c ≠ 'e' ∧ c ≠ 'E' := by
  refine ⟨?_, ?_, ?_, ?_, ?_⟩ <;> (rintro rfl; exact absurd h (by decide))

theorem sep_nil : Sep [] := by intro c h; cases h

theorem sep_cons {c : Char} {r : Chars} (h : isWordChar c = false) (h2 : c ≠ '.') : Sep (c :: r) := by
  intro d hd
  simp only [List.head?_cons, Option.some.injEq] at hd
  subst hd
  exact ⟨h, h2⟩

theorem sep_no_digit {r : Chars} (h : Sep r) : ∀ c, r.head? = some c → isDigit c = false := by
  intro c hc
  cases hd : isDigit c with
  | false => rfl
  | true => have := (h c hc).1; rw [isDigit_word hd] at this; cases this

theorem span_digits {d r : Chars} (hd : ∀ c ∈ d, isDigit c = true)
    (hr : ∀ c, r.head? = some c → isDigit c = false) : (d ++ r).span isDigit = (d, r) := by
  rw [span_eq, (takeWhile_append_sep hd hr).1, (takeWhile_append_sep hd hr).2]

theorem takeExponent_none {r : Chars} (h : Sep r) : takeExponent r = ([], r) := by
  unfold takeExponent
  split
  · rfl
  · rename_i c r
    have := (h c rfl).1
    rw [if_neg]
    rintro (rfl | rfl) <;> exact absurd this (by decide)

theorem takeExponent_some {s : Char} {e r : Chars} (hs : s = '+' ∨ s = '-') (he : Digits e) (h : Sep r) :
    takeExponent ('e' :: s :: e ++ r) = ('e' :: s :: e, r) := by
  have h1 : takeSign (s :: (e ++ r)) = ([s], e ++ r) := by
    rcases hs with rfl | rfl <;> rfl
  have h2 := span_digits he.2 (sep_no_digit h)
  simp only [takeExponent, List.cons_append, h1, h2]
  rw [if_pos (by simp), if_neg he.1]
  rfl

/-- The steps in which the text of a number is read. -/
theorem number_steps {neg : Bool} {d : Chars} {frac : Option Chars} {ex : Option (Char × Chars)}
    (hd : Digits d) (hf : ∀ f, frac = some f → Digits f)
    (he : ∀ s e, ex = some (s, e) → (s = '+' ∨ s = '-') ∧ Digits e) {rest : Chars} (hr : Sep rest) :
    ∃ A B C D, takeSign (numberText neg d frac ex ++ rest) = (if neg then ['-'] else [], A) ∧
      A.span isDigit = (d, B) ∧
      takePoint B = (if frac.isSome then ['.'] else [], C) ∧ C.span isDigit = (frac.getD [], D) ∧
      takeExponent D = (exText ex, rest) := by
  have hD : takeExponent (exText ex ++ rest) = (exText ex, rest) := by
    cases ex with
    | none => exact takeExponent_none hr
    | some p => obtain ⟨s, e⟩ := p; exact takeExponent_some (he s e rfl).1 (he s e rfl).2 hr
  have hXd : ∀ c, (exText ex ++ rest).head? = some c → isDigit c = false ∧ c ≠ '.' := by
    intro c hc
    cases ex with
    | none => exact ⟨sep_no_digit hr c hc, (hr c hc).2⟩
    | some p =>
      obtain ⟨s, e⟩ := p
      simp only [exText, List.cons_append, List.head?_cons, Option.some.injEq] at hc
      subst hc; decide
  have hC : (frac.getD [] ++ (exText ex ++ rest)).span isDigit = (frac.getD [], exText ex ++ rest) := by
    apply span_digits
    · cases frac with
      | none => simp
      | some f => exact (hf f rfl).2
    · exact fun c hc => (hXd c hc).1
  have hB : takePoint (fracText frac ++ (exText ex ++ rest)) = (if frac.isSome then ['.'] else [], frac.getD [] ++ (exText ex ++ rest)) := by
    cases frac with
    | none =>
      simp only [fracText, List.nil_append, Option.getD_none, Option.isSome_none, Bool.false_eq_true, if_false]
      unfold takePoint
      split
      · rename_i heq; exact absurd rfl (hXd '.' (by rw [heq]; rfl)).2
      · rfl
    | some f => simp [fracText, takePoint]
  have hPd : ∀ c, (fracText frac ++ (exText ex ++ rest)).head? = some c → isDigit c = false := by
    intro c hc
    cases frac with
    | none => exact (hXd c hc).1
    | some f =>
      simp only [fracText, List.cons_append, List.head?_cons, Option.some.injEq] at hc
      subst hc; decide
  have hA := span_digits hd.2 hPd
  have hS : takeSign (numberText neg d frac ex ++ rest) =
      (if neg then ['-'] else [], d ++ (fracText frac ++ (exText ex ++ rest))) := by
    have e : numberText neg d frac ex ++ rest = (if neg then ['-'] else []) ++ (d ++ (fracText frac ++ (exText ex ++ rest))) := by
      simp only [numberText, List.append_assoc]
    rw [e]
    cases neg with
    | true => rfl
    | false =>
      simp only [Bool.false_eq_true, if_false, List.nil_append]
      apply takeSign_of_ne
      intro c hc
      obtain ⟨c', d', rfl⟩ := List.exists_cons_of_ne_nil hd.1
      simp only [List.cons_append, List.head?_cons, Option.some.injEq] at hc
      subst hc
      have := digit_facts (hd.2 c' (by simp))
      exact ⟨this.1, this.2.1⟩
  exact ⟨_, _, _, _, hS, hA, hB, hC, hD⟩

theorem isNumber_of {neg : Bool} {d : Chars} {frac : Option Chars} {ex : Option (Char × Chars)}
    (hd : Digits d) (hf : ∀ f, frac = some f → Digits f)
    (he : ∀ s e, ex = some (s, e) → (s = '+' ∨ s = '-') ∧ Digits e) :
    IsNumber (numberText neg d frac ex) := by
  intro rest hr
  obtain ⟨A, B, C, D, h1, h2, h3, h4, h5⟩ := number_steps (neg := neg) hd hf he hr
  unfold lexNumber
  simp only [h1, h2, h3, h4, h5, if_neg hd.1]
  congr 2
  unfold numberText
  cases frac <;> cases ex <;> simp [fracText]

theorem readDecimal_of {neg : Bool} {d : Chars} {frac : Option Chars} {ex : Option (Char × Chars)}
    (hd : Digits d) (hf : ∀ f, frac = some f → Digits f)
    (he : ∀ s e, ex = some (s, e) → (s = '+' ∨ s = '-') ∧ Digits e) :
    readDecimal (numberText neg d frac ex) = .ok
      (let m : Rat := (digitsValue (d ++ frac.getD []) : Rat) / 10 ^ (frac.getD []).length
       let v := match ex with
         | none => m
         | some (s, e) => if s = '-' then m / 10 ^ digitsValue e else m * 10 ^ digitsValue e
       if neg then -v else v) := by
  obtain ⟨A, B, C, D, h1, h2, h3, h4, h5⟩ := number_steps (neg := neg) hd hf he sep_nil
  rw [List.append_nil] at h1
  unfold readDecimal
  simp only [h1, h2, h3, h4, h5, if_neg hd.1]
  rw [if_neg (by simp)]
  cases ex with
  | none => cases neg <;> simp [exText, takeSign, digitsValue]
  | some p =>
    obtain ⟨s, e⟩ := p
    rcases (he s e rfl).1 with rfl | rfl <;> cases neg <;> simp [exText, takeSign]

/-! ### Integers -/

theorem decimal_digits (n : Nat) : Digits (decimal n) := by
  constructor
  · obtain ⟨c, r, h, _⟩ := Kcd.decimal_head n; rw [h]; simp
  · induction n using Nat.strongRecOn with
    | ind n ih =>
      have hdig : ∀ k, k < 10 → isDigit (Char.ofNat (48 + k)) = true := by decide
      rw [decimal]
      split
      · rename_i h
        intro c hc
        simp only [List.mem_singleton] at hc
        subst hc
        exact hdig n h
      · intro c hc
        simp only [List.mem_append, List.mem_singleton] at hc
        rcases hc with hc | rfl
        · exact ih (n / 10) (by omega) c hc
        · exact hdig _ (by omega)

theorem intText_eq (i : Int) : intText i = numberText (decide (i < 0)) (decimal i.natAbs) none none := by
  unfold intText numberText
  by_cases h : i < 0 <;> simp [h, fracText, exText]

theorem isNumber_intText (i : Int) : IsNumber (intText i) := by
  rw [intText_eq]
  exact isNumber_of (decimal_digits _) (by simp) (by simp)

theorem digitsValue_decimal (n : Nat) : digitsValue (decimal n) = n := decimalValue_decimal n

theorem readDecimal_intText (i : Int) : readDecimal (intText i) = .ok i := by
  rw [intText_eq, readDecimal_of (decimal_digits _) (by simp) (by simp)]
  simp only [Option.getD_none, List.append_nil, digitsValue_decimal, List.length_nil, pow_zero, div_one,
    decide_eq_true_eq, Except.ok.injEq]
  split
  · rename_i h
    have : ((i.natAbs : Int) : Rat) = ((-i : Int) : Rat) := by congr 1; omega
    have h2 : ((i.natAbs : Nat) : Rat) = ((i.natAbs : Int) : Rat) := by simp
    rw [h2, this]; simp
  · rename_i h
    have : ((i.natAbs : Int) : Rat) = ((i : Int) : Rat) := by congr 1; omega
    have h2 : ((i.natAbs : Nat) : Rat) = ((i.natAbs : Int) : Rat) := by simp
    rw [h2, this]

theorem pyInt_intCast (i : Int) : pyInt (i : Rat) = i := by
  unfold pyInt
  simp

theorem toInt_intText (i : Int) : toInt (intText i) = .ok i := by
  unfold toInt
  rw [readDecimal_intText]
  simp [Except.map, pyInt_intCast]

theorem readInt_eq {t : Chars} (h : ∀ c, t.head? = some c → c ≠ '+') :
    readInt t = Kcd.readInt (String.ofList t) := by
  unfold readInt
  split
  · exact absurd rfl (h '+' rfl)
  · exact absurd rfl (h '+' rfl)
  · rfl

theorem numberText_head {neg : Bool} {d : Chars} {frac : Option Chars} {ex : Option (Char × Chars)}
    (hd : Digits d) : ∀ c, (numberText neg d frac ex).head? = some c → c ≠ '+' := by
  intro c hc
  obtain ⟨c', d', rfl⟩ := List.exists_cons_of_ne_nil hd.1
  unfold numberText at hc
  cases neg with
  | true =>
    simp only [if_true, List.cons_append, List.head?_cons, Option.some.injEq] at hc
    subst hc; decide
  | false =>
    simp only [Bool.false_eq_true, if_false, List.nil_append, List.cons_append, List.head?_cons,
      Option.some.injEq] at hc
    subst hc
    exact (digit_facts (hd.2 c' (by simp))).2.1

theorem readInt_intText (i : Int) : readInt (intText i) = .ok i := by
  rw [readInt_eq]
  · exact Kcd.readInt_showInt i
  · rw [intText_eq]; exact numberText_head (decimal_digits _)

theorem intText_nat (n : Nat) : intText (n : Int) = decimal n := by
  unfold intText
  rw [if_neg (by omega)]
  simp

theorem readInt_decimal (n : Nat) : readInt (decimal n) = .ok (n : Int) := by
  rw [← intText_nat]; exact readInt_intText n

theorem decimal_no_leading_zero (n : Nat) : ∀ d r, decimal n ≠ '0' :: d :: r := by
  induction n using Nat.strongRecOn with
  | ind n ih =>
    intro d r h
    rw [decimal] at h
    split at h
    · simp at h
    · rename_i hn
      obtain ⟨c, q, hq, _⟩ := Kcd.decimal_head (n / 10)
      rw [hq] at h
      simp only [List.cons_append, List.cons.injEq] at h
      obtain ⟨rfl, h⟩ := h
      cases q with
      | cons d' r' => exact ih (n / 10) (by omega) d' r' hq
      | nil =>
        have := digitsValue_decimal (n / 10)
        rw [hq] at this
        have h0 : digitsValue ['0'] = 0 := by decide
        rw [h0] at this
        omega

theorem readIntBase0_decimal (n : Nat) : readIntBase0 (decimal n) = .ok (n : Int) := by
  have hs : takeSign (decimal n) = ([], decimal n) := by
    apply takeSign_of_ne
    intro c hc
    have hd := decimal_digits n
    obtain ⟨c', d', h⟩ := List.exists_cons_of_ne_nil hd.1
    rw [h] at hc
    simp only [List.head?_cons, Option.some.injEq] at hc
    subst hc
    have := digit_facts (hd.2 c' (by rw [h]; simp))
    exact ⟨this.1, this.2.1⟩
  unfold readIntBase0
  rw [hs]
  dsimp only
  split
  · rename_i h; exact absurd h (decimal_no_leading_zero n _ _)
  · exact readInt_decimal n

/-! ### Floating point numbers -/

theorem readDigits_digits_none {d r : Chars} {c : Char} (hc : isDigit c = false) (n : Nat) :
    Kcd.readDigits 10 Kcd.digit? (d ++ c :: r) n = none := by
  induction d generalizing n with
  | nil =>
    have : Kcd.digit? c = none := by
      unfold Kcd.digit?
      rw [if_neg]
      intro h
      unfold isDigit at hc
      simp [h.1, h.2] at hc
    simp [Kcd.readDigits, this]
  | cons a d ih =>
    simp only [List.cons_append, Kcd.readDigits]
    cases Kcd.digit? a with
    | none => rfl
    | some k => exact ih _

theorem readInt_float {t : Chars} (h : FloatSyntax t) : ∃ e, readInt t = .error e := by
  obtain ⟨neg, d, frac, ex, rfl, hd, hf, he, hs⟩ := h
  rw [readInt_eq (numberText_head hd)]
  obtain ⟨c, r, hc, heq⟩ : ∃ c r, isDigit c = false ∧ numberText neg d frac ex =
      (if neg then ['-'] else []) ++ (d ++ c :: r) := by
    cases frac with
    | some f => exact ⟨'.', _, by decide, by simp only [numberText, fracText, List.cons_append]; rfl⟩
    | none =>
      cases ex with
      | none => simp at hs
      | some p =>
        obtain ⟨s, e⟩ := p
        exact ⟨'e', s :: e, by decide, by simp [numberText, fracText, exText]⟩
  rw [heq]
  obtain ⟨c', d', rfl⟩ := List.exists_cons_of_ne_nil hd.1
  have h1 : c' ≠ '-' := (digit_facts (hd.2 c' (by simp))).1
  have hn := readDigits_digits_none (d := c' :: d') (r := r) hc 0
  refine ⟨.valueError, ?_⟩
  unfold Kcd.readInt
  rw [String.toList_ofList]
  cases neg with
  | true =>
    simp only [if_true, List.cons_append, List.nil_append] at hn ⊢
    rw [hn]
  | false =>
    simp only [Bool.false_eq_true, if_false, List.cons_append, List.nil_append] at hn ⊢
    split
    · rfl
    · rfl
    · rename_i heq2
      simp only [List.cons.injEq] at heq2
      exact absurd heq2.1 h1
    · rw [hn]

section
variable {F : Type} {T : FloatText F} (L : FloatLaws T)
include L

theorem isNumber_float (f : F) : IsNumber (T.show_ f) := by
  obtain ⟨neg, d, frac, ex, h, hd, hf, he, _⟩ := L.syntax_ f
  rw [h]
  exact isNumber_of hd hf he

theorem isNumber_num (n : Num F) : IsNumber (n.text T) := by
  cases n with
  | int i => exact isNumber_intText i
  | float f => exact isNumber_float L f

theorem num_text (n : Num F) : num T (n.text T) = .ok n := by
  cases n with
  | int i => simp [num, Num.text, readInt_intText]
  | float f =>
    obtain ⟨e, he⟩ := readInt_float (L.syntax_ f)
    simp [num, Num.text, he, L.read_show, Except.map]

theorem read_text (n : Num F) : T.read (n.text T) = .ok (n.toFloat T) := by
  cases n with
  | int i => exact L.read_int i
  | float f => exact L.read_show f

end

end Cantools.Dbc
