import Verif.Spec.ArxmlScale
import Verif.Lemmas.SpreadFrame
import Verif.Lemmas.DbcLoaded
import Mathlib.Tactic.IntervalCases
import Mathlib.Tactic.Ring

/-! The numbers of ARXML files. -/

namespace Cantools.ArxmlScale

open Cantools.Spec
open Regex (Chars)

theorem strip_padded {a w b : Chars} (ha : ∀ c ∈ a ++ b, Regex.isSpace c = true)
    (hf : ∀ c, w.head? = some c → Regex.isSpace c = false)
    (hl : ∀ c, w.getLast? = some c → Regex.isSpace c = false) :
    DecodeCommand.strip (a ++ w ++ b) = w := by
  have drop : ∀ (x y : Chars), (∀ c ∈ x, Regex.isSpace c = true) →
      (∀ c, y.head? = some c → Regex.isSpace c = false) →
      (x ++ y).dropWhile Regex.isSpace = y := by
    intro x y hx hy
    induction x with
    | nil =>
      cases y with
      | nil => rfl
      | cons c y => simp [hy c rfl]
    | cons c x ih =>
      rw [List.cons_append, List.dropWhile_cons_of_pos (hx c (by simp))]
      exact ih fun c hc => hx c (List.mem_cons_of_mem _ hc)
  unfold DecodeCommand.strip
  cases w with
  | nil =>
    have h := drop (a ++ b) [] (by simpa using ha) (by simp)
    simp only [List.append_nil] at h ⊢
    rw [h]
    rfl
  | cons c w =>
    rw [List.append_assoc, drop a _ (fun c hc => ha c (by simp [hc])) (by simpa using hf c rfl),
      List.reverse_append, drop b.reverse _ (fun c hc => ha c (by simp_all))
        (by rw [List.head?_reverse]; exact hl), List.reverse_reverse]

theorem digitOf_digitChar {base x : Nat} (hb : base ≤ 16) (hx : x < base) :
    digitOf base (Nat.digitChar x) = some x := by
  have h16 : x < 16 := by omega
  have : (if '0' ≤ Nat.digitChar x ∧ Nat.digitChar x ≤ '9' then some ((Nat.digitChar x).toNat - 48)
    else if 'a' ≤ Nat.digitChar x ∧ Nat.digitChar x ≤ 'z' then some ((Nat.digitChar x).toNat - 87)
      else none) = some x := by
    interval_cases x <;> rfl
  unfold digitOf
  dsimp only
  rw [this]
  simp [Option.filter, hx]

theorem digitChar_ne {x : Nat} (hx : x < 16) : Nat.digitChar x ≠ '_' := by
  interval_cases x <;> decide

theorem digitsFrom_digitText {base : Nat} (hb : base ≤ 16) :
    ∀ (ds : List Nat) (acc : Nat), (∀ x ∈ ds, x < base) →
      digitsFrom base acc (digitText ds) =
        some (acc * base ^ ds.length + Nat.ofDigits base ds.reverse)
  | [], acc, _ => by simp [digitText, digitsFrom]
  | x :: ds, acc, h => by
    have hx := h x (by simp)
    have ih := digitsFrom_digitText hb ds (acc * base + x) fun y hy => h y (List.mem_cons_of_mem _ hy)
    have step : digitsFrom base acc (digitText (x :: ds)) =
        (digitOf base (Nat.digitChar x)).bind fun d =>
          digitsFrom base (acc * base + d) (digitText ds) := by
      change digitsFrom base acc (Nat.digitChar x :: digitText ds) = _
      rw [digitsFrom.eq_3]
      intro c r e
      exact fun _ => digitChar_ne (by omega) e
    rw [step, digitOf_digitChar hb hx, Option.bind_some, ih, List.reverse_cons, Nat.ofDigits_append,
      List.length_reverse, List.length_cons, Nat.ofDigits_singleton]
    congr 1
    ring

theorem digits_digitText {base : Nat} (hb : base ≤ 16) {ds : List Nat} (hne : ds ≠ [])
    (h : ∀ x ∈ ds, x < base) : digits base (digitText ds) = some (Nat.ofDigits base ds.reverse) := by
  cases ds with
  | nil => exact absurd rfl hne
  | cons x ds =>
    change (digitOf base (Nat.digitChar x)).bind (fun d => digitsFrom base d (digitText ds)) = _
    rw [digitOf_digitChar hb (h x (by simp)), Option.bind_some,
      digitsFrom_digitText hb ds x fun y hy => h y (List.mem_cons_of_mem _ hy), List.reverse_cons,
      Nat.ofDigits_append, List.length_reverse, Nat.ofDigits_singleton]
    congr 1
    ring

theorem prefixed_digitText {base : Nat} (hb : base ≤ 16) {ds : List Nat} (hne : ds ≠ [])
    (h : ∀ x ∈ ds, x < base) :
    prefixed base (digitText ds) = some (Nat.ofDigits base ds.reverse) := by
  cases ds with
  | nil => exact absurd rfl hne
  | cons x ds =>
    rw [← digits_digitText hb hne h]
    change prefixed base (Nat.digitChar x :: digitText ds) = _
    rw [prefixed.eq_2]
    · rfl
    · intro r e
      have := (List.cons.inj e).1
      exact digitChar_ne (by have := h x (by simp); omega) this

theorem natBase0_decimal {d : Nat} {ds : List Nat} (hd : 0 < d) (h : ∀ x ∈ d :: ds, x < 10) :
    natBase0 (digitText (d :: ds)) = some (Nat.ofDigits 10 (d :: ds).reverse) := by
  rw [← digits_digitText (by decide) (by simp) h]
  have h10 := h d (by simp)
  have hz : Nat.digitChar d ≠ '0' := by interval_cases d <;> decide
  change natBase0 (Nat.digitChar d :: digitText ds) = _
  unfold natBase0
  split <;> first | rfl | (rename_i e; exact absurd (List.cons.inj e).1 hz)

/-- The sign and what `int(text, 0)` makes of it. -/
theorem intBase0_sign {sign : Chars} {f : Nat → Int} (hs : Sign sign f) {r : Chars} {n : Nat}
    (h : natBase0 r = some n) (hp : ∀ r', r ≠ '+' :: r') (hm : ∀ r', r ≠ '-' :: r') :
    intBase0 (sign ++ r) = some (f n) := by
  cases hs with
  | none =>
    rw [List.nil_append]
    unfold intBase0
    split
    · exact absurd rfl (hm _)
    · exact absurd rfl (hp _)
    · simp [h]
  | plus => simp [intBase0, h]
  | minus => simp [intBase0, h]

theorem numberOf_signed {F : FloatRead} {sign : Chars} {f : Nat → Int} (hs : Sign sign f)
    {c : Char} {r : Chars} {n : Nat} (h : natBase0 (c :: r) = some n)
    (hc : '0' ≤ c ∧ c ≤ '9') (hz : sign = [] → c = '0' → ∀ d r', r = d :: r' → Regex.isDigit d = false) :
    numberOf F (sign ++ c :: r) = .ok ((f n : Int) : Rat) := by
  have hp : ∀ r', c :: r ≠ '+' :: r' := by
    intro r' e
    obtain ⟨rfl, -⟩ := List.cons.inj e
    exact absurd hc (by decide)
  have hm : ∀ r', c :: r ≠ '-' :: r' := by
    intro r' e
    obtain ⟨rfl, -⟩ := List.cons.inj e
    exact absurd hc (by decide)
  have hi := intBase0_sign hs h hp hm
  have h1 : sign ++ c :: r ≠ "true".toList := by
    intro e
    cases hs with
    | none =>
      obtain ⟨rfl, -⟩ := List.cons.inj (e : c :: r = 't' :: _)
      exact absurd hc (by decide)
    | plus => exact absurd (List.cons.inj (e : '+' :: c :: r = 't' :: _)).1 (by decide)
    | minus => exact absurd (List.cons.inj (e : '-' :: c :: r = 't' :: _)).1 (by decide)
  have h2 : sign ++ c :: r ≠ "false".toList := by
    intro e
    cases hs with
    | none =>
      obtain ⟨rfl, -⟩ := List.cons.inj (e : c :: r = 'f' :: _)
      exact absurd hc (by decide)
    | plus => exact absurd (List.cons.inj (e : '+' :: c :: r = 'f' :: _)).1 (by decide)
    | minus => exact absurd (List.cons.inj (e : '-' :: c :: r = 'f' :: _)).1 (by decide)
  unfold numberOf
  rw [if_neg h1, if_neg h2]
  split
  · rename_i d r' e
    have hd : Regex.isDigit d = false := by
      cases hs with
      | none =>
        obtain ⟨rfl, e'⟩ := List.cons.inj (e : c :: r = '0' :: d :: r')
        exact hz rfl rfl d r' e'
      | plus => exact absurd (List.cons.inj (e : '+' :: c :: r = '0' :: _)).1 (by decide)
      | minus => exact absurd (List.cons.inj (e : '-' :: c :: r = '0' :: _)).1 (by decide)
    rw [hd, ← e, hi]
    rfl
  · rw [hi]

theorem numberOf_integer {F : FloatRead} {w : Chars} {i : Int} (h : IntegerText w i) (hne : w ≠ [])
    (ho : ¬ SignedOctal w) : numberOf F w = .ok (i : Rat) := by
  cases h with
  | empty => exact absurd rfl hne
  | yes => rfl
  | no => rfl
  | @decimal sign f d ds h hd hds =>
    have h10 := hds d (by simp)
    refine numberOf_signed h (c := Nat.digitChar d) (r := digitText ds) (natBase0_decimal hd hds) ?_ ?_
    · interval_cases d <;> decide
    · intro _ e
      exfalso
      revert e
      interval_cases d <;> decide
  | @zero sign f h =>
    have hf : f 0 = 0 := by cases h <;> rfl
    have := numberOf_signed (F := F) h (c := '0') (r := []) (n := 0) (by decide) (by decide)
      (by simp)
    rw [hf] at this
    exact this
  | @octal sign f ds h hds' hds =>
    cases ds with
    | nil => exact absurd rfl hds'
    | cons x ds =>
      have h8 := hds x (by simp)
      have hdig : '0' ≤ Nat.digitChar x ∧ Nat.digitChar x ≤ '9' := by interval_cases x <;> decide
      cases h with
      | plus => exact absurd ⟨'+', Nat.digitChar x, digitText ds, rfl, Or.inl rfl, hdig⟩ ho
      | minus => exact absurd ⟨'-', Nat.digitChar x, digitText ds, rfl, Or.inr rfl, hdig⟩ ho
      | none =>
        have e8 := digits_digitText (base := 8) (ds := 0 :: x :: ds) (by decide) (by simp)
          (fun y hy => by rcases List.mem_cons.1 hy with rfl | hy
                          · decide
                          · exact hds y hy)
        have ez : Nat.ofDigits 8 (0 :: x :: ds).reverse = Nat.ofDigits 8 (x :: ds).reverse := by
          rw [List.reverse_cons, Nat.ofDigits_append, Nat.ofDigits_singleton]
          simp
        rw [ez] at e8
        change digits 8 ('0' :: Nat.digitChar x :: digitText ds) = _ at e8
        change numberOf F ('0' :: Nat.digitChar x :: digitText ds) = _
        have hd : Regex.isDigit (Nat.digitChar x) = true := by
          simpa [Regex.isDigit] using hdig
        have h1 : '0' :: Nat.digitChar x :: digitText ds ≠ "true".toList := fun e =>
          absurd (List.cons.inj (e : '0' :: _ = 't' :: _)).1 (by decide)
        have h2 : '0' :: Nat.digitChar x :: digitText ds ≠ "false".toList := fun e =>
          absurd (List.cons.inj (e : '0' :: _ = 'f' :: _)).1 (by decide)
        unfold numberOf
        rw [if_neg h1, if_neg h2]
        split
        · rename_i d r e
          obtain ⟨rfl, rfl⟩ := List.cons.inj (List.cons.inj e).2
          rw [if_pos hd, e8]
          simp [orValueError]
        · rename_i hno
          exact absurd rfl (hno _ _)
  | @hexadecimal sign f ds h hds' hds =>
    refine numberOf_signed h (c := '0') (r := 'x' :: digitText ds)
      (prefixed_digitText (by decide) hds' hds) (by decide) ?_
    intro _ _ d r e
    obtain ⟨rfl, -⟩ := List.cons.inj e
    decide
  | @binary sign f ds h hds' hds =>
    refine numberOf_signed h (c := '0') (r := 'b' :: digitText ds)
      (prefixed_digitText (by decide) hds' hds) (by decide) ?_
    intro _ _ d r e
    obtain ⟨rfl, -⟩ := List.cons.inj e
    decide

theorem digitOf_chars {base : Nat} (hb : base ≤ 10) (c : Char) (d : Nat) (h : digitOf base c = some d) :
    c ≠ '.' ∧ c ≠ 'e' := by
  constructor
  · rintro rfl
    exact absurd h (by simp [digitOf])
  · rintro rfl
    have : ('e'.toNat - 87) = 14 := rfl
    unfold digitOf at h
    simp [Option.filter] at h
    omega

theorem digitsFrom_chars {base : Nat} (hb : base ≤ 10) :
    ∀ (r : Chars) (acc n : Nat), digitsFrom base acc r = some n →
      '.' ∉ r ∧ 'e' ∉ r
  | [], _, _, _ => by simp
  | [c], acc, n, h => by
    have key : ∀ c d, digitOf base c = some d → c ≠ '.' ∧ c ≠ 'e' := digitOf_chars hb
    have h' : ((digitOf base c).bind fun d => digitsFrom base (acc * base + d) []) = some n := by
      rw [← h, digitsFrom.eq_3]
      intro c' r' _ e
      exact absurd e (by simp)
    obtain ⟨d, hd, -⟩ := Option.bind_eq_some_iff.1 h'
    have := key c d hd
    simp [this.1.symm, this.2.symm]
  | c :: c' :: r, acc, n, h => by
    have key : ∀ c d, digitOf base c = some d → c ≠ '.' ∧ c ≠ 'e' := digitOf_chars hb
    by_cases hc : c = '_'
    · subst hc
      rw [digitsFrom.eq_2] at h
      obtain ⟨d, hd, h⟩ := Option.bind_eq_some_iff.1 h
      have ih := digitsFrom_chars hb r _ n h
      have := key c' d hd
      simp [this.1.symm, this.2.symm, ih.1, ih.2]
    · rw [digitsFrom.eq_3 _ _ _ _ (fun _ _ e _ => hc e)] at h
      obtain ⟨d, hd, h⟩ := Option.bind_eq_some_iff.1 h
      have ih := digitsFrom_chars hb (c' :: r) _ n h
      have := key c d hd
      simp only [List.mem_cons, not_or] at ih ⊢
      exact ⟨⟨this.1.symm, ih.1⟩, this.2.symm, ih.2⟩
theorem digits_chars {base : Nat} (hb : base ≤ 10) {r : Chars} {n : Nat}
    (h : digits base r = some n) : '.' ∉ r ∧ 'e' ∉ r := by
  cases r with
  | nil => simp
  | cons c r =>
    obtain ⟨d, hd, h⟩ := Option.bind_eq_some_iff.1
      (h : (digitOf base c).bind (fun d => digitsFrom base d r) = some n)
    have ih := digitsFrom_chars hb r _ n h
    have := digitOf_chars hb c d hd
    simp [this.1.symm, this.2.symm, ih.1, ih.2]

/-- The characters of a decimal number with a fraction. -/
def DecimalChar (c : Char) : Prop := ('0' ≤ c ∧ c ≤ '9') ∨ c ∈ ['+', '-', '.', 'e']

theorem natBase0_fraction {r : Chars} (h : ∀ c ∈ r, DecimalChar c) (hp : '.' ∈ r ∨ 'e' ∈ r) :
    natBase0 r = none := by
  have bad : ∀ c, c = 'x' ∨ c = 'o' ∨ c = 'b' → ¬ DecimalChar c := by
    intro c hc
    rcases hc with rfl | rfl | rfl <;> · unfold DecimalChar; decide
  unfold natBase0
  split
  · exact absurd (h 'x' (by simp)) (bad _ (by simp))
  · exact absurd (h 'o' (by simp)) (bad _ (by simp))
  · exact absurd (h 'b' (by simp)) (bad _ (by simp))
  · rename_i r' _ _ _
    split
    · rename_i hall
      exfalso
      have hall' := List.all_eq_true.1 hall
      rcases hp with hp | hp
      · rcases List.mem_cons.1 hp with e | hp
        · exact absurd e (by decide)
        · exact absurd (hall' _ hp) (by decide)
      · rcases List.mem_cons.1 hp with e | hp
        · exact absurd e (by decide)
        · exact absurd (hall' _ hp) (by decide)
    · rfl
  · cases hn : digits 10 r with
    | none => rfl
    | some n =>
      have := digits_chars (by decide) hn
      rcases hp with hp | hp
      · exact absurd hp this.1
      · exact absurd hp this.2

theorem intBase0_fraction {w : Chars} (h : FractionText w) : intBase0 w = none := by
  obtain ⟨hc, hp⟩ := h
  unfold intBase0
  split
  · rename_i r
    rw [natBase0_fraction (r := r) (fun c hr => hc c (List.mem_cons_of_mem _ hr))
      (by simpa using hp)]
    rfl
  · rename_i r
    rw [natBase0_fraction (r := r) (fun c hr => hc c (List.mem_cons_of_mem _ hr))
      (by simpa using hp)]
    rfl
  · rw [natBase0_fraction hc hp]
    rfl

theorem numberOf_fraction {F : FloatRead} {w : Chars} {q : Rat} (h : FractionText w)
    (hq : F.float w = some q) (hp : ¬ PaddedFraction w) : numberOf F w = .ok q := by
  have hi := intBase0_fraction h
  have h1 : w ≠ "true".toList := by
    rintro rfl
    exact absurd (h.1 't' (by decide)) (by decide)
  have h2 : w ≠ "false".toList := by
    rintro rfl
    exact absurd (h.1 'f' (by decide)) (by decide)
  unfold numberOf
  rw [if_neg h1, if_neg h2]
  split
  · rename_i d r
    have hd : Regex.isDigit d = false := by
      cases hd : Regex.isDigit d with
      | false => rfl
      | true => exact absurd ⟨h, d, r, rfl, by simpa [Regex.isDigit] using hd⟩ hp
    have hx : d ≠ 'x' := by
      rintro rfl
      exact absurd (h.1 'x' (by simp)) (by decide)
    rw [hd, hi]
    simp only [Bool.false_eq_true, if_false]
    rw [if_neg hx, hq]
    rfl
  · rw [hi, hq]
    rfl

theorem toLower_space {c : Char} (h : Regex.isSpace c = true) : c.toLower = c := by
  have hc : ¬ (c.val ≥ 65 ∧ c.val ≤ 90) := by
    intro hc
    have h1 : 65 ≤ c.val.toNat := UInt32.le_iff_toNat_le.1 hc.1
    simp only [Regex.isSpace, Bool.or_eq_true, beq_iff_eq, decide_eq_true_eq] at h
    rcases h with (rfl | ⟨_, h⟩) | ⟨_, h⟩
    · exact absurd h1 (by decide)
    · have : c.val.toNat ≤ 13 := UInt32.le_iff_toNat_le.1 (Char.le_def.1 h)
      omega
    · have : c.val.toNat ≤ 31 := UInt32.le_iff_toNat_le.1 (Char.le_def.1 h)
      omega
  unfold Char.toLower
  simp only [ge_iff_le] at hc ⊢
  split
  · exact absurd ‹_› hc
  · rfl

/-- The characters a number is made of are no blanks. -/
theorem numberText_chars {F : FloatRead} {w : Chars} {q : Rat} (h : NumberText F w q) :
    ∀ c ∈ w, Regex.isSpace c = false := by
  have hdig : ∀ ds : List Nat, (∀ x ∈ ds, x < 16) → ∀ c ∈ digitText ds, Regex.isSpace c = false := by
    intro ds hds c hc
    obtain ⟨x, hx, rfl⟩ := List.mem_map.1 hc
    have := hds x hx
    interval_cases x <;> decide
  have hsign : ∀ sign f, Sign sign f → ∀ c ∈ sign, Regex.isSpace c = false := by
    intro sign f hs c hc
    cases hs <;> simp_all <;> decide
  have e0 : Regex.isSpace '0' = false := by decide
  have ex : Regex.isSpace 'x' = false := by decide
  have eb : Regex.isSpace 'b' = false := by decide
  cases h with
  | fraction h _ =>
    intro c hc
    rcases h.1 c hc with ⟨h1, h2⟩ | h
    · have g1 : 48 ≤ c.val.toNat := UInt32.le_iff_toNat_le.1 (Char.le_def.1 h1)
      cases hs : Regex.isSpace c with
      | false => rfl
      | true =>
        exfalso
        simp only [Regex.isSpace, Bool.or_eq_true, beq_iff_eq, decide_eq_true_eq] at hs
        rcases hs with (rfl | ⟨_, h⟩) | ⟨_, h⟩
        · exact absurd g1 (by decide)
        · have : c.val.toNat ≤ 13 := UInt32.le_iff_toNat_le.1 (Char.le_def.1 h)
          omega
        · have : c.val.toNat ≤ 31 := UInt32.le_iff_toNat_le.1 (Char.le_def.1 h)
          omega
    · simp only [List.mem_cons, List.not_mem_nil, or_false] at h
      rcases h with rfl | rfl | rfl | rfl <;> decide
  | integer h =>
    intro c hc
    cases h with
    | empty => exact absurd hc List.not_mem_nil
    | yes => revert c; decide
    | no => revert c; decide
    | decimal h hd hds =>
      rcases List.mem_append.1 hc with hc | hc
      · exact hsign _ _ h c hc
      · exact hdig _ (fun x hx => by have := hds x hx; omega) c hc
    | zero h =>
      rcases List.mem_append.1 hc with hc | hc
      · exact hsign _ _ h c hc
      · rw [List.mem_singleton.1 hc]; exact e0
    | octal h _ hds =>
      rcases List.mem_append.1 hc with hc | hc
      · exact hsign _ _ h c hc
      · rcases List.mem_cons.1 hc with rfl | hc
        · exact e0
        · exact hdig _ (fun x hx => by have := hds x hx; omega) c hc
    | hexadecimal h _ hds =>
      rcases List.mem_append.1 hc with hc | hc
      · exact hsign _ _ h c hc
      · rcases List.mem_cons.1 hc with rfl | hc
        · exact e0
        rcases List.mem_cons.1 hc with rfl | hc
        · exact ex
        · exact hdig _ (fun x hx => by have := hds x hx; omega) c hc
    | binary h _ hds =>
      rcases List.mem_append.1 hc with hc | hc
      · exact hsign _ _ h c hc
      · rcases List.mem_cons.1 hc with rfl | hc
        · exact e0
        rcases List.mem_cons.1 hc with rfl | hc
        · exact eb
        · exact hdig _ (fun x hx => by have := hds x hx; omega) c hc

theorem parseNumber_plain {F : FloatRead} {t : Chars} {q : Rat} (h : PlainNumber F t q)
    (allowFloat : Bool) :
    parseNumber F t allowFloat =
      if allowFloat = false ∧ q ≠ (pyInt q : Int) then .error .valueError else .ok q := by
  obtain ⟨⟨a, w, b, rfl, hab, hn⟩, hawk⟩ := h
  have hsp : ∀ c ∈ a ++ b, Regex.isSpace c = true := by
    intro c hc
    have := hab c hc
    simp only [List.mem_cons, List.not_mem_nil, or_false] at this
    rcases this with rfl | rfl | rfl | rfl <;> decide
  have hw : ∀ c ∈ w, Regex.isSpace c = false := by
    intro c hc
    cases hs : Regex.isSpace c with
    | false => rfl
    | true =>
      have := numberText_chars hn c.toLower (List.mem_map.2 ⟨c, hc, rfl⟩)
      rw [toLower_space hs, hs] at this
      exact this
  have hstrip := strip_padded hsp (w := w) (fun c hc => hw c (List.mem_of_head? hc))
    (fun c hc => hw c (List.mem_of_getLast? hc))
  have ho : ¬ SignedOctal (w.map Char.toLower) := fun h => hawk ⟨a, w, b, rfl, hab, Or.inl h⟩
  have hp : ¬ PaddedFraction (w.map Char.toLower) := fun h => hawk ⟨a, w, b, rfl, hab, Or.inr h⟩
  unfold parseNumber
  rw [hstrip]
  dsimp only
  by_cases he : w.map Char.toLower = []
  · rw [if_pos he]
    rw [he] at hn
    have hq : q = 0 := by
      cases hn with
      | fraction h _ => exact absurd h.2 (by simp)
      | integer h =>
        generalize hv : ([] : Chars) = v at h
        cases h with
        | empty => simp
        | yes => exact absurd hv (by simp)
        | no => exact absurd hv (by simp)
        | decimal h _ _ => cases h <;> exact absurd hv (by simp [digitText])
        | zero h => cases h <;> exact absurd hv (by simp)
        | octal h _ _ => cases h <;> exact absurd hv (by simp)
        | hexadecimal h _ _ => cases h <;> exact absurd hv (by simp)
        | binary h _ _ => cases h <;> exact absurd hv (by simp)
    subst hq
    have : (pyInt 0 : Int) = 0 := by decide
    rw [this]
    simp
  · rw [if_neg he]
    have hv : numberOf F (w.map Char.toLower) = .ok q := by
      cases hn with
      | integer h => exact numberOf_integer h he ho
      | fraction h hq => exact numberOf_fraction h hq hp
    rw [hv]
    rfl

end Cantools.ArxmlScale
