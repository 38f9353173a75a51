import Verif.Spec.Plot
import Verif.Lemmas.LogReader

/-!
Lemmas about the `plot` command.
-/

namespace Cantools.Plot
open Regex Spec.Plot

/-! ### The text of patterns -/

/-- What `re.escape` makes of a character. -/
def esc (c : Char) : Chars := if c ∈ special then ['\\', c] else [c]

theorem escape_cons (c : Char) (t : Chars) : escape (c :: t) = esc c ++ escape t := rfl

theorem esc_cases (c : Char) : (c ∈ special ∧ esc c = ['\\', c]) ∨ (c ∉ special ∧ esc c = [c]) := by
  unfold esc
  split
  · exact .inl ⟨by assumption, rfl⟩
  · exact .inr ⟨by assumption, rfl⟩

theorem replace2_cons {a b x : Char} {new r : Chars} (h : x ≠ a ∨ ∀ l, r ≠ b :: l) :
    replace2 a b new (x :: r) = x :: replace2 a b new r := by
  cases r with
  | nil => rfl
  | cons y l =>
    rw [replace2, if_neg]
    rintro ⟨rfl, rfl⟩
    rcases h with h | h
    · exact h rfl
    · exact h l rfl

theorem replace2_hit {a b : Char} {new r : Chars} : replace2 a b new (a :: b :: r) = new ++ replace2 a b new r := by
  rw [replace2, if_pos ⟨rfl, rfl⟩]

theorem contains2_cons {a b x : Char} {r : Chars} (h : x ≠ a ∨ ∀ l, r ≠ b :: l) :
    contains2 a b (x :: r) = contains2 a b r := by
  cases r with
  | nil => rfl
  | cons y l =>
    rw [contains2]
    have : ¬ (x = a ∧ y = b) := by
      rintro ⟨rfl, rfl⟩
      rcases h with h | h
      · exact h rfl
      · exact h l rfl
    simp [this]

/-- A block of the text: an escaped character, an ordinary character or a wildcard. -/
def enc1 (c : Char) : Chars := if c = '*' then ['.', '*'] else esc c
def enc (c : Char) : Chars := if c = '*' then ['.', '*'] else if c = '?' then ['.'] else esc c

theorem special_of {c : Char} (h : c ∉ special) : c ≠ '\\' ∧ c ≠ '.' ∧ c ≠ '*' ∧ c ≠ '?' ∧ c ≠ '$' ∧ c ≠ '|' := by
  refine ⟨?_, ?_, ?_, ?_, ?_, ?_⟩ <;> rintro rfl <;> exact h (by decide)

theorem escape_head {t : Chars} {b : Char} (hb : b ∈ special) (hb' : b ≠ '\\') : ∀ l, escape t ≠ b :: l := by
  intro l h
  cases t with
  | nil => cases h
  | cons c t =>
    rw [escape_cons] at h
    rcases esc_cases c with ⟨_, e⟩ | ⟨hc, e⟩
    · rw [e] at h; injection h with h _; exact hb' h.symm
    · rw [e] at h; injection h with h _; subst h; exact hc hb

theorem enc1_head {t : Chars} : ∀ l, t.flatMap enc1 ≠ '?' :: l := by
  intro l h
  cases t with
  | nil => cases h
  | cons c t =>
    rw [List.flatMap_cons] at h
    unfold enc1 at h
    split at h
    · injection h with h _; revert h; decide
    · rcases esc_cases c with ⟨_, e⟩ | ⟨hc, e⟩
      · rw [e] at h; injection h with h _; revert h; decide
      · rw [e] at h; injection h with h _; subst h; exact hc (by decide)

theorem enc_head {t : Chars} {r : Chars} (hr : ∀ l, r ≠ '*' :: l) : ∀ l, t.flatMap enc ++ r ≠ '*' :: l := by
  intro l h
  cases t with
  | nil => exact hr l h
  | cons c t =>
    rw [List.flatMap_cons] at h
    unfold enc at h
    split at h
    · injection h with h _; revert h; decide
    · split at h
      · injection h with h _; revert h; decide
      · rcases esc_cases c with ⟨_, e⟩ | ⟨hc, e⟩
        · rw [e] at h; injection h with h _; revert h; decide
        · rw [e] at h; injection h with h _; subst h; exact hc (by decide)

theorem replace_star (t : Chars) : replace2 '\\' '*' ".*".toList (escape t) = t.flatMap enc1 := by
  induction t with
  | nil => rfl
  | cons c t ih =>
    rw [escape_cons, List.flatMap_cons]
    by_cases hs : c = '*'
    · subst hs
      rw [show esc '*' = ['\\', '*'] from by decide, show enc1 '*' = ['.', '*'] from by decide]
      show replace2 _ _ _ ('\\' :: '*' :: escape t) = _
      rw [replace2_hit, ih]
      rfl
    · rw [show enc1 c = esc c from if_neg hs]
      rcases esc_cases c with ⟨_, e⟩ | ⟨hc, e⟩
      · rw [e]
        show replace2 _ _ _ ('\\' :: c :: escape t) = '\\' :: c :: _
        rw [replace2_cons (.inr (by rintro l h; injection h with h _; exact hs h)),
          replace2_cons (.inr (escape_head (by decide) (by decide))), ih]; rfl
      · rw [e]
        show replace2 _ _ _ (c :: escape t) = c :: _
        rw [replace2_cons (.inl (special_of hc).1), ih]; rfl

theorem replace_one (t : Chars) : replace2 '\\' '?' ".".toList (t.flatMap enc1) = t.flatMap enc := by
  induction t with
  | nil => rfl
  | cons c t ih =>
    rw [List.flatMap_cons, List.flatMap_cons]
    by_cases hs : c = '*'
    · subst hs
      rw [show enc1 '*' = ['.', '*'] from by decide, show enc '*' = ['.', '*'] from by decide]
      show replace2 _ _ _ ('.' :: '*' :: t.flatMap enc1) = '.' :: '*' :: _
      rw [replace2_cons (.inl (by decide)), replace2_cons (.inl (by decide)), ih]; rfl
    · by_cases hq : c = '?'
      · subst hq
        rw [show enc1 '?' = ['\\', '?'] from by decide, show enc '?' = ['.'] from by decide]
        show replace2 _ _ _ ('\\' :: '?' :: t.flatMap enc1) = _
        rw [replace2_hit, ih]
        rfl
      · rw [show enc1 c = esc c from if_neg hs, show enc c = esc c from by rw [enc, if_neg hs, if_neg hq]]
        rcases esc_cases c with ⟨_, e⟩ | ⟨hc, e⟩
        · rw [e]
          show replace2 _ _ _ ('\\' :: c :: t.flatMap enc1) = '\\' :: c :: _
          rw [replace2_cons (.inr (by rintro l h; injection h with h _; exact hq h)),
            replace2_cons (.inr enc1_head), ih]; rfl
        · rw [e]
          show replace2 _ _ _ (c :: t.flatMap enc1) = c :: _
          rw [replace2_cons (.inl (special_of hc).1), ih]; rfl

theorem contains_dot (t : Chars) : contains2 '\\' '.' (escape t) = true ↔ '.' ∈ t := by
  induction t with
  | nil => simp [escape, contains2]
  | cons c t ih =>
    rw [escape_cons, List.mem_cons]
    by_cases hs : c = '.'
    · subst hs
      rw [show esc '.' = ['\\', '.'] from by decide]
      exact ⟨fun _ => .inl rfl, fun _ => rfl⟩
    · rcases esc_cases c with ⟨_, e⟩ | ⟨hc, e⟩
      · rw [e]
        show contains2 _ _ ('\\' :: c :: escape t) = true ↔ _
        rw [contains2_cons (.inr (by rintro l h; injection h with h _; exact hs h)),
          contains2_cons (.inr (escape_head (by decide) (by decide))), ih]
        exact ⟨.inr, fun h => h.resolve_left (Ne.symm hs)⟩
      · rw [e]
        show contains2 _ _ (c :: escape t) = true ↔ _
        rw [contains2_cons (.inl (special_of hc).1), ih]
        exact ⟨.inr, fun h => h.resolve_left (Ne.symm hs)⟩

theorem patternText_eq (name : Chars) : patternText name = (full name).flatMap enc ++ ['$'] := by
  unfold patternText
  dsimp only
  have : (if contains2 '\\' '.' (escape name) = true then escape name else "\\*".toList ++ ("\\.".toList ++ escape name)) =
      escape (full name) := by
    unfold full
    by_cases h : '.' ∈ name
    · rw [if_pos ((contains_dot name).2 h), if_pos h]
    · rw [if_neg (fun h' => h ((contains_dot name).1 h')), if_neg h, escape_cons, escape_cons]
      rfl
  rw [this, replace_star, replace_one]

/-! ### Compiling patterns -/

/-- The item of a character of a pattern. -/
def item (cs : Bool) (c : Char) : Re := if c = '*' then .star true .any else if c = '?' then .any else literal cs c

theorem compile_dot {cs : Bool} {r : Chars} (h : ∀ l, r ≠ '*' :: l) :
    compileItems cs ('.' :: r) = some .any :: compileItems cs r := by
  cases r with
  | nil => rfl
  | cons c l =>
    have : c ≠ '*' := by rintro rfl; exact h l rfl
    rw [compileItems]
    intro r' e; injection e with e _; exact this e

theorem compile_plain {cs : Bool} {c : Char} {r : Chars} (h : c ∉ special) :
    compileItems cs (c :: r) = some (literal cs c) :: compileItems cs r := by
  obtain ⟨h1, h2, _, _, h5, h6⟩ := special_of h
  rw [compileItems]
  · intro _ _ e; exact absurd e h1
  · intro _ e; exact absurd e h2
  · exact fun e => absurd e h2
  · exact fun e => absurd e h5
  · exact fun e => absurd e h6

theorem compile_enc (cs : Bool) (t : Chars) {r : Chars} (hr : ∀ l, r ≠ '*' :: l) :
    compileItems cs (t.flatMap enc ++ r) = t.map (fun c => some (item cs c)) ++ compileItems cs r := by
  induction t with
  | nil => rfl
  | cons c t ih =>
    rw [List.flatMap_cons, List.map_cons, List.append_assoc]
    by_cases hs : c = '*'
    · subst hs
      rw [show enc '*' = ['.', '*'] from by decide, show item cs '*' = .star true .any from rfl]
      show compileItems cs ('.' :: '*' :: (t.flatMap enc ++ r)) = _
      rw [compileItems, ih]; rfl
    · by_cases hq : c = '?'
      · subst hq
        rw [show enc '?' = ['.'] from by decide, show item cs '?' = .any from rfl]
        show compileItems cs ('.' :: (t.flatMap enc ++ r)) = _
        rw [compile_dot (enc_head hr), ih]; rfl
      · rw [show enc c = esc c from by rw [enc, if_neg hs, if_neg hq],
          show item cs c = literal cs c from by rw [item, if_neg hs, if_neg hq]]
        rcases esc_cases c with ⟨_, e⟩ | ⟨hc, e⟩
        · rw [e]
          show compileItems cs ('\\' :: c :: (t.flatMap enc ++ r)) = _
          rw [compileItems, ih]; rfl
        · rw [e]
          show compileItems cs (c :: (t.flatMap enc ++ r)) = _
          rw [compile_plain hc, ih]; rfl

/-- The items of a pattern. -/
def items (cs : Bool) (name : Chars) : List Re := (full name).map (item cs) ++ [.eos]

theorem compile_pattern (cs : Bool) (name : Chars) :
    compileItems cs (patternText name) = (items cs name).map some := by
  rw [patternText_eq, compile_enc cs _ (by intro l h; injection h with h _; revert h; decide)]
  simp [items, compileItems]

theorem compile_pattern_bar (cs : Bool) (name r : Chars) :
    compileItems cs (patternText name ++ '|' :: r) = (items cs name).map some ++ none :: compileItems cs r := by
  rw [patternText_eq, List.append_assoc, compile_enc cs _ (by intro l h; injection h with h _; revert h; decide)]
  simp [items, compileItems]

theorem alternatives_some (acc : List Re) (l : List Re) : alternatives acc (l.map some) = .all (acc.reverse ++ l) := by
  induction l generalizing acc with
  | nil => simp [alternatives]
  | cons r l ih => rw [List.map_cons, alternatives, ih]; simp

theorem alternatives_bar (acc l : List Re) (m : List (Option Re)) :
    alternatives acc (l.map some ++ none :: m) = .alt (.all (acc.reverse ++ l)) (alternatives [] m) := by
  induction l generalizing acc with
  | nil => simp [alternatives]
  | cons r l ih => rw [List.map_cons, List.cons_append, alternatives, ih]; simp

/-! ### Matching -/

theorem iterate_isSome {p : Char → Bool} {greedy : Bool} {k : Cont} {fuel : Nat} {s : Chars} {g : Groups}
    (hf : s.length ≤ fuel) :
    (iterate (Re.cls p).run greedy k fuel s g).isSome ↔
      ∃ u v, s = u ++ v ∧ (∀ c ∈ u, p c = true) ∧ (k v g).isSome := by
  induction fuel generalizing s with
  | zero =>
    have : s = [] := by cases s with | nil => rfl | cons => simp at hf
    subst this
    constructor
    · intro h; exact ⟨[], [], rfl, by simp, h⟩
    · rintro ⟨u, v, e, _, h⟩
      obtain ⟨rfl, rfl⟩ := List.append_eq_nil_iff.1 e.symm
      exact h
  | succ fuel ih =>
    cases s with
    | nil =>
      rw [iterate_none .nil]
      constructor
      · intro h; exact ⟨[], [], rfl, by simp, h⟩
      · rintro ⟨u, v, e, _, h⟩
        obtain ⟨rfl, rfl⟩ := List.append_eq_nil_iff.1 e.symm
        exact h
    | cons c r =>
      have key : (∃ u v, c :: r = u ++ v ∧ (∀ x ∈ u, p x = true) ∧ (k v g).isSome) ↔
          (k (c :: r) g).isSome ∨ p c = true ∧ ∃ u v, r = u ++ v ∧ (∀ x ∈ u, p x = true) ∧ (k v g).isSome := by
        constructor
        · rintro ⟨u, v, e, hu, h⟩
          cases u with
          | nil => cases e; exact .inl h
          | cons x u =>
            injection e with e1 e2
            subst e1
            exact .inr ⟨hu _ (by simp), u, v, e2, fun y hy => hu y (by simp [hy]), h⟩
        · rintro (h | ⟨hc, u, v, e, hu, h⟩)
          · exact ⟨[], _, rfl, by simp, h⟩
          · refine ⟨c :: u, v, by rw [e]; rfl, ?_, h⟩
            intro x hx
            rcases List.mem_cons.1 hx with rfl | hx
            · exact hc
            · exact hu x hx
      rw [key]
      by_cases hc : p c = true
      · rw [iterate_cons hc]
        have := ih (s := r) (by simp at hf; omega)
        cases greedy with
        | true =>
          simp only [if_true]
          rw [Option.orElse_eq_or, Option.isSome_or, Bool.or_eq_true, this]
          constructor
          · rintro (h | h)
            · exact .inr ⟨hc, h⟩
            · exact .inl h
          · rintro (h | h)
            · exact .inr h
            · exact .inl h.2
        | false =>
          simp only [Bool.false_eq_true, if_false]
          rw [Option.orElse_eq_or, Option.isSome_or, Bool.or_eq_true, this]
          constructor
          · rintro (h | h)
            · exact .inl h
            · exact .inr ⟨hc, h⟩
          · rintro (h | h)
            · exact .inl h
            · exact .inr h.2
      · rw [iterate_none (.cons (by simpa using hc))]
        constructor
        · exact .inl
        · rintro (h | h)
          · exact h
          · exact absurd h.1 hc

theorem run_literal {cs : Bool} {c : Char} {k : Cont} {s : Chars} {g : Groups} :
    ((literal cs c).run k s g).isSome ↔ ∃ x t, s = x :: t ∧ Same cs c x ∧ (k t g).isSome := by
  cases s with
  | nil =>
    constructor
    · unfold literal
      split <;> intro h <;> cases h
    · rintro ⟨x, t, e, _⟩; cases e
  | cons x t =>
    have : (∃ x' t', x :: t = x' :: t' ∧ Same cs c x' ∧ (k t' g).isSome) ↔ Same cs c x ∧ (k t g).isSome := by
      constructor
      · rintro ⟨x', t', e, h⟩; cases e; exact h
      · exact fun h => ⟨x, t, rfl, h⟩
    rw [this]
    unfold literal Same
    cases cs with
    | true =>
      simp only [if_true, Re.chr, run_cls_cons]
      by_cases h : x = c
      · subst h; simp
      · have h' : ¬ c = x := fun e => h e.symm
        simp [h, h']
    | false =>
      simp only [Bool.false_eq_true, if_false, run_cls_cons]
      by_cases h : x.toLower = c.toLower
      · simp [h]
      · have h' : ¬ c.toLower = x.toLower := fun e => h e.symm
        simp [h, h']

theorem glob_cons {cs : Bool} {c : Char} {p t : Chars} (h1 : c ≠ '*') (h2 : c ≠ '?') :
    Glob cs (c :: p) t ↔ ∃ x r, t = x :: r ∧ Same cs c x ∧ Glob cs p r := by
  constructor
  · intro h
    generalize e : c :: p = q at h
    cases h with
    | nil => cases e
    | char _ _ h3 h4 => cases e; exact ⟨_, _, rfl, h3, h4⟩
    | one _ => injection e with e _; exact absurd e h2
    | many _ => injection e with e _; exact absurd e h1
  · rintro ⟨x, r, rfl, h3, h4⟩
    exact .char h1 h2 h3 h4

theorem glob_one {cs : Bool} {p t : Chars} : Glob cs ('?' :: p) t ↔ ∃ x r, t = x :: r ∧ Glob cs p r := by
  constructor
  · intro h
    generalize e : '?' :: p = q at h
    cases h with
    | nil => cases e
    | char _ h2 => injection e with e _; exact absurd e.symm h2
    | one h => cases e; exact ⟨_, _, rfl, h⟩
    | many _ => injection e with e _; exact absurd e (by decide)
  · rintro ⟨x, r, rfl, h⟩
    exact .one h

theorem glob_many {cs : Bool} {p t : Chars} : Glob cs ('*' :: p) t ↔ ∃ u r, t = u ++ r ∧ Glob cs p r := by
  constructor
  · intro h
    generalize e : '*' :: p = q at h
    cases h with
    | nil => cases e
    | char h1 => injection e with e _; exact absurd e.symm h1
    | one h => injection e with e _; exact absurd e (by decide)
    | many h => cases e; exact ⟨_, _, rfl, h⟩
  · rintro ⟨u, r, rfl, h⟩
    exact .many h

theorem glob_nil {cs : Bool} {t : Chars} : Glob cs [] t ↔ t = [] := by
  constructor
  · intro h; cases h; rfl
  · rintro rfl; exact .nil

theorem run_items {cs : Bool} (p : Chars) {name : Chars} (hn : '\n' ∉ name) {g : Groups} :
    ((Re.all (p.map (item cs) ++ [.eos])).run (fun _ g => some g) name g).isSome ↔ Glob cs p name := by
  induction p generalizing name g with
  | nil =>
    rw [glob_nil]
    show ((Re.eos.run _ name g).isSome = true) ↔ _
    simp only [Re.run]
    by_cases h : name = []
    · simp [h]
    · have : name ≠ ['\n'] := by rintro rfl; simp at hn
      simp [h, this]
  | cons c p ih =>
    rw [List.map_cons, List.cons_append, run_all_cons]
    by_cases hs : c = '*'
    · subst hs
      rw [show item cs '*' = .star true .any from rfl, glob_many, run_star]
      show ((iterate (Re.cls fun c => c != '\n').run true _ name.length name g).isSome = true) ↔ _
      rw [iterate_isSome (Nat.le_refl _)]
      constructor
      · rintro ⟨u, v, rfl, _, h⟩
        exact ⟨u, v, rfl, (ih (by simp at hn; exact hn.2)).1 h⟩
      · rintro ⟨u, v, rfl, h⟩
        refine ⟨u, v, rfl, ?_, (ih (by simp at hn; exact hn.2)).2 h⟩
        intro c hc
        have : c ≠ '\n' := by rintro rfl; simp at hn; exact hn.1 hc
        simpa using this
    · by_cases hq : c = '?'
      · subst hq
        rw [show item cs '?' = .any from rfl, glob_one]
        cases name with
        | nil =>
          constructor
          · intro h; cases h
          · rintro ⟨_, _, e, _⟩; cases e
        | cons x t =>
          have hx : (x != '\n') = true := by
            have : x ≠ '\n' := by rintro rfl; simp at hn
            simpa using this
          show ((Re.cls _).run _ (x :: t) g).isSome = true ↔ _
          rw [run_cls_ok (p := fun c => c != '\n') hx, ih (by simp at hn; exact hn.2)]
          constructor
          · exact fun h => ⟨x, t, rfl, h⟩
          · rintro ⟨_, _, e, h⟩; cases e; exact h
      · rw [show item cs c = literal cs c from by rw [item, if_neg hs, if_neg hq], run_literal, glob_cons hs hq]
        constructor
        · rintro ⟨x, t, rfl, h, h'⟩
          exact ⟨x, t, rfl, h, (ih (by simp at hn; exact hn.2)).1 h'⟩
        · rintro ⟨x, t, rfl, h, h'⟩
          exact ⟨x, t, rfl, h, (ih (by simp at hn; exact hn.2)).2 h'⟩

theorem reMatch_pattern {cs : Bool} {p name : Chars} (hn : '\n' ∉ name) :
    reMatch cs (patternText p) name = true ↔ Selects cs p name := by
  unfold reMatch Selects Re.match?
  rw [compile_pattern, alternatives_some]
  exact run_items _ hn

theorem reMatch_bar {cs : Bool} {p r name : Chars} (hn : '\n' ∉ name) :
    reMatch cs (patternText p ++ '|' :: r) name = true ↔ Selects cs p name ∨ reMatch cs r name = true := by
  unfold reMatch Selects Re.match?
  rw [compile_pattern_bar, alternatives_bar]
  show ((_ : Option Groups).orElse _).isSome = true ↔ _
  rw [Option.orElse_eq_or, Option.isSome_or, Bool.or_eq_true]
  rw [show (Re.all ([].reverse ++ items cs p)) = Re.all ((full p).map (item cs) ++ [.eos]) from rfl, run_items _ hn]

theorem reMatch_join {cs : Bool} {ps : List Chars} (hne : ps ≠ []) {name : Chars} (hn : '\n' ∉ name) :
    reMatch cs (joinBar (ps.map patternText)) name = true ↔ ∃ p ∈ ps, Selects cs p name := by
  induction ps with
  | nil => exact absurd rfl hne
  | cons p ps ih =>
    cases ps with
    | nil =>
      show reMatch cs (patternText p) name = true ↔ _
      rw [reMatch_pattern hn]
      simp
    | cons q ps =>
      show reMatch cs (patternText p ++ '|' :: joinBar ((q :: ps).map patternText)) name = true ↔ _
      rw [reMatch_bar hn, ih (by simp)]
      simp

/-- A pattern can be read back. -/
theorem enc_injective {s t : Chars} (h : s.flatMap enc = t.flatMap enc) : s = t := by
  induction s generalizing t with
  | nil =>
    cases t with
    | nil => rfl
    | cons c t =>
      exfalso
      rw [List.flatMap_cons, List.flatMap_nil] at h
      have := (List.append_eq_nil_iff.1 h.symm).1
      unfold enc at this
      split at this
      · cases this
      · split at this
        · cases this
        · rcases esc_cases c with ⟨_, e⟩ | ⟨_, e⟩ <;> rw [e] at this <;> cases this
  | cons c s ih =>
    have hd : ∀ (t : Chars) (l : Chars), t.flatMap enc ≠ '*' :: l := fun t l => by
      have := enc_head (t := t) (r := []) (by intro l h; cases h) l
      rwa [List.append_nil] at this
    have kinds : ∀ c, (c = '*' ∧ enc c = ['.', '*']) ∨ (c = '?' ∧ enc c = ['.']) ∨ (enc c = ['\\', c]) ∨
        (c ∉ special ∧ enc c = [c]) := by
      intro c
      unfold enc
      split
      · exact .inl ⟨by assumption, rfl⟩
      · split
        · exact .inr (.inl ⟨by assumption, rfl⟩)
        · rcases esc_cases c with ⟨_, e⟩ | ⟨h, e⟩
          · exact .inr (.inr (.inl e))
          · exact .inr (.inr (.inr ⟨h, e⟩))
    cases t with
    | nil =>
      exfalso
      rw [List.flatMap_cons, List.flatMap_nil] at h
      have := (List.append_eq_nil_iff.1 h).1
      rcases kinds c with ⟨_, e⟩ | ⟨_, e⟩ | e | ⟨_, e⟩ <;> rw [e] at this <;> cases this
    | cons d t =>
      rw [List.flatMap_cons, List.flatMap_cons] at h
      rcases kinds c with ⟨hc, e⟩ | ⟨hc, e⟩ | e | ⟨hc, e⟩ <;>
        rcases kinds d with ⟨hd', e'⟩ | ⟨hd', e'⟩ | e' | ⟨hd', e'⟩ <;> rw [e, e'] at h <;>
        simp only [List.cons_append, List.nil_append, List.cons.injEq] at h
      · rw [hc, hd', ih h.2.2]
      · exact absurd h.2.symm (hd _ _)
      · exact absurd h.1 (by decide)
      · exact absurd h.1.symm (special_of hd').2.1
      · exact absurd h.2 (hd _ _)
      · rw [hc, hd', ih h.2]
      · exact absurd h.1 (by decide)
      · exact absurd h.1.symm (special_of hd').2.1
      · exact absurd h.1 (by decide)
      · exact absurd h.1 (by decide)
      · rw [h.2.1, ih h.2.2]
      · exact absurd h.1.symm (special_of hd').1
      · exact absurd h.1 (special_of hc).2.1
      · exact absurd h.1 (special_of hc).2.1
      · exact absurd h.1 (special_of hc).1
      · rw [h.1, ih h.2]

theorem patternText_inj {p q : Chars} : patternText p = patternText q ↔ full p = full q := by
  constructor
  · intro h
    rw [patternText_eq, patternText_eq] at h
    exact enc_injective (List.append_cancel_right h)
  · intro h
    rw [patternText_eq, patternText_eq, h]

/-- The text of a pattern always contains a point. -/
theorem dot_mem_pattern (p : Chars) : '.' ∈ patternText p := by
  rw [patternText_eq]
  have : '.' ∈ full p := by
    unfold full
    split
    · assumption
    · simp
  refine List.mem_append.2 (.inl (List.mem_flatMap.2 ⟨'.', this, ?_⟩))
  decide

end Cantools.Plot
