import Verif.Spec.Files
import Verif.Lemmas.DbcLoad

/-
Encodings and line ends: the text of a file is read as it was written, up to line ends.
-/

namespace Cantools.Files
open Cantools Spec Dbc

/-! ### cp1252 -/

theorem extra_table : ∀ c ∈ cp1252Extra, cp1252Decode (cp1252Encode c) = c := by decide +kernel

theorem low_table : ∀ n : Fin 256, (n.val < 0x80 ∨ 0xa0 ≤ n.val) →
    cp1252Decode (UInt8.ofNat n.val) = Char.ofNat n.val := by decide +kernel

theorem cp1252_char {c : Char} (h : InCp1252 c) : cp1252Decode (cp1252Encode c) = c := by
  have low : ∀ c : Char, (c.toNat < 0x80 ∨ (0xa0 ≤ c.toNat ∧ c.toNat ≤ 0xff)) → cp1252Decode (cp1252Encode c) = c := by
    intro c h
    have hlt : c.toNat < 256 := by omega
    have e : cp1252Encode c = UInt8.ofNat c.toNat := by
      unfold cp1252Encode
      rw [if_pos (by omega)]
    rw [e]
    have := low_table ⟨c.toNat, hlt⟩ (by simp only; omega)
    rw [this]
    exact Char.ofNat_toNat c
  rcases h with h | h | h
  · exact low c (.inl h)
  · exact low c (.inr h)
  · exact extra_table c h

theorem cp1252_keeps : Keeps cp1252 InCp1252 where
  ascii c h := .inl h
  keeps t h := by
    unfold cp1252
    simp only
    induction t with
    | nil => rfl
    | cons c r ih =>
      rw [List.flatMap_cons, List.map_append, ih fun d hd => h d (List.mem_cons_of_mem _ hd)]
      simp [cp1252_char (h c (by simp))]

/-! ### Line ends -/

theorem universal_nil : universal [] = [] := rfl

theorem universal_other {c : Char} (h : c ≠ '\r') (r : Chars) : universal (c :: r) = c :: universal r := by
  rw [universal.eq_def]
  simp only [if_neg h]

theorem universal_crlf (r : Chars) : universal ('\r' :: '\n' :: r) = '\n' :: universal r := by
  rw [universal.eq_def]; simp

theorem universal_cr {r : Chars} (h : r.head? ≠ some '\n') : universal ('\r' :: r) = '\n' :: universal r := by
  cases r with
  | nil => rfl
  | cons d r =>
    rw [universal.eq_def]
    have : d ≠ '\n' := fun e => h (by rw [e]; rfl)
    simp [this]

theorem universal_append {t : Chars} (h : '\r' ∉ t) (r : Chars) : universal (t ++ r) = t ++ universal r := by
  induction t with
  | nil => rfl
  | cons c t ih =>
    rw [List.cons_append, universal_other (fun e => h (by rw [e]; simp)), ih fun hh => h (List.mem_cons_of_mem _ hh)]
    rfl

theorem universal_same {t : Chars} (h : '\r' ∉ t) : universal t = t := by
  have := universal_append h []
  rwa [List.append_nil, universal_nil, List.append_nil] at this

theorem translate_cons (linesep : Chars) (c : Char) (r : Chars) :
    translate linesep (c :: r) = (if c = '\n' then linesep else [c]) ++ translate linesep r := rfl

/-- Text without carriage returns is read as it was written, on all systems. -/
theorem universal_translate {linesep : Chars} (hl : linesep = ['\n'] ∨ linesep = ['\r', '\n'] ∨ linesep = ['\r'])
    {t : Chars} (h : '\r' ∉ t) : universal (translate linesep t) = t := by
  rcases hl with rfl | rfl | rfl
  · have : translate ['\n'] t = t := by
      unfold translate
      conv_rhs => rw [← List.flatMap_singleton' t]
      refine List.flatMap_congr fun c _ => ?_
      split
      · rename_i hc; rw [hc]
      · rfl
    rw [this]
    exact universal_same h
  · induction t with
    | nil => rfl
    | cons c r ih =>
      have ih := ih fun hh => h (List.mem_cons_of_mem _ hh)
      rw [translate_cons]
      by_cases hc : c = '\n'
      · subst hc
        rw [if_pos rfl]
        show universal ('\r' :: '\n' :: translate _ r) = _
        rw [universal_crlf, ih]
      · rw [if_neg hc]
        show universal (c :: translate _ r) = _
        rw [universal_other (fun e => h (by rw [e]; simp)), ih]
  · induction t with
    | nil => rfl
    | cons c r ih =>
      have ih := ih fun hh => h (List.mem_cons_of_mem _ hh)
      rw [translate_cons]
      by_cases hc : c = '\n'
      · subst hc
        rw [if_pos rfl]
        show universal ('\r' :: translate _ r) = _
        rw [universal_cr, ih]
        cases r with
        | nil => simp [translate]
        | cons d r =>
          rw [translate_cons]
          split <;> simp_all
      · rw [if_neg hc]
        show universal (c :: translate _ r) = _
        rw [universal_other (fun e => h (by rw [e]; simp)), ih]

/-! ### The tokens of a DBC file do not depend on its line ends -/

theorem sep_universal {t : Chars} (h : Sep t) : Sep (universal t) := by
  cases t with
  | nil => exact h
  | cons c r =>
    by_cases hc : c = '\r'
    · subst hc
      have : ∃ r', universal ('\r' :: r) = '\n' :: r' := by
        cases r with
        | nil => exact ⟨[], rfl⟩
        | cons d r =>
          by_cases hd : d = '\n'
          · subst hd; exact ⟨_, universal_crlf r⟩
          · exact ⟨_, universal_cr (by simpa using hd)⟩
      obtain ⟨r', e⟩ := this
      rw [e]
      exact sep_cons (by decide) (by decide)
    · rw [universal_other hc]
      intro d hd
      exact h d hd

/-- A piece without carriage returns, or white space. -/
def PieceFine (p : Piece) : Prop := (∃ c, p = .sp c) ∨ '\r' ∉ p.text

theorem universal_pieces : ∀ {ps : List Piece}, Chain ps → (∀ p ∈ ps, PieceFine p) →
    ∃ qs, Chain qs ∧ textOf qs = universal (textOf ps) ∧ toksOf qs = toksOf ps := by
  intro ps
  induction ps with
  | nil => exact fun _ _ => ⟨[], trivial, rfl, rfl⟩
  | cons p r ih =>
    rintro ⟨h1, h2, h3⟩ hf
    obtain ⟨qs, g1, g2, g3⟩ := ih h3 fun q hq => hf q (List.mem_cons_of_mem _ hq)
    by_cases hp : '\r' ∈ p.text
    · obtain ⟨c, rfl⟩ := (hf p (by simp)).resolve_right fun h => h hp
      have : c = '\r' := by simpa [Piece.text, eq_comm] using hp
      subst this
      have e : textOf (.sp '\r' :: r) = '\r' :: textOf r := rfl
      by_cases hn : (textOf r).head? = some '\n'
      · refine ⟨qs, g1, ?_, g3⟩
        obtain ⟨t, ht⟩ : ∃ t, textOf r = '\n' :: t := by
          cases ht : textOf r with
          | nil => rw [ht] at hn; cases hn
          | cons d t =>
            rw [ht] at hn
            simp only [List.head?_cons, Option.some.injEq] at hn
            exact ⟨t, by rw [hn]⟩
        rw [g2, e, ht, universal_crlf, universal_other (by decide)]
      · refine ⟨.sp '\n' :: qs, ⟨show isBlank '\n' = true by decide, (fun h => by cases h), g1⟩, ?_, g3⟩
        rw [e, universal_cr hn, ← g2]
        rfl
    · refine ⟨p :: qs, ⟨h1, fun ho => ?_, g1⟩, ?_, ?_⟩
      · rw [g2]; exact sep_universal (h2 ho)
      · rw [textOf_cons, textOf_cons, g2, universal_append hp]
      · rw [toksOf_cons, toksOf_cons, g3]

theorem tokenize_universal {ps : List Piece} (h : Chain ps) (hf : ∀ p ∈ ps, PieceFine p) :
    tokenize (universal (textOf ps)) = tokenize (textOf ps) := by
  obtain ⟨qs, h1, h2, h3⟩ := universal_pieces h hf
  rw [← h2, tokenize_pieces qs h1, h3, tokenize_pieces ps h]

/-! ### Characters of pieces -/

theorem isDigit_ascii {c : Char} (h : isDigit c = true) : c.toNat < 0x80 ∧ c ≠ '\r' := by
  unfold isDigit at h
  simp only [Bool.and_eq_true, decide_eq_true_eq, Char.le_def, UInt32.le_iff_toNat_le] at h
  obtain ⟨h1, h2⟩ := h
  have : c.toNat ≤ 57 := h2
  have h1 : 48 ≤ c.toNat := h1
  exact ⟨by omega, by rintro rfl; revert h1; decide⟩

theorem isWordChar_ascii {c : Char} (h : isWordChar c = true) : c.toNat < 0x80 ∧ c ≠ '\r' := by
  unfold isWordChar at h
  simp only [Bool.or_eq_true, Bool.and_eq_true, decide_eq_true_eq, Char.le_def, UInt32.le_iff_toNat_le] at h
  rcases h with ((⟨h1, h2⟩ | ⟨h1, h2⟩) | h) | rfl
  · have : c.toNat ≤ 90 := h2
    have h1 : 65 ≤ c.toNat := h1
    exact ⟨by omega, by rintro rfl; revert h1; decide⟩
  · have : c.toNat ≤ 122 := h2
    have h1 : 97 ≤ c.toNat := h1
    exact ⟨by omega, by rintro rfl; revert h1; decide⟩
  · exact isDigit_ascii h
  · decide

/-- Characters of numbers. -/
theorem number_ascii {t : Chars} (h : IsNumber t) : ∀ c ∈ t, c.toNat < 0x80 ∧ c ≠ '\r' := by
  have h := h [] sep_nil
  rw [List.append_nil] at h
  unfold lexNumber at h
  dsimp only at h
  split at h
  · cases h
  · simp only [Option.some.injEq, Prod.mk.injEq] at h
    obtain ⟨h, -⟩ := h
    intro c hc
    rw [← h] at hc
    have sign : ∀ (s : Chars), ∀ c ∈ (takeSign s).1, c.toNat < 0x80 ∧ c ≠ '\r' := by
      intro s c hc
      unfold takeSign at hc
      split at hc <;> simp at hc
      all_goals subst hc; decide
    have digits : ∀ (s : Chars), ∀ c ∈ (s.span isDigit).1, c.toNat < 0x80 ∧ c ≠ '\r' := by
      intro s c hc
      rw [span_eq] at hc
      exact isDigit_ascii (List.all_eq_true.1 List.all_takeWhile c hc)
    have point : ∀ (s : Chars), ∀ c ∈ (takePoint s).1, c.toNat < 0x80 ∧ c ≠ '\r' := by
      intro s c hc
      unfold takePoint at hc
      split at hc <;> simp at hc
      subst hc; decide
    have expo : ∀ (s : Chars), ∀ c ∈ (takeExponent s).1, c.toNat < 0x80 ∧ c ≠ '\r' := by
      intro s c hc
      unfold takeExponent at hc
      split at hc
      · simp at hc
      · rename_i d r
        split at hc
        · rename_i hd
          dsimp only at hc
          split at hc
          · simp at hc
          · simp only [List.mem_cons, List.mem_append] at hc
            rcases hc with rfl | hc | hc
            · rcases (by simpa using hd : c = 'e' ∨ c = 'E') with rfl | rfl <;> decide
            · exact sign _ c hc
            · exact digits _ c hc
        · simp at hc
    simp only [List.mem_append] at hc
    rcases hc with hc | hc | hc | hc | hc
    · exact sign _ c hc
    · exact digits _ c hc
    · exact point _ c hc
    · exact digits _ c hc
    · exact expo _ c hc

end Cantools.Files
