import Verif.Spec.LogReader
import Verif.Lemmas.Regex
import Verif.Lemmas.Basic
import Mathlib.Tactic.NormNum

set_option linter.unusedSimpArgs false

namespace Cantools.LogReader
open Cantools Cantools.Regex Cantools.Spec.LogReader Re

/-! ### Characters -/

theorem isDigit_iff {c : Char} : isDigit c = true ↔ 48 ≤ c.toNat ∧ c.toNat ≤ 57 := by
  unfold isDigit
  simp only [decide_eq_true_eq, Char.le_def, UInt32.le_iff_toNat_le]
  exact Iff.rfl

theorem isUpperHex_iff {c : Char} : isUpperHex c = true ↔
    (48 ≤ c.toNat ∧ c.toNat ≤ 57) ∨ (65 ≤ c.toNat ∧ c.toNat ≤ 70) := by
  unfold isUpperHex
  rw [Bool.or_eq_true, isDigit_iff]
  simp only [decide_eq_true_eq, Char.le_def, UInt32.le_iff_toNat_le]
  exact Iff.rfl

theorem isHex_iff {c : Char} : isHex c = true ↔
    ((48 ≤ c.toNat ∧ c.toNat ≤ 57) ∨ (65 ≤ c.toNat ∧ c.toNat ≤ 70)) ∨
      (97 ≤ c.toNat ∧ c.toNat ≤ 102) := by
  unfold isHex
  rw [Bool.or_eq_true, isUpperHex_iff]
  simp only [decide_eq_true_eq, Char.le_def, UInt32.le_iff_toNat_le]
  exact Iff.rfl

theorem toNat_eq_iff {c d : Char} : c = d ↔ c.toNat = d.toNat := by
  constructor
  · rintro rfl; rfl
  · intro h; exact Char.ext (UInt32.toNat_inj.1 h)

theorem isSpace_iff {c : Char} : isSpace c = true ↔
    c.toNat = 32 ∨ (9 ≤ c.toNat ∧ c.toNat ≤ 13) ∨ (28 ≤ c.toNat ∧ c.toNat ≤ 31) := by
  unfold isSpace
  rw [Bool.or_eq_true, Bool.or_eq_true, beq_iff_eq, toNat_eq_iff]
  simp only [decide_eq_true_eq, Char.le_def, UInt32.le_iff_toNat_le, or_assoc]
  exact Iff.rfl

theorem isWord_iff {c : Char} : isWord c = true ↔
    (48 ≤ c.toNat ∧ c.toNat ≤ 57) ∨ (65 ≤ c.toNat ∧ c.toNat ≤ 90) ∨
      (97 ≤ c.toNat ∧ c.toNat ≤ 122) ∨ c.toNat = 95 := by
  unfold isWord
  rw [Bool.or_eq_true, Bool.or_eq_true, Bool.or_eq_true, isDigit_iff, beq_iff_eq, toNat_eq_iff]
  simp only [decide_eq_true_eq, Char.le_def, UInt32.le_iff_toNat_le, or_assoc]
  exact Iff.rfl

/-- Decide an implication between character classes by arithmetic on code points. -/
macro "chars" : tactic => `(tactic| (
  simp only [Bool.not_eq_true, Bool.not_eq_false', Bool.eq_false_iff, ne_eq, Bool.not_eq_true',
    beq_iff_eq, bne_iff_ne, Bool.or_eq_true,
    isDigit_iff, isUpperHex_iff, isHex_iff, isSpace_iff, isWord_iff, toNat_eq_iff] at *
  first | omega | (norm_num [Char.toNat] at *; omega)))

theorem space_not_hex {x : Char} (h : isSpace x = true) : isUpperHex x = false := by
  chars
theorem hex_not_space {x : Char} (h : isUpperHex x = true) : isSpace x = false := by chars
theorem hex_isHex {x : Char} (h : isUpperHex x = true) : isHex x = true := by chars
theorem space_not_digit {x : Char} (h : isSpace x = true) : isDigit x = false := by chars
theorem digit_not_space {x : Char} (h : isDigit x = true) : isSpace x = false := by chars
theorem digit_hex {x : Char} (h : isDigit x = true) : isUpperHex x = true := by chars
theorem digit_word {x : Char} (h : isDigit x = true) : isWord x = true := by chars
theorem word_not_space {x : Char} (h : isWord x = true) : isSpace x = false := by chars
theorem space_not_word {x : Char} (h : isSpace x = true) : isWord x = false := by chars

/-! ### Hexadecimal text -/

theorem hexDigit_upper (n : Nat) : isUpperHex (hexDigit n) = true := by
  unfold hexDigit
  have : ∀ m : Fin 16, isUpperHex ("0123456789ABCDEF".toList.getD m.val '0') = true := by decide
  exact this ⟨n % 16, Nat.mod_lt _ (by omega)⟩

theorem hexDigit?_hexDigit (n : Nat) : hexDigit? (hexDigit n) = some (n % 16) := by
  unfold hexDigit
  have : ∀ m : Fin 16, hexDigit? ("0123456789ABCDEF".toList.getD m.val '0') = some m.val := by decide
  exact this ⟨n % 16, Nat.mod_lt _ (by omega)⟩

theorem hexText_upper (w n : Nat) : ∀ c ∈ hexText w n, isUpperHex c = true := by
  induction w generalizing n with
  | zero => simp [hexText]
  | succ w ih =>
    intro c hc
    simp only [hexText, List.mem_append, List.mem_singleton] at hc
    rcases hc with hc | rfl
    · exact ih _ c hc
    · exact hexDigit_upper n

@[simp] theorem hexText_length (w n : Nat) : (hexText w n).length = w := by
  induction w generalizing n with
  | zero => rfl
  | succ w ih => simp [hexText, ih]

theorem parseHex_hexText (w n : Nat) : parseHex (hexText w n) = n % 16 ^ w := by
  induction w generalizing n with
  | zero => simp [hexText, parseHex, Nat.mod_one]
  | succ w ih =>
    have h := ih (n / 16)
    simp only [parseHex] at h
    simp only [hexText, parseHex, List.foldl_append, List.foldl_cons, List.foldl_nil,
      hexDigit?_hexDigit, Option.getD_some, h]
    rw [Nat.pow_succ, Nat.mul_comm (16 ^ w) 16, Nat.mod_mul]
    omega

theorem byteText_eq (b : UInt8) : byteText b = [hexDigit (b.toNat / 16), hexDigit b.toNat] := by
  simp [byteText, hexText]

theorem idText_ne (ext : Bool) (id : Nat) : idText ext id ≠ [] := by
  intro h
  have := congrArg List.length h
  cases ext <;> simp [idText] at this

theorem pcanIdText_ne (ext : Bool) (id : Nat) : pcanIdText ext id ≠ [] := by
  intro h
  have := congrArg List.length h
  cases ext <;> simp [pcanIdText] at this

theorem parseHex_idText {ext : Bool} {id : Nat} (h : ValidId ext id) :
    parseHex (idText ext id) = id := by
  unfold idText ValidId at *
  rw [parseHex_hexText]
  cases ext
  · apply Nat.mod_eq_of_lt; norm_num at *; omega
  · apply Nat.mod_eq_of_lt; norm_num at *; omega

theorem parseHex_pcanIdText {ext : Bool} {id : Nat} (h : ValidId ext id) :
    parseHex (pcanIdText ext id) = id := by
  unfold pcanIdText ValidId at *
  rw [parseHex_hexText]
  cases ext
  · apply Nat.mod_eq_of_lt; norm_num at *; omega
  · apply Nat.mod_eq_of_lt; norm_num at *; omega

theorem byte_of_digits (b : UInt8) :
    UInt8.ofNat ((b.toNat / 16) % 16 * 16 + b.toNat % 16) = b := by
  have h := b.toNat_lt
  have : (b.toNat / 16) % 16 * 16 + b.toNat % 16 = b.toNat := by omega
  rw [this]
  exact UInt8.ofNat_toNat

@[simp] theorem blanks_zero : blanks 0 = [] := rfl
theorem blanks_succ (n : Nat) : blanks (n + 1) = ' ' :: blanks n := rfl
theorem mem_blanks {n : Nat} {c : Char} (h : c ∈ blanks n) : c = ' ' := List.eq_of_mem_replicate h
theorem blanks_space {n : Nat} : ∀ c ∈ blanks n, isSpace c = true := by
  intro c hc; rw [mem_blanks hc]; decide
theorem gap_eq (n : Nat) : gap n = ' ' :: blanks n := rfl
theorem gap_ne (n : Nat) : gap n ≠ [] := by simp [gap_eq]
theorem gap_space {n : Nat} : ∀ c ∈ gap n, isSpace c = true := blanks_space

theorem payload_cons (b : UInt8) (n : Nat) (r : List (UInt8 × Nat)) :
    payloadText ((b, n) :: r) =
      hexDigit (b.toNat / 16) :: hexDigit b.toNat :: (blanks n ++ payloadText r) := by
  simp [payloadText, byteText_eq]

theorem hexDigit_ne_blank (n : Nat) : hexDigit n ≠ ' ' := by
  have := hexDigit_upper n
  intro h; rw [h] at this; revert this; decide

theorem unhexlify_payload (data : List (UInt8 × Nat)) :
    unhexlifyText ((payloadText data).filter (· != ' ')) = .ok (data.map (·.1)) := by
  induction data with
  | nil => rfl
  | cons x r ih =>
    obtain ⟨b, n⟩ := x
    have hb : (blanks n).filter (· != ' ') = [] := by
      rw [List.filter_eq_nil_iff]
      intro c hc; rw [mem_blanks hc]; decide
    rw [payload_cons]
    simp only [List.filter_cons, bne_iff_ne, ne_eq, hexDigit_ne_blank, not_false_eq_true, if_true,
      List.filter_append, hb, List.nil_append, unhexlifyText, hexDigit?_hexDigit, ih, Except.map,
      List.map_cons, byte_of_digits]

theorem fromhex_cons {a b : Char} (ha : a ≠ ' ') (r : Chars) :
    fromhex (a :: b :: r) = match hexDigit? a, hexDigit? b with
    | some x, some y => (fromhex r).map (UInt8.ofNat (x * 16 + y) :: ·)
    | _, _ => .error .valueError := by
  rw [fromhex]
  · rfl
  · exact ha

theorem fromhex_blanks (n : Nat) (s : Chars) : fromhex (blanks n ++ s) = fromhex s := by
  induction n with
  | zero => rfl
  | succ n ih => rw [blanks_succ, List.cons_append, fromhex, ih]

theorem fromhex_payload (data : List (UInt8 × Nat)) :
    fromhex (payloadText data) = .ok (data.map (·.1)) := by
  induction data with
  | nil => rfl
  | cons x r ih =>
    obtain ⟨b, n⟩ := x
    rw [payload_cons, fromhex_cons (hexDigit_ne_blank _), fromhex_blanks, ih]
    simp only [hexDigit?_hexDigit, Except.map, List.map_cons, byte_of_digits]

theorem payload_notHead {p : Char → Bool} (hp : ∀ c, isUpperHex c = true → p c = false)
    {data : List (UInt8 × Nat)} {rem : Chars} (hr : NotHead p rem) :
    NotHead p (payloadText data ++ rem) := by
  cases data with
  | nil => exact hr
  | cons x r =>
    obtain ⟨b, n⟩ := x
    rw [payload_cons]
    exact .cons (hp _ (hexDigit_upper _))

/-! ### The payload -/

/-- `[0-9A-F]{2} *` -/
def pairRe : Re := all [hex, hex, star true (chr ' ')]

theorem data_loop {rem : Chars} {k : Cont} {g res : Groups}
    (hrem : ∀ K g, pairRe.run K rem g = none) (hsp : NotHead (· == ' ') rem)
    (hk : k rem g = some res) (data : List (UInt8 × Nat)) :
    (star true pairRe).run k (payloadText data ++ rem) g = some res := by
  rw [run_star]
  obtain ⟨fuel, hfe⟩ : ∃ fuel, (payloadText data ++ rem).length = fuel := ⟨_, rfl⟩
  rw [hfe]
  have hf : (payloadText data ++ rem).length ≤ fuel := by omega
  clear hfe
  induction data generalizing fuel with
  | nil =>
    show iterate pairRe.run true k fuel rem g = some res
    cases fuel with
    | zero => exact hk
    | succ fuel => simp [iterate, hrem, hk]
  | cons x r ih =>
    obtain ⟨b, n⟩ := x
    cases fuel with
    | zero => rw [payload_cons] at hf; simp at hf
    | succ fuel =>
      rw [iterate.eq_2]
      have hstep : pairRe.run (fun s' g' => if s'.length < (payloadText ((b, n) :: r) ++ rem).length
          then iterate pairRe.run true k fuel s' g' else none)
          (payloadText ((b, n) :: r) ++ rem) g = some res := by
        generalize hL : (payloadText ((b, n) :: r) ++ rem).length = L
        rw [payload_cons] at hL ⊢
        unfold pairRe
        simp only [run_all_cons, run_all_nil, List.cons_append, hex]
        rw [run_cls_ok (hexDigit_upper _), run_cls_ok (hexDigit_upper _), List.append_assoc]
        apply run_star_greedy'
        · intro c hc; simp [mem_blanks hc]
        · exact payload_notHead (fun c hc => by
            have : c ≠ ' ' := by rintro rfl; revert hc; decide
            simpa using this) hsp
        · simp only [List.cons_append, List.append_assoc, List.length_cons, List.length_append] at hL
          rw [if_pos (by rw [List.length_append]; omega)]
          exact ih _ (by
            rw [payload_cons] at hf
            simp only [List.cons_append, List.append_assoc, List.length_cons,
              List.length_append] at hf ⊢
            omega)
      simp only [hstep, if_true, Option.orElse_some]

/-! ### The end of a candump line -/

/-- The last continuation. -/
abbrev done : Cont := fun _ g => some g

def errorChars : Chars := ['E', 'R', 'R', 'O', 'R', 'F', 'R', 'A', 'M', 'E']
def remoteChars : Chars := ['r', 'e', 'm', 'o', 't', 'e', ' ', 'r', 'e', 'q', 'u', 'e', 's', 't']
theorem error_chars : "ERRORFRAME".toList = errorChars := by decide +kernel
theorem remote_chars : "remote request".toList = remoteChars := by decide +kernel

def endRe : List Re :=
  [star true s, opt (group "error_frame" (text errorChars)), star false any, eos]

theorem lazy_any_eos {t : Chars} (h : '\n' ∉ t) (g : Groups) :
    (star false any).run (eos.run done) t g = some g := by
  have := run_star_lazy (p := fun c => c != '\n') (k := eos.run done) (u := t) (v := []) (g := g)
    (res := g) (by
      intro c hc
      have : c ≠ '\n' := by rintro rfl; exact h hc
      simpa using this)
    (by
      intro a b hab hb
      have hn : ¬ (b = [] ∨ b = ['\n']) := by
        rintro (rfl | rfl)
        · exact hb rfl
        · exact h (by rw [hab]; simp)
      simp only [Re.run, List.append_nil, if_neg hn])
    (by simp [Re.run])
  rwa [List.append_nil] at this

theorem run_opt_none {r : Re} {k : Cont} {s : Chars} {g : Groups} (h : r.run k s g = none) :
    (opt r).run k s g = k s g := by
  show (r.run k s g).orElse (fun _ => k s g) = _
  rw [h]; rfl

theorem run_opt_some {r : Re} {k : Cont} {s : Chars} {g res : Groups} (h : r.run k s g = some res) :
    (opt r).run k s g = some res := by
  show (r.run k s g).orElse (fun _ => k s g) = _
  rw [h]; rfl

theorem run_alt_right {a b : Re} {k : Cont} {s : Chars} {g : Groups} (h : a.run k s g = none) :
    (alt a b).run k s g = b.run k s g := by
  show (a.run k s g).orElse (fun _ => b.run k s g) = _
  rw [h]; rfl

theorem run_alt_left {a b : Re} {k : Cont} {s : Chars} {g res : Groups} (h : a.run k s g = some res) :
    (alt a b).run k s g = some res := by
  show (a.run k s g).orElse (fun _ => b.run k s g) = _
  rw [h]; rfl

theorem end_plain {t : Chars} (n : Nat) (h : '\n' ∉ t) (hs : NotHead isSpace t)
    (hE : ∀ r, t ≠ 'E' :: r) (g : Groups) : (all endRe).run done (blanks n ++ t) g = some g := by
  unfold endRe
  simp only [run_all_cons, run_all_nil]
  apply run_star_greedy' blanks_space hs
  rw [run_opt_none]
  · exact lazy_any_eos h g
  · apply run_group_fail
    intro k
    exact run_text_cons_fail hE

theorem end_error {t : Chars} (h : '\n' ∉ t) (g : Groups) :
    (all endRe).run done (errorChars ++ t) g =
      some (g ++ [("error_frame", errorChars)]) := by
  unfold endRe
  simp only [run_all_cons, run_all_nil]
  have hn : NotHead isSpace (errorChars ++ t) := .cons (by decide)
  apply run_star_greedy' (w := []) (rest := errorChars ++ t) (by simp) hn
  apply run_opt_some
  rw [run_group, run_text]
  simp only [take_consumed]
  exact lazy_any_eos h _

theorem trailer_notHead {t : Chars} (h : Trailer t) {p : Char → Bool} (hp : p '\'' = false) :
    NotHead p t := by
  rcases h.2 with rfl | ⟨r, rfl⟩
  · exact .nil
  · exact .cons hp

theorem pair_fail_of_notHead {t : Chars} (h : NotHead isUpperHex t) (K : Cont) (g : Groups) :
    pairRe.run K t g = none := by
  unfold pairRe
  rw [run_all_cons]
  exact run_cls_fail h

/-! ### From the channel to the brackets -/

def dataRe : Re := alt (text remoteChars) (star true pairRe)

theorem candumpTail_eq : candumpTail =
    [group "channel" (plus true S), plus true s, group "can_id" (plus true hex), plus true s,
     chr '[', plus true d, chr ']', star true s, group "can_data" dataRe] ++ endRe := by
  unfold candumpTail endRe dataRe pairRe
  rw [error_chars, remote_chars]
  rfl

theorem candump_head {channel : Chars} (hc : Word channel) {ext : Bool} {id : Nat} {len : Chars}
    (hl : Digits len) {g1 g2 g3 : Nat} {rest : Chars} (hr : NotHead isSpace rest)
    {g : Groups} {res : Groups}
    (hk : (group "can_data" dataRe).run ((all endRe).run done) rest
      (g ++ [("channel", channel)] ++ [("can_id", idText ext id)]) = some res) :
    (all candumpTail).run done (channel ++ (gap g1 ++ (idText ext id ++ (gap g2 ++
      ('[' :: (len ++ (']' :: (blanks g3 ++ rest)))))))) g = some res := by
  rw [candumpTail_eq]
  simp only [run_all_append, run_all_cons, run_all_nil]
  unfold S s hex d
  rw [run_group_plus_avoid (p := fun c => !isSpace c)
    (avoids_plus (by intro x; simp) _) hc.1 (by intro c h; simp [hc.2 c h])
    (.append (gap_ne _) (by intro c h; simp [gap_space c h]))]
  rw [run_plus_avoid (p := isSpace) (avoids_group _ (avoids_plus fun x => space_not_hex) _)
    (gap_ne _) gap_space (.append (idText_ne _ _) fun c h => hex_not_space (hexText_upper _ _ c h))]
  rw [run_group_plus_avoid (p := isUpperHex) (avoids_plus (fun x => hex_not_space) _)
    (idText_ne _ _) (hexText_upper _ _)
    (.append (gap_ne _) fun c h => space_not_hex (gap_space c h))]
  rw [run_plus_avoid (p := isSpace) (avoids_chr (by decide) _) (gap_ne _) gap_space
    (.cons (by decide))]
  rw [run_chr]
  rw [run_plus_avoid (p := isDigit) (avoids_chr (by decide) _) hl.1 hl.2 (.cons (by decide))]
  rw [run_chr]
  exact run_star_greedy' blanks_space hr hk

theorem data_payload {data : List (UInt8 × Nat)} {t : Chars} (ht : Trailer t) (g : Groups) :
    (group "can_data" dataRe).run ((all endRe).run done) (payloadText data ++ t) g =
      some (g ++ [("can_data", payloadText data)]) := by
  rw [run_group]
  unfold dataRe
  rw [run_alt_right]
  · apply data_loop (pair_fail_of_notHead (trailer_notHead ht (by decide)))
      (trailer_notHead ht (by decide))
    rw [take_consumed]
    exact end_plain 0 ht.1 (trailer_notHead ht (by decide)) (by
      intro r hr
      have := trailer_notHead (p := fun c => c == 'E') ht (by decide)
      have := this 'E' r hr
      revert this; decide) _
  · apply run_text_cons_fail
    intro r hr
    have := payload_notHead (data := data) (rem := t) (p := fun c => c == 'r')
      (fun c hc => by
        have : c ≠ 'r' := by rintro rfl; revert hc; decide
        simpa using this) (trailer_notHead ht (by decide))
    have := this 'r' r hr
    revert this; decide

theorem data_remote {t : Chars} (n : Nat) (ht : Trailer t) (g : Groups) :
    (group "can_data" dataRe).run ((all endRe).run done)
      (remoteChars ++ (blanks n ++ t)) g =
      some (g ++ [("can_data", remoteChars)]) := by
  rw [run_group]
  unfold dataRe
  apply run_alt_left
  rw [run_text]
  simp only [take_consumed]
  exact end_plain n ht.1 (trailer_notHead ht (by decide)) (by
      intro r hr
      have := trailer_notHead (p := fun c => c == 'E') ht (by decide)
      have := this 'E' r hr
      revert this; decide) _

theorem data_error {data : List (UInt8 × Nat)} {t : Chars} (ht : '\n' ∉ t) (g : Groups) :
    (group "can_data" dataRe).run ((all endRe).run done)
      (payloadText data ++ (errorChars ++ t)) g =
      some (g ++ [("can_data", payloadText data)] ++ [("error_frame", errorChars)]) := by
  rw [run_group]
  unfold dataRe
  rw [run_alt_right]
  · apply data_loop
    · intro K g
      unfold pairRe
      simp only [run_all_cons, run_all_nil, hex]
      rw [show (errorChars ++ t) = 'E' :: ('R' :: (['R', 'O', 'R', 'F', 'R', 'A', 'M', 'E'] ++ t)) from rfl,
        run_cls_ok (by decide)]
      exact run_cls_fail (.cons (by decide))
    · exact .cons (by decide)
    · rw [take_consumed]
      exact end_error ht _
  · apply run_text_cons_fail
    intro r hr
    have := payload_notHead (data := data) (rem := errorChars ++ t)
      (p := fun c => c == 'r')
      (fun c hc => by
        have : c ≠ 'r' := by rintro rfl; revert hc; decide
        simpa using this) (.cons (by decide))
    have := this 'r' r hr
    revert this; decide

end Cantools.LogReader
