import Verif.Lemmas.PlotDraw
import Verif.Lemmas.LogReader
import Verif.Lemmas.Cdd

/-!
Lemmas about the lines that the `plot` command reads.
-/

namespace Cantools.Plot
open Regex Re Spec.Plot
open LogReader (textOf groupOf unhexlifyText stripNewlines gap_ne gap_space blanks_space idText_ne hexText_upper run_opt_none run_opt_some
  hex_not_space space_not_hex payload_notHead hexDigit_upper payload_cons mem_blanks)
open Spec.LogReader hiding LogLine CandumpLine

/-! ### Ends of lines -/

theorem strip_eol {t e : Chars} (ht : Inline t) (he : Eol e) : stripNewlines (t ++ e) = t := by
  have hn : ∀ c ∈ t, (c == '\r' || c == '\n') = false := by
    intro c hc
    rw [Bool.or_eq_false_iff, beq_eq_false_iff_ne, beq_eq_false_iff_ne]
    exact ⟨fun h => ht.1 (h ▸ hc), fun h => ht.2 (h ▸ hc)⟩
  have hnl : ∀ c ∈ e, (c == '\r' || c == '\n') = true := by
    intro c hc
    rcases he c hc with rfl | rfl <;> rfl
  have drop : ∀ {l : Chars}, (∀ c ∈ l, (c == '\r' || c == '\n') = true) → l.dropWhile (fun c => c == '\r' || c == '\n') = [] :=
    by
    intro l h
    induction l with
    | nil => rfl
    | cons c l ih => rw [List.dropWhile_cons_of_pos (by exact h c (by simp)), ih fun x hx => h x (by simp [hx])]
  have keep : ∀ {l : Chars}, (∀ c ∈ l, (c == '\r' || c == '\n') = false) → l.dropWhile (fun c => c == '\r' || c == '\n') = l := by
    intro l h
    cases l with
    | nil => rfl
    | cons c l => rw [List.dropWhile_cons_of_neg (by rw [h c (by simp)]; simp)]
  unfold stripNewlines
  dsimp only
  cases t with
  | nil => rw [List.nil_append, drop hnl]; rfl
  | cons c t =>
    rw [List.cons_append, List.dropWhile_cons_of_neg (by rw [hn c (by simp)]; simp)]
    rw [← List.cons_append, List.reverse_append, List.dropWhile_append]
    rw [drop (fun c hc => hnl c (List.mem_reverse.1 hc))]
    rw [if_pos (by rfl), keep (fun x hx => hn x (List.mem_reverse.1 hx)), List.reverse_reverse]

/-! ### Ids -/

theorem unhexlify_bytes (data : Bytes) : unhexlifyText (data.flatMap byteText) = .ok data := by
  induction data with
  | nil => rfl
  | cons b r ih =>
    rw [List.flatMap_cons, LogReader.byteText_eq]
    simp only [List.cons_append, List.nil_append, unhexlifyText, LogReader.hexDigit?_hexDigit, ih, Except.map, LogReader.byte_of_digits]

theorem hexText_eight (n : Nat) : hexText 8 n =
    [UInt8.ofNat (n / 16777216), UInt8.ofNat (n / 65536), UInt8.ofNat (n / 256), UInt8.ofNat n].flatMap byteText := by
  have hd : ∀ a b : Nat, a % 16 = b % 16 → hexDigit a = hexDigit b := by
    intro a b h; unfold hexDigit; rw [h]
  simp only [List.flatMap_cons, List.flatMap_nil, LogReader.byteText_eq, hexText, List.cons_append, List.nil_append, List.append_nil,
    UInt8.toNat_ofNat']
  simp only [List.cons.injEq, and_true]
  refine ⟨hd _ _ ?_, hd _ _ ?_, hd _ _ ?_, hd _ _ ?_, hd _ _ ?_, hd _ _ ?_, hd _ _ ?_, hd _ _ ?_⟩ <;> omega

theorem id_unpack {ext : Bool} {id : Nat} (h : ValidId ext id) :
    ∃ b, unhexlifyText (List.replicate (8 - (idText ext id).length) '0' ++ idText ext id) = .ok b ∧ b.length = 4 ∧
      b.foldl (fun n b => n * 256 + b.toNat) 0 = id := by
  have hlt : id < 4294967296 := by
    unfold ValidId at h
    cases ext <;> simp at h <;> omega
  have e : List.replicate (8 - (idText ext id).length) '0' ++ idText ext id = hexText 8 id := by
    unfold idText
    cases ext with
    | true => simp
    | false =>
      unfold ValidId at h
      simp only [Bool.false_eq_true, if_false] at h ⊢
      rw [LogReader.hexText_length]
      have h0 : id / 16 / 16 / 16 = 0 := by omega
      simp only [hexText, h0]
      simp only [List.nil_append, List.cons_append]
      rfl
  rw [e, hexText_eight, unhexlify_bytes]
  refine ⟨_, rfl, rfl, ?_⟩
  simp only [List.foldl_cons, List.foldl_nil, UInt8.toNat_ofNat']
  omega

/-! ### candump -/

theorem note_notHead (l : CandumpLine) {p : Char → Bool} (hp : p ':' = false) : NotHead p l.noteText := by
  unfold CandumpLine.noteText
  cases l.note with
  | none => exact .nil
  | some t => exact .cons hp

theorem payload_class (data : List (UInt8 × Nat)) : ∀ c ∈ payloadText data, (isUpperHex c || c == ' ') = true := by
  intro c hc
  unfold payloadText at hc
  obtain ⟨⟨b, n⟩, _, h⟩ := List.mem_flatMap.1 hc
  rcases List.mem_append.1 h with h | h
  · rw [hexText_upper _ _ c h]; rfl
  · rw [mem_blanks h]; rfl

theorem note_end (l : CandumpLine) (hv : ∀ t, l.note = some t → Inline t) (g : Groups) :
    (opt (all [star true s, text "::".toList, star true any])).run ((all [eos]).run fun _ g => some g) l.noteText g = some g := by
  unfold CandumpLine.noteText
  cases hn : l.note with
  | none =>
    rw [run_opt_none]
    · rfl
    · rw [run_all_cons]
      unfold s
      rw [run_star_none .nil, run_all_cons]
      rfl
  | some t =>
    refine run_opt_some ?_
    rw [run_all_cons]
    unfold s
    rw [run_star_none (.cons (by decide)), run_all_cons]
    have : (':' :: ':' :: t : Chars) = "::".toList ++ t := rfl
    rw [this, run_text, run_all_cons]
    have := run_star_greedy' (p := fun c => c != '\n') (w := t) (rest := []) (g := g) (res := g)
      (k := (all []).run ((all [eos]).run fun _ g => some g)) (fun c hc => by
        have := (hv t hn).2
        simp only [bne_iff_ne, ne_eq]
        rintro rfl
        exact this hc) .nil rfl
    rw [List.append_nil] at this
    exact this

theorem channel_notHead {w r : Chars} (h : Word w) : NotHead isSpace (w ++ r) := .append h.1 h.2

/-- The groups of a line of candump. -/
def candumpGroups (l : CandumpLine) : Groups :=
  (match l.stamp with | none => [] | some t => [("time", t)]) ++ [("frameid", idText l.ext l.id), ("data", payloadText l.data)]

theorem candump_tail (l : CandumpLine) (h : l.Valid) (g : Groups) :
    (all [star true s, plus true S, plus true s, group "frameid" (plus true hex), star true s, chr '[', plus true d, chr ']',
      star true s, group "data" (star true (cls fun c => isUpperHex c || c == ' ')),
      opt (all [star true s, text "::".toList, star true any]), eos]).run (fun _ g => some g)
      (l.channel ++ (gap (l.gaps 2) ++ (idText l.ext l.id ++ (gap (l.gaps 3) ++
      ('[' :: (l.len ++ (']' :: (blanks (l.gaps 4) ++ (payloadText l.data ++ l.noteText))))))))) g =
    some (g ++ [("frameid", idText l.ext l.id), ("data", payloadText l.data)]) := by
  unfold s S hex d
  rw [run_all_cons, run_star_none (channel_notHead h.channel.1), run_all_cons]
  rw [run_plus_avoid (p := fun c => !isSpace c)
    (by intro x r g hx; rw [run_all_cons]; exact avoids_plus (p := fun c => !isSpace c) (fun y hy => by simpa using hy) _ x r g hx) h.channel.1.1
    (by intro c hc; simp [h.channel.1.2 c hc]) (.append (gap_ne _) (by intro c h; simp [gap_space c h]))]
  rw [run_all_cons, run_plus_avoid (p := isSpace)
    (by intro x r g hx; rw [run_all_cons]; exact avoids_group _ (avoids_plus fun x => space_not_hex) _ x r g hx)
    (gap_ne _) gap_space (.append (idText_ne _ _) fun c h => hex_not_space (hexText_upper _ _ c h))]
  rw [run_all_cons, run_group]
  refine run_plus_greedy' (p := isUpperHex) (idText_ne _ _) (hexText_upper _ _)
    (.append (gap_ne _) fun c h => space_not_hex (gap_space c h)) ?_
  rw [take_consumed]
  rw [run_all_cons, run_star_avoid (p := isSpace) (by intro x r g hx; rw [run_all_cons]; exact avoids_chr (by decide) _ x r g hx)
    gap_space (.cons (by decide))]
  rw [run_all_cons, run_chr, run_all_cons]
  rw [run_plus_avoid (p := isDigit) (by intro x r g hx; rw [run_all_cons]; exact avoids_chr (by decide) _ x r g hx) h.len.1 h.len.2
    (.cons (by decide))]
  rw [run_all_cons, run_chr, run_all_cons]
  refine run_star_greedy' (p := isSpace) blanks_space
    (payload_notHead (fun c => hex_not_space) (note_notHead l (by decide))) ?_
  rw [run_all_cons, run_group]
  refine run_star_greedy' (payload_class l.data) (note_notHead l (by decide)) ?_
  rw [take_consumed, run_all_cons]
  refine (note_end l h.note _).trans ?_
  rw [List.append_assoc]
  rfl

theorem candump_match (l : CandumpLine) (h : l.Valid) : Format.candump.regex.match? l.text = some (candumpGroups l) := by
  unfold Format.regex match? Spec.Plot.CandumpLine.text
  dsimp only
  rw [run_all_cons]
  have hopen : NotHead isSpace (l.stampText ++ (l.channel ++ (gap (l.gaps 2) ++ (idText l.ext l.id ++ (gap (l.gaps 3) ++
      ('[' :: (l.len ++ (']' :: (blanks (l.gaps 4) ++ (payloadText l.data ++ l.noteText)))))))))) := by
    unfold CandumpLine.stampText
    cases l.stamp with
    | none => exact channel_notHead (w := l.channel) h.channel.1
    | some t => exact .cons (by decide)
  refine run_star_greedy' (p := isSpace) blanks_space hopen ?_
  rw [run_all_cons]
  unfold CandumpLine.stampText candumpGroups
  cases hs : l.stamp with
  | none =>
    rw [run_opt_none]
    · exact candump_tail l h []
    · obtain ⟨hc, hh⟩ := h.channel
      dsimp only
      rw [List.nil_append, run_all_cons]
      cases hl : l.channel with
      | nil => exact absurd hl hc.1
      | cons c r =>
        rw [List.cons_append, run_chr_ne]
        rintro rfl
        exact hh r hl
  | some t =>
    refine run_opt_some ?_
    obtain ⟨ht, hp⟩ := h.stamp t hs
    dsimp only
    rw [List.cons_append, List.append_assoc, List.cons_append, run_all_cons, run_chr, run_all_cons, run_group]
    refine run_star_lazy (p := fun c => c != '\n') ?_ ?_ ?_
    · intro c hc
      simp only [bne_iff_ne, ne_eq]
      rintro rfl
      exact ht.2 hc
    · intro a b e hb
      cases b with
      | nil => exact absurd rfl hb
      | cons c b =>
        rw [List.cons_append, run_all_cons, run_chr_ne]
        rintro rfl
        exact hp (by rw [e]; simp)
    · rw [take_consumed, run_all_cons, run_chr]
      show (all _).run _ _ _ = _
      rw [run_all_cons]
      have := candump_tail l h ([] ++ [("time", t)])
      rw [run_all_cons] at this
      unfold s at this ⊢
      rw [run_star_none (channel_notHead h.channel.1)] at this
      exact run_star_greedy' gap_space (channel_notHead h.channel.1) this

theorem candump_unpack (l : CandumpLine) (h : l.Valid) : moUnpack (candumpGroups l) = .ok (l.stamp, l.id, l.data.map (·.1)) := by
  have h1 : textOf (candumpGroups l) "frameid" = idText l.ext l.id := by
    unfold candumpGroups; cases l.stamp <;> rfl
  have h2 : textOf (candumpGroups l) "data" = payloadText l.data := by
    unfold candumpGroups; cases l.stamp <;> rfl
  have h3 : groupOf (candumpGroups l) "time" = l.stamp := by
    unfold candumpGroups; cases l.stamp <;> rfl
  obtain ⟨b, hb, hl, hid⟩ := id_unpack h.id
  unfold moUnpack
  dsimp only
  rw [h1, h2, h3]
  refine (Cdd.bind_of_ok hb).trans ?_
  rw [if_neg (by rw [hl]; simp)]
  have := LogReader.unhexlify_payload l.data
  have e : (payloadText l.data).filter (fun c => decide (c ≠ ' ')) = (payloadText l.data).filter (· != ' ') := by
    refine List.filter_congr fun c _ => ?_
    rw [Bool.eq_iff_iff]; simp
  rw [e]
  refine (Cdd.bind_of_ok this).trans ?_
  rw [hid]
  rfl

/-! ### candump -l -/

def logGroups (l : LogLine) : Groups :=
  [("time", l.stamp), ("frameid", idText l.ext l.id), ("data", l.data.flatMap byteText)]

theorem bytes_upper (data : Bytes) : ∀ c ∈ data.flatMap byteText, isUpperHex c = true := by
  intro c hc
  obtain ⟨b, _, h⟩ := List.mem_flatMap.1 hc
  exact hexText_upper _ _ c h

theorem direction_notHead (d : Option (Nat × Bool)) {p : Char → Bool} (hp : p ' ' = false) : NotHead p (directionText d) := by
  cases d with
  | none => exact .nil
  | some x => exact .cons hp

theorem direction_end (x : Option (Nat × Bool)) (g : Groups) :
    (opt (all [plus true s, cls fun c => c == 'R' || c == 'T'])).run ((all [eos]).run fun _ g => some g) (directionText x) g =
      some g := by
  cases x with
  | none =>
    rw [run_opt_none]
    · rfl
    · rw [run_all_cons]
      exact run_plus_fail_head .nil
  | some y =>
    obtain ⟨n, r⟩ := y
    refine run_opt_some ?_
    show (all _).run _ (gap n ++ [if r then 'R' else 'T']) g = _
    rw [run_all_cons]
    unfold s
    refine run_plus_greedy' (gap_ne _) gap_space (.cons (by cases r <;> rfl)) ?_
    rw [run_all_cons, run_cls_ok (by cases r <;> rfl)]
    rfl

theorem stamp_group {a b rest : Chars} {k : Cont} {g res : Groups} (ha : Digits a) (hb : Digits b) (hr : NotHead isDigit rest)
    (hk : k rest (g ++ [("time", a ++ '.' :: b)]) = some res) :
    (group "time" (all [plus true (cls isDigit), chr '.', plus true (cls isDigit)])).run k ((a ++ '.' :: b) ++ rest) g = some res := by
  rw [run_group]
  have ht := take_consumed (a ++ '.' :: b) rest
  generalize hL : (a ++ '.' :: b) ++ rest = L at ht ⊢
  have hL' : L = a ++ ('.' :: (b ++ rest)) := by rw [← hL]; simp
  generalize hK : (fun (s' : Regex.Chars) (g' : Groups) => k s' (g' ++ [("time", L.take (L.length - s'.length))])) = K
  rw [hL', run_all_cons]
  rw [run_plus_avoid (p := isDigit) (by intro x r g hx; rw [run_all_cons]; exact avoids_chr (by decide) _ x r g hx)
    ha.1 ha.2 (.cons (by decide))]
  rw [run_all_cons, run_chr, run_all_cons]
  refine run_plus_greedy' (p := isDigit) hb.1 hb.2 hr ?_
  show K rest g = _
  rw [← hK]
  dsimp only
  rw [ht]
  exact hk

theorem log_match (l : LogLine) (h : l.Valid) : Format.candumpLog.regex.match? l.text = some (logGroups l) := by
  unfold Format.regex match? Spec.Plot.LogLine.text
  dsimp only
  unfold s S hex d
  rw [run_all_cons, run_chr, run_all_cons]
  refine stamp_group h.seconds h.fraction (.cons (by decide)) ?_
  rw [run_all_cons, run_chr, run_all_cons]
  refine run_plus_greedy' (p := isSpace) (gap_ne _) gap_space (channel_notHead h.channel.1) ?_
  rw [run_all_cons]
  refine run_plus_greedy' (p := fun c => !isSpace c) h.channel.1.1
    (by intro c hc; simp [h.channel.1.2 c hc]) (.append (gap_ne _) (by intro c h; simp [gap_space c h])) ?_
  rw [run_all_cons]
  refine run_plus_greedy' (p := isSpace) (gap_ne _) gap_space (.append (idText_ne _ _) fun c h => hex_not_space (hexText_upper _ _ c h)) ?_
  rw [run_all_cons, run_group]
  refine run_plus_greedy' (p := isUpperHex) (idText_ne _ _) (hexText_upper _ _) (.cons (by decide)) ?_
  rw [take_consumed, run_all_cons, run_chr, run_all_cons, run_group]
  refine run_star_greedy' (bytes_upper l.data) (direction_notHead _ (by decide)) ?_
  rw [take_consumed, run_all_cons]
  exact direction_end _ _

theorem log_unpack (l : LogLine) (h : l.Valid) : moUnpack (logGroups l) = .ok (some l.stamp, l.id, l.data) := by
  obtain ⟨b, hb, hl, hid⟩ := id_unpack h.id
  unfold moUnpack
  refine (Cdd.bind_of_ok hb).trans ?_
  rw [if_neg (by rw [hl]; simp)]
  have e : (l.data.flatMap byteText).filter (fun c => decide (c ≠ ' ')) = l.data.flatMap byteText := by
    rw [List.filter_eq_self]
    intro c hc
    have := bytes_upper l.data c hc
    simp only [ne_eq, decide_eq_true_eq]
    rintro rfl
    revert this; decide
  show unhexlifyText ((l.data.flatMap byteText).filter (fun c => decide (c ≠ ' '))) >>= _ = _
  rw [e]
  refine (Cdd.bind_of_ok (unhexlify_bytes l.data)).trans ?_
  rw [hid]
  rfl

/-! ### Other lines -/

theorem candump_none {t : Chars} (h : '[' ∉ t) : Format.candump.regex.match? t = none :=
  match?_none_of_needs (needs_all (r := chr '[') (by simp) (needs_chr _)) h

theorem log_none {t : Chars} (h : '#' ∉ t) : Format.candumpLog.regex.match? t = none :=
  match?_none_of_needs (needs_all (r := chr '#') (by simp) (needs_chr _)) h

theorem match_none {f : Format} {fmt : Option Format} (hf : fmt = none ∨ fmt = some f) {t : Chars} (h1 : '[' ∉ t) (h2 : '#' ∉ t) :
    matchLine fmt t = (fmt, none) := by
  have h : ∀ f : Format, f.regex.match? t = none := by
    intro f; cases f
    · exact candump_none h1
    · exact log_none h2
  rcases hf with rfl | rfl
  · unfold matchLine; rw [h .candump, h .candumpLog]
  · unfold matchLine; dsimp only; rw [h f]

theorem opt_isSome {r : Re} {k : Cont} {s : Chars} {g : Groups} (h : (k s g).isSome = true) : ((opt r).run k s g).isSome = true := by
  show ((r.run k s g).orElse fun _ => k s g).isSome = true
  cases r.run k s g with
  | none => exact h
  | some x => rfl

theorem alt_isSome_right {a b : Re} {k : Cont} {s : Chars} {g : Groups} (h : (b.run k s g).isSome = true) :
    ((alt a b).run k s g).isSome = true := by
  show ((a.run k s g).orElse fun _ => b.run k s g).isSome = true
  cases a.run k s g with
  | none => exact h
  | some x => rfl

theorem alt_isSome_left {a b : Re} {k : Cont} {s : Chars} {g : Groups} (h : (a.run k s g).isSome = true) :
    ((alt a b).run k s g).isSome = true := by
  show ((a.run k s g).orElse fun _ => b.run k s g).isSome = true
  cases ha : a.run k s g with
  | none => rw [ha] at h; cases h
  | some x => rfl

theorem word_not {c : Char} {w : Chars} (hc : isWord c = false) (h : ∀ x ∈ w, isWord x = true) : c ∉ w := by
  intro hm; rw [h c hm] at hc; cases hc

theorem decode_message {name t : Chars} (h1 : name ≠ []) (h2 : ∀ c ∈ name, isWord c = true) :
    (reDecode.match? (name ++ '(' :: t)).isSome = true := by
  refine alt_isSome_left ?_
  unfold w
  rw [run_all_cons, run_plus_greedy' (p := isWord) h1 h2 (.cons (by decide)) (by rw [run_all_cons, run_chr]; rfl)]
  rfl

theorem decode_close (t : Chars) : (reDecode.match? (')' :: t)).isSome = true := by
  refine alt_isSome_right (alt_isSome_right ?_)
  rw [run_chr]
  rfl

theorem isSome_of_star {p : Char → Bool} {k : Cont} (hk : ∀ s g, (k s g).isSome = true) (s : Chars) (g : Groups) :
    ((star true (cls p)).run k s g).isSome = true := by
  rw [run_star]
  generalize s.length = fuel
  induction fuel generalizing s g with
  | zero => exact hk s g
  | succ n ih =>
    simp only [iterate, if_true]
    cases (cls p).run (fun s' g' => if s'.length < s.length then iterate (cls p).run true k n s' g' else none) s g with
    | none => exact hk s g
    | some x => rfl

theorem decode_signal {m n : Nat} {name number t : Chars} (h1 : name ≠ []) (h2 : ∀ c ∈ name, isWord c = true)
    (h3 : number ≠ []) (h4 : ∀ c ∈ number, isDigit c = true ∨ c = '.' ∨ c = '+' ∨ c = '-') :
    (reDecode.match? (gap m ++ (name ++ (':' :: (gap n ++ (number ++ t)))))).isSome = true := by
  refine alt_isSome_right (alt_isSome_left ?_)
  unfold w s
  have hnum : ∀ c ∈ number, (isDigit c || c == '.' || c == '+' || c == '-') = true := by
    intro c hc
    rcases h4 c hc with h | rfl | rfl | rfl
    · rw [h]; rfl
    all_goals rfl
  rw [run_all_cons, run_plus_avoid (p := isSpace)
    (by intro x r g hx; rw [run_all_cons]; exact avoids_plus (fun y => LogReader.space_not_word) _ x r g hx)
    (gap_ne _) gap_space (.append h1 fun c hc => LogReader.word_not_space (h2 c hc))]
  rw [run_all_cons, run_plus_avoid (p := isWord)
    (by intro x r g hx; rw [run_all_cons]; exact avoids_chr (by decide) _ x r g hx) h1 h2 (.cons (by decide))]
  rw [run_all_cons, run_chr, run_all_cons]
  rw [run_plus_avoid (p := isSpace)
    (by
      intro x r g hx
      rw [run_all_cons]
      refine avoids_plus (p := isSpace) (fun y hy => ?_) _ x r g hx
      have hd := LogReader.space_not_digit hy
      have : ∀ z : Char, isSpace z = false → y ≠ z := by
        intro z hz e; subst e; rw [hy] at hz; cases hz
      simp [hd, this '.' (by decide), this '+' (by decide), this '-' (by decide)])
    (gap_ne _) gap_space (.append h3 fun c hc => by
      rcases h4 c hc with h | rfl | rfl | rfl
      · exact LogReader.digit_not_space h
      all_goals rfl)]
  rw [run_all_cons]
  cases number with
  | nil => exact absurd rfl h3
  | cons c number =>
    unfold plus
    show ((cls fun c => isDigit c || c == '.' || c == '+' || c == '-').run ((star true (cls fun c => isDigit c || c == '.' || c == '+' || c == '-')).run _) (c :: (number ++ t)) _).isSome = true
    rw [run_cls_ok (hnum c (by simp))]
    refine isSome_of_star (fun s g => ?_) _ _
    rw [run_all_cons]
    refine opt_isSome ?_
    rw [run_all_cons]
    exact opt_isSome rfl

theorem decode_none {c : Char} {t : Chars} (h1 : isSpace c = false) (h2 : c ≠ ')') (h3 : '(' ∉ c :: t) :
    reDecode.match? (c :: t) = none := by
  unfold reDecode match?
  rw [LogReader.run_alt_right, LogReader.run_alt_right]
  · exact run_chr_ne h2 _ _ _
  · rw [run_all_cons]
    exact run_plus_fail_head (.cons h1)
  · exact match?_none_of_needs (r := all [plus true w, chr '(']) (needs_all (r := chr '(') (by simp) (needs_chr _)) h3

/-! ### What lines do -/

theorem inline_of {t : Chars} (h : ∀ c ∈ t, c ≠ '\r' ∧ c ≠ '\n') : Inline t :=
  ⟨fun hm => (h _ hm).1 rfl, fun hm => (h _ hm).2 rfl⟩

theorem inline_append {a b : Chars} (ha : Inline a) (hb : Inline b) : Inline (a ++ b) := by
  unfold Inline at *
  simp only [List.mem_append, not_or]
  exact ⟨⟨ha.1, hb.1⟩, ha.2, hb.2⟩

theorem inline_cons {c : Char} {b : Chars} (h1 : c ≠ '\r') (h2 : c ≠ '\n') (hb : Inline b) : Inline (c :: b) := by
  unfold Inline at *
  simp only [List.mem_cons, not_or]
  exact ⟨⟨Ne.symm h1, hb.1⟩, Ne.symm h2, hb.2⟩

theorem inline_class {p : Char → Bool} (h1 : p '\r' = false) (h2 : p '\n' = false) {t : Chars} (h : ∀ c ∈ t, p c = true) :
    Inline t :=
  inline_of fun c hc => ⟨fun e => absurd (h c hc) (by rw [e, h1]; decide), fun e => absurd (h c hc) (by rw [e, h2]; decide)⟩

theorem inline_nil : Inline [] := ⟨by simp, by simp⟩

theorem inline_blanks (n : Nat) : Inline (blanks n) :=
  inline_of fun c hc => by rw [mem_blanks hc]; exact ⟨by decide, by decide⟩

theorem inline_gap (n : Nat) : Inline (gap n) := inline_blanks _

theorem inline_word {t : Chars} (h : Word t) : Inline t :=
  inline_class (p := fun c => !isSpace c) (by decide) (by decide) fun c hc => by simp [h.2 c hc]

theorem inline_id (ext : Bool) (id : Nat) : Inline (idText ext id) :=
  inline_class (p := isUpperHex) (by decide) (by decide) (hexText_upper _ _)

theorem inline_candump (l : CandumpLine) (h : l.Valid) : Inline l.text := by
  refine inline_append (inline_blanks _) (inline_append ?_ (inline_append (inline_word h.channel.1) (inline_append (inline_gap _)
    (inline_append (inline_id _ _) (inline_append (inline_gap _) (inline_cons (by decide) (by decide)
    (inline_append (inline_class (p := isDigit) (by decide) (by decide) h.len.2) (inline_cons (by decide) (by decide)
    (inline_append (inline_blanks _) (inline_append (inline_class (by decide) (by decide) (payload_class l.data)) ?_))))))))))
  · unfold CandumpLine.stampText
    cases hs : l.stamp with
    | none => exact inline_nil
    | some t =>
      exact inline_cons (by decide) (by decide) (inline_append (h.stamp t hs).1 (inline_cons (by decide) (by decide) (inline_gap _)))
  · unfold CandumpLine.noteText
    cases hn : l.note with
    | none => exact inline_nil
    | some t => exact inline_cons (by decide) (by decide) (inline_cons (by decide) (by decide) (h.note t hn))

theorem inline_direction (d : Option (Nat × Bool)) : Inline (directionText d) := by
  cases d with
  | none => exact inline_nil
  | some x =>
    obtain ⟨n, r⟩ := x
    exact inline_append (inline_gap _) (inline_cons (by cases r <;> decide) (by cases r <;> decide) inline_nil)

theorem inline_log (l : LogLine) (h : l.Valid) : Inline l.text := by
  have hdig : ∀ {t : Chars}, Digits t → Inline t := fun ht => inline_class (p := isDigit) (by decide) (by decide) ht.2
  exact inline_cons (by decide) (by decide) (inline_append
    (inline_append (hdig h.seconds) (inline_cons (by decide) (by decide) (hdig h.fraction)))
    (inline_cons (by decide) (by decide) (inline_append (inline_gap _) (inline_append (inline_word h.channel.1)
    (inline_append (inline_gap _) (inline_append (inline_id _ _) (inline_cons (by decide) (by decide)
    (inline_append (inline_class (p := isUpperHex) (by decide) (by decide) (bytes_upper _)) (inline_direction _)))))))))

theorem log_no_bracket (l : LogLine) (h : l.Valid) : '[' ∉ l.text := by
  have hc : ∀ {p : Char → Bool} {t : Chars}, p '[' = false → (∀ c ∈ t, p c = true) → '[' ∉ t := by
    intro p t hp ht hm; rw [ht _ hm] at hp; cases hp
  have hg : ∀ n, '[' ∉ gap n := fun n => hc (p := isSpace) (by decide) gap_space
  have hd : '[' ∉ directionText l.direction := by
    cases l.direction with
    | none => simp [directionText]
    | some x =>
      obtain ⟨n, r⟩ := x
      simp only [directionText, List.mem_append, not_or]
      exact ⟨hg n, by cases r <;> decide⟩
  unfold Spec.Plot.LogLine.text Spec.Plot.LogLine.stamp
  simp only [List.mem_cons, List.mem_append, not_or]
  refine ⟨by decide, ⟨hc (p := isDigit) (by decide) h.seconds.2, by decide, hc (p := isDigit) (by decide) h.fraction.2⟩,
    by decide, hg _, h.channel.2, hg _, hc (p := isUpperHex) (by decide) (hexText_upper _ _), by decide,
    hc (p := isUpperHex) (by decide) (bytes_upper _), hd⟩

/-- What the command makes of a line. -/
inductive Handled (fmt : Option Format) (f : Format) (line : Chars) : Spec.Plot.Item → Prop
  | empty : stripNewlines line = [] → Handled fmt f line .skip
  | output : stripNewlines line ≠ [] → matchLine fmt (stripNewlines line) = (fmt, none) →
      (reDecode.match? (stripNewlines line)).isSome = true → Handled fmt f line .skip
  | junk : stripNewlines line ≠ [] → matchLine fmt (stripNewlines line) = (fmt, none) →
      (reDecode.match? (stripNewlines line)).isSome = false → Handled fmt f line (.junk (stripNewlines line))
  | frame {g : Groups} {t : Option Chars} {id : Nat} {data : Bytes} : stripNewlines line ≠ [] →
      matchLine fmt (stripNewlines line) = (some f, some g) → moUnpack g = .ok (t, id, data) →
      Handled fmt f line (.frame t id data)

theorem reads_handled {f : Format} {fmt : Option Format} (hf : fmt = none ∨ fmt = some f) {line : Chars} {item : Spec.Plot.Item}
    (h : Reads f line item) : Handled fmt f line item := by
  cases h with
  | blank he =>
    have := strip_eol inline_nil he
    exact .empty this
  | @candump l e hl he =>
    have hs := strip_eol (inline_candump l hl) he
    refine .frame (g := candumpGroups l) ?_ ?_ (candump_unpack l hl)
    · rw [hs]
      intro h0
      have := congrArg List.length h0
      unfold Spec.Plot.CandumpLine.text at this
      simp at this
    · rw [hs]
      rcases hf with rfl | rfl
      · unfold matchLine; rw [candump_match l hl]
      · unfold matchLine; dsimp only; rw [candump_match l hl]
  | @log l e hl he =>
    have hs := strip_eol (inline_log l hl) he
    refine .frame (g := logGroups l) ?_ ?_ (log_unpack l hl)
    · rw [hs]
      intro h0; cases h0
    · rw [hs]
      rcases hf with rfl | rfl
      · unfold matchLine; rw [candump_none (log_no_bracket l hl), log_match l hl]
      · unfold matchLine; dsimp only; rw [log_match l hl]
  | @message _ name t e h1 h2 h3 h4 h5 he =>
    have hs := strip_eol (t := name ++ '(' :: t)
      (inline_append (inline_class (p := isWord) (by decide) (by decide) h2) (inline_cons (by decide) (by decide) h3)) he
    refine .output ?_ ?_ ?_
    · rw [hs]; simp
    · rw [hs]
      refine match_none hf ?_ ?_
      · simp only [List.mem_append, List.mem_cons, not_or]
        exact ⟨word_not (by decide) h2, by decide, h4⟩
      · simp only [List.mem_append, List.mem_cons, not_or]
        exact ⟨word_not (by decide) h2, by decide, h5⟩
    · rw [hs]; exact decode_message h1 h2
  | @signal _ m n name number t e h1 h2 h3 h4 h5 h6 h7 he =>
    have hnum : ∀ c ∈ number, (isDigit c || c == '.' || c == '+' || c == '-') = true := by
      intro c hc
      rcases h4 c hc with h | rfl | rfl | rfl
      · rw [h]; rfl
      all_goals rfl
    have hs := strip_eol (t := gap m ++ (name ++ (':' :: (gap n ++ (number ++ t)))))
      (inline_append (inline_gap _) (inline_append (inline_class (p := isWord) (by decide) (by decide) h2)
        (inline_cons (by decide) (by decide) (inline_append (inline_gap _)
        (inline_append (inline_class (by decide) (by decide) hnum) h5))))) he
    have hc : ∀ {c : Char} {p : Char → Bool} {t : Chars}, p c = false → (∀ c ∈ t, p c = true) → c ∉ t := by
      intro c p t hp ht hm; rw [ht _ hm] at hp; cases hp
    refine .output ?_ ?_ ?_
    · rw [hs]; simp [gap, blanks]
    · rw [hs]
      refine match_none hf ?_ ?_
      · simp only [List.mem_append, List.mem_cons, not_or]
        exact ⟨hc (p := isSpace) (by decide) gap_space, word_not (by decide) h2, by decide,
          hc (p := isSpace) (by decide) gap_space, hc (by decide) hnum, h6⟩
      · simp only [List.mem_append, List.mem_cons, not_or]
        exact ⟨hc (p := isSpace) (by decide) gap_space, word_not (by decide) h2, by decide,
          hc (p := isSpace) (by decide) gap_space, hc (by decide) hnum, h7⟩
    · rw [hs]; exact decode_signal h1 h2 h3 h4
  | @close _ t e h1 h2 h3 he =>
    have hs := strip_eol (t := ')' :: t) (inline_cons (by decide) (by decide) h1) he
    refine .output ?_ ?_ ?_
    · rw [hs]; simp
    · rw [hs]
      refine match_none hf ?_ ?_
      · simp only [List.mem_cons, not_or]; exact ⟨by decide, h2⟩
      · simp only [List.mem_cons, not_or]; exact ⟨by decide, h3⟩
    · rw [hs]; exact decode_close t
  | @junk _ c t e h1 h2 h3 h4 h5 h6 he =>
    have hs := strip_eol h1 he
    have : Handled fmt f (c :: t ++ e) (.junk (stripNewlines (c :: t ++ e))) := by
      refine .junk ?_ ?_ ?_
      · rw [hs]; simp
      · rw [hs]; exact match_none hf h4 h5
      · rw [hs, decode_none h2 h3 h6]; rfl
    rw [hs] at this
    exact this

end Cantools.Plot
