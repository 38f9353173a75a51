import Verif.Lemmas.LogReader

set_option linter.unusedSimpArgs false

namespace Cantools.LogReader
open Cantools Cantools.Regex Cantools.Spec.LogReader Re

/-! ### General facts -/

theorem run_times {p : Char → Bool} {k : Cont} {w rest : Chars} {g : Groups}
    (hw : ∀ c ∈ w, p c = true) :
    (times w.length (cls p)).run k (w ++ rest) g = k rest g := by
  induction w with
  | nil => rfl
  | cons c w ih =>
    show (cls p).run ((times w.length (cls p)).run k) (c :: (w ++ rest)) g = _
    rw [run_cls_ok (hw c (by simp))]
    exact ih fun x hx => hw x (by simp [hx])

theorem run_digits {n : Nat} {k : Cont} {w rest : Chars} {g : Groups} (h : DigitsOf n w) :
    (times n d).run k (w ++ rest) g = k rest g := by
  obtain ⟨rfl, h⟩ := h
  exact run_times h

/-- If nothing can follow a shorter match, the longest one decides. -/
theorem run_plus_exact {p : Char → Bool} {k : Cont} {w rest : Chars} {g : Groups} (hne : w ≠ [])
    (hw : ∀ c ∈ w, p c = true) (hr : NotHead p rest)
    (h : ∀ u v, v ≠ [] → w = u ++ v → k (v ++ rest) g = none) :
    (plus true (cls p)).run k (w ++ rest) g = k rest g := by
  cases hk : k rest g with
  | some res => exact run_plus_greedy' hne hw hr hk
  | none =>
    apply run_plus_fail hr
    intro u v _ he
    by_cases hv : v = []
    · subst hv; exact hk
    · exact h u v hv he

/-- What follows has to start with white space. -/
def NeedsSpace (k : Cont) : Prop := ∀ s g, NotHead isSpace s → k s g = none

theorem needsSpace_plus {greedy : Bool} (K : Cont) : NeedsSpace ((plus greedy (cls isSpace)).run K) :=
  fun _ _ h => run_plus_fail_head h

theorem needsSpace_group {k : Cont} (h : NeedsSpace k) (f : Chars → Groups → Groups) :
    NeedsSpace (fun s g => k s (f s g)) := fun s g hs => h s (f s g) hs

/-- A word that is followed by blanks and something that cannot go on. -/
theorem word_gap_fail {p : Char → Bool} {greedy : Bool}
    (hp : ∀ x, isSpace x = true → p x = false)
    {k : Cont} (hk : NeedsSpace k) {word : Chars} (hw : ∀ c ∈ word, isSpace c = false)
    {n : Nat} {rest : Chars} {g : Groups}
    (h : (∃ c ∈ word, p c = false) ∨ k (gap n ++ rest) g = none) :
    (plus greedy (cls p)).run k (word ++ (gap n ++ rest)) g = none := by
  by_cases hall : ∀ c ∈ word, p c = true
  · have hkr : k (gap n ++ rest) g = none := by
      rcases h with ⟨c, hc, hf⟩ | h
      · rw [hall c hc] at hf; cases hf
      · exact h
    apply run_plus_fail (.append (gap_ne _) fun c hc => hp c (gap_space c hc))
    intro u v _ he
    cases v with
    | nil => exact hkr
    | cons x v => exact hk _ _ (.cons (hw x (by rw [he]; simp)))
  · -- split at a character that is not in the class
    have hsplit : ∃ a c b, word = a ++ c :: b ∧ p c = false := by
      rw [not_forall] at hall
      obtain ⟨c, hc⟩ := hall
      rw [Classical.not_imp] at hc
      obtain ⟨a, b, rfl⟩ := List.append_of_mem hc.1
      exact ⟨a, c, b, rfl, by simpa using hc.2⟩
    obtain ⟨a, c, b, rfl, hc⟩ := hsplit
    rw [List.append_assoc, List.cons_append]
    apply run_plus_fail (.cons hc)
    intro u v _ he
    cases v with
    | nil => exact hk _ _ (.cons (hw c (by simp)))
    | cons x v => exact hk _ _ (.cons (hw x (by rw [he]; simp)))

theorem group_word_gap_fail {name : String} {p : Char → Bool} {greedy : Bool}
    (hp : ∀ x, isSpace x = true → p x = false)
    {k : Cont} (hk : NeedsSpace k) {word : Chars} (hw : ∀ c ∈ word, isSpace c = false)
    {n : Nat} {rest : Chars} {g : Groups}
    (h : (∃ c ∈ word, p c = false) ∨ ∀ g, k (gap n ++ rest) g = none) :
    (group name (plus greedy (cls p))).run k (word ++ (gap n ++ rest)) g = none := by
  rw [run_group]
  refine word_gap_fail hp (needsSpace_group hk _) hw ?_
  rcases h with h | h
  · exact .inl h
  · exact .inr (h _)

/-- A match inside a word cannot be followed by white space. -/
theorem word_then_space_fail {p : Char → Bool} {greedy : Bool} {k : Cont} (hk : NeedsSpace k)
    {word : Chars} {x : Char} (hx : isSpace x = false) (hpx : p x = false)
    (hw : ∀ c ∈ word, isSpace c = false) {rest : Chars} {g : Groups} :
    (plus greedy (cls p)).run k (word ++ x :: rest) g = none := by
  apply run_plus_fail (.cons hpx)
  intro u v _ he
  cases v with
  | nil => exact hk _ _ (.cons hx)
  | cons y v => exact hk _ _ (.cons (hw y (by rw [he]; simp)))

theorem group_word_then_space_fail {name : String} {p : Char → Bool} {greedy : Bool} {k : Cont}
    (hk : NeedsSpace k) {word : Chars} {x : Char} (hx : isSpace x = false) (hpx : p x = false)
    (hw : ∀ c ∈ word, isSpace c = false) {rest : Chars} {g : Groups} :
    (group name (plus greedy (cls p))).run k (word ++ x :: rest) g = none := by
  rw [run_group]
  exact word_then_space_fail (needsSpace_group hk _) hx hpx hw

theorem word_notHead {w rest : Chars} (h : Word w) : NotHead isSpace (w ++ rest) :=
  .append h.1 h.2

/-! ### Lines of candump -/

def contentGroups : Content → Groups
  | .data b => [("can_data", payloadText b)]
  | .remote _ => [("can_data", remoteChars)]
  | .errorFrame b => [("can_data", payloadText b), ("error_frame", errorChars)]

theorem remote_text (n : Nat) : (Content.remote n).text = remoteChars ++ blanks n := by
  rw [← remote_chars]; rfl

theorem error_text (b : List (UInt8 × Nat)) :
    (Content.errorFrame b).text = payloadText b ++ errorChars := by
  rw [← error_chars]; rfl

theorem content_run (c : Content) {t : Chars} (ht : Trailer t) (g : Groups) :
    (group "can_data" dataRe).run ((all endRe).run done) (c.text ++ t) g =
      some (g ++ contentGroups c) := by
  cases c with
  | data b => exact data_payload ht g
  | remote n =>
    rw [remote_text, List.append_assoc]
    exact data_remote n ht g
  | errorFrame b =>
    rw [error_text, List.append_assoc]
    rw [data_error ht.1]
    simp [contentGroups]

theorem content_notHead (c : Content) {t : Chars} (ht : Trailer t) :
    NotHead isSpace (c.text ++ t) := by
  cases c with
  | data b => exact payload_notHead (fun c => hex_not_space) (trailer_notHead ht (by decide))
  | remote n =>
    rw [remote_text, List.append_assoc]
    exact .cons (by decide)
  | errorFrame b =>
    rw [error_text, List.append_assoc]
    exact payload_notHead (fun c => hex_not_space) (.cons (by decide))

/-- The line from the channel on. -/
def CandumpLine.rest (l : CandumpLine) : Chars :=
  l.channel ++ (gap (l.gaps 2) ++
    (idText l.ext l.id ++ (gap (l.gaps 3) ++ ('[' :: (l.len ++ (']' :: (blanks (l.gaps 4) ++
    (l.content.text ++ l.trailer))))))))

def tailGroups (l : CandumpLine) : Groups :=
  [("channel", l.channel), ("can_id", idText l.ext l.id)] ++ contentGroups l.content

theorem tail_run {l : CandumpLine} (h : l.Valid) (g : Groups) :
    (all candumpTail).run done (CandumpLine.rest l) g = some (g ++ tailGroups l) := by
  refine candump_head h.channel h.len (content_notHead _ h.trailer) ?_
  rw [content_run _ h.trailer]
  simp [tailGroups]

theorem tail_avoids (k : Cont) : Avoids isSpace ((all candumpTail).run k) := by
  rw [candumpTail_eq, run_all_append]
  simp only [run_all_cons]
  exact avoids_group _ (avoids_plus (by intro x; simp)) _

def stampGroups (p : Prefix) : Groups :=
  match p with
  | .plain => []
  | p => [("timestamp", p.stampText)]

theorem seconds_class {c : Char} (h : isDigit c = true ∨ c = '.') :
    (isDigit c || c == '.') = true := by
  rcases h with h | h <;> simp [h]

theorem default_run {l : CandumpLine} (h : l.Valid) (hp : l.pre = .plain) :
    Pattern.candumpDefault.regex.match? l.text = some (tailGroups l) := by
  show (all (star false s :: candumpTail)).run done l.text [] = _
  unfold CandumpLine.text
  rw [hp]
  simp only [Prefix.text, List.nil_append]
  rw [run_all_cons]
  unfold s
  rw [run_star_avoid (tail_avoids _) blanks_space (word_notHead h.channel)]
  exact tail_run h []

theorem timestamped_run {l : CandumpLine} (h : l.Valid) {t : Chars} (hp : l.pre = .seconds t) :
    Pattern.candumpTimestamped.regex.match? l.text = some (("timestamp", t) :: tailGroups l) := by
  have hv := h.pre
  rw [hp] at hv
  show (all ([star false s, chr '(',
      group "timestamp" (plus true (cls fun c => isDigit c || c == '.')), chr ')', plus true s] ++
      candumpTail)).run done l.text [] = _
  unfold CandumpLine.text
  rw [hp]
  simp only [Prefix.text, Prefix.stampText, run_all_append, run_all_cons, run_all_nil,
    List.cons_append, List.append_assoc]
  unfold s
  rw [run_star_avoid (avoids_chr (by decide) _) blanks_space (.cons (by decide)), run_chr,
    run_group_plus_avoid (avoids_chr (by decide) _) hv.1 (fun c hc => seconds_class (hv.2 c hc))
      (.cons (by decide)), run_chr,
    run_plus_avoid (tail_avoids _) (gap_ne _) gap_space (word_notHead h.channel)]
  exact tail_run h _

/-- The regular expression of dates. -/
theorem date_run {y mo d' h mi s' f rest : Chars} (hv : (Prefix.date y mo d' h mi s' f).Valid)
    {k : Cont} (hk : Avoids isDigit k) (hr : NotHead isDigit rest) (g : Groups) :
    (group "timestamp" (all [times 4 d, chr '-', times 2 d, chr '-', times 2 d, chr ' ', times 2 d,
        chr ':', times 2 d, chr ':', times 2 d, chr '.', plus true d])).run k
      ((Prefix.date y mo d' h mi s' f).stampText ++ rest) g =
    k rest (g ++ [("timestamp", (Prefix.date y mo d' h mi s' f).stampText)]) := by
  obtain ⟨hy, hmo, hd, hh, hmi, hs, hf⟩ := hv
  rw [run_group]
  generalize hT : (Prefix.date y mo d' h mi s' f).stampText = T
  have hk' : Avoids isDigit (fun s' g' =>
      k s' (g' ++ [("timestamp", (T ++ rest).take ((T ++ rest).length - s'.length))])) := by
    intro x r g' hx; exact hk x r _ hx
  have goal : ∀ K : Cont, Avoids isDigit K → (all [times 4 d, chr '-', times 2 d, chr '-',
      times 2 d, chr ' ', times 2 d, chr ':', times 2 d, chr ':', times 2 d, chr '.',
      plus true d]).run K (T ++ rest) g = K rest g := by
    intro K hK
    rw [← hT]
    simp only [Prefix.stampText, List.append_assoc, List.cons_append, run_all_cons, run_all_nil]
    rw [run_digits hy, run_chr, run_digits hmo, run_chr, run_digits hd, run_chr, run_digits hh,
      run_chr, run_digits hmi, run_chr, run_digits hs, run_chr]
    unfold d
    exact run_plus_avoid hK hf.1 hf.2 hr
  rw [goal _ hk', take_consumed]

theorem absolute_run {l : CandumpLine} (h : l.Valid) {y mo d' hh mi s' f : Chars}
    (hp : l.pre = .date y mo d' hh mi s' f) :
    Pattern.candumpAbsoluteLog.regex.match? l.text =
      some (("timestamp", l.pre.stampText) :: tailGroups l) := by
  have hv := h.pre
  rw [hp] at hv
  show (all ([star false s, chr '(',
      group "timestamp" (all [times 4 d, chr '-', times 2 d, chr '-', times 2 d, chr ' ', times 2 d,
        chr ':', times 2 d, chr ':', times 2 d, chr '.', plus true d]),
      chr ')', plus true s] ++ candumpTail)).run done l.text [] = _
  unfold CandumpLine.text
  rw [hp]
  simp only [Prefix.text, List.cons_append, List.append_assoc]
  rw [run_all_cons, run_all_cons, run_all_cons, run_all_cons, run_all_cons, List.nil_append]
  unfold s
  rw [run_star_avoid (avoids_chr (by decide) _) blanks_space (.cons (by decide)), run_chr,
    date_run hv (avoids_chr (by decide) _) (.cons (by decide)), run_chr,
    run_plus_avoid (tail_avoids _) (gap_ne _) gap_space (word_notHead h.channel)]
  exact tail_run h _

/-! ### Lines with a timestamp are not taken for other lines -/

theorem tail_default_fail {word1 word2 : Chars} (h1 : Word word1) (h2 : Word word2) {n m : Nat}
    {x : Char} {rest : Chars} (hx : isSpace x = false)
    (h : (∃ c ∈ word2, isUpperHex c = false) ∨ x ≠ '[') (g : Groups) :
    (all candumpTail).run done (word1 ++ (gap n ++ (word2 ++ (gap m ++ x :: rest)))) g = none := by
  rw [candumpTail_eq, run_all_append]
  simp only [run_all_cons, run_all_nil]
  unfold S s hex d
  rw [run_group_plus_avoid (p := fun c => !isSpace c) (avoids_plus (by intro x; simp) _) h1.1
    (by intro c h; simp [h1.2 c h]) (.append (gap_ne _) (by intro c h; simp [gap_space c h]))]
  rw [run_plus_avoid (p := isSpace) (avoids_group _ (avoids_plus fun x => space_not_hex) _)
    (gap_ne _) gap_space (word_notHead h2)]
  refine group_word_gap_fail (fun x => space_not_hex) (needsSpace_plus _) h2.2 ?_
  rcases h with h | h
  · exact .inl h
  · right
    intro g
    rw [run_plus_avoid (avoids_chr (by decide) _) (gap_ne _) gap_space (.cons hx)]
    exact run_chr_ne h _ _ _

theorem default_fail_line {i : Nat} {word1 word2 : Chars} (h1 : Word word1) (h2 : Word word2)
    {n m : Nat} {x : Char} {rest : Chars} (hx : isSpace x = false)
    (h : (∃ c ∈ word2, isUpperHex c = false) ∨ x ≠ '[') :
    Pattern.candumpDefault.regex.match?
      (blanks i ++ (word1 ++ (gap n ++ (word2 ++ (gap m ++ x :: rest))))) = none := by
  show (all (star false s :: candumpTail)).run done _ [] = _
  rw [run_all_cons]
  unfold s
  rw [run_star_avoid (tail_avoids _) blanks_space (word_notHead h1)]
  exact tail_default_fail h1 h2 hx h []

theorem digit_word' {c : Char} (h : isDigit c = true ∨ c = '.') : isSpace c = false := by
  rcases h with h | rfl
  · exact digit_not_space h
  · decide

theorem stamp_word {t : Chars} (h : Seconds t) : Word ('(' :: (t ++ [')'])) := by
  refine ⟨by simp, ?_⟩
  intro c hc
  simp only [List.mem_cons, List.mem_append, List.mem_singleton] at hc
  rcases hc with rfl | hc | rfl | hc
  · decide
  · exact digit_word' (h.2 c hc)
  · decide
  · cases hc

theorem idText_cons (ext : Bool) (id : Nat) :
    ∃ x r, idText ext id = x :: r ∧ isUpperHex x = true := by
  cases h : idText ext id with
  | nil => exact absurd h (idText_ne _ _)
  | cons x r => exact ⟨x, r, rfl, hexText_upper _ _ x (by unfold idText at h; rw [h]; simp)⟩

theorem default_fail_seconds {l : CandumpLine} (h : l.Valid) {t : Chars}
    (hp : l.pre = .seconds t) : Pattern.candumpDefault.regex.match? l.text = none := by
  have hv := h.pre
  rw [hp] at hv
  obtain ⟨x, r, hx, hu⟩ := idText_cons l.ext l.id
  have := default_fail_line (i := l.gaps 0) (stamp_word hv) h.channel (n := l.gaps 1)
    (m := l.gaps 2) (x := x) (rest := r ++ (gap (l.gaps 3) ++ ('[' :: (l.len ++ (']' ::
      (blanks (l.gaps 4) ++ (l.content.text ++ l.trailer))))))) (hex_not_space hu)
    (.inr (by rintro rfl; revert hu; decide))
  rw [← this]
  unfold CandumpLine.text
  rw [hp, hx]
  simp only [Prefix.text, Prefix.stampText, List.cons_append, List.append_assoc, List.nil_append]

theorem digits_word {w : Chars} (hne : w ≠ []) (h : ∀ c ∈ w, isDigit c = true) : Word w :=
  ⟨hne, fun c hc => digit_not_space (h c hc)⟩

theorem default_fail_date {l : CandumpLine} (h : l.Valid) {y mo d' hh mi s' f : Chars}
    (hp : l.pre = .date y mo d' hh mi s' f) :
    Pattern.candumpDefault.regex.match? l.text = none := by
  have hv := h.pre
  rw [hp] at hv
  obtain ⟨hy, hmo, hd, hhh, hmi, hs, hf⟩ := hv
  obtain ⟨x, r, hx⟩ : ∃ x r, l.channel = x :: r := by
    cases hc : l.channel with
    | nil => exact absurd hc h.channel.1
    | cons x r => exact ⟨x, r, rfl⟩
  have w1 : Word ('(' :: (y ++ ('-' :: (mo ++ ('-' :: d'))))) := by
    refine ⟨by simp, ?_⟩
    intro c hc
    simp only [List.mem_cons, List.mem_append] at hc
    rcases hc with rfl | hc | rfl | hc | rfl | hc
    · decide
    · exact digit_not_space (hy.2 c hc)
    · decide
    · exact digit_not_space (hmo.2 c hc)
    · decide
    · exact digit_not_space (hd.2 c hc)
  have w2 : Word (hh ++ (':' :: (mi ++ (':' :: (s' ++ ('.' :: (f ++ [')']))))))) := by
    refine ⟨by simp, ?_⟩
    intro c hc
    simp only [List.mem_cons, List.mem_append, List.mem_singleton] at hc
    rcases hc with hc | rfl | hc | rfl | hc | rfl | hc | rfl | hc
    · exact digit_not_space (hhh.2 c hc)
    · decide
    · exact digit_not_space (hmi.2 c hc)
    · decide
    · exact digit_not_space (hs.2 c hc)
    · decide
    · exact digit_not_space (hf.2 c hc)
    · decide
    · cases hc
  have := default_fail_line (i := l.gaps 0) w1 w2 (n := 0) (m := l.gaps 1) (x := x)
    (rest := r ++ (gap (l.gaps 2) ++ (idText l.ext l.id ++ (gap (l.gaps 3) ++ ('[' :: (l.len ++ (']' ::
      (blanks (l.gaps 4) ++ (l.content.text ++ l.trailer)))))))))
    (h.channel.2 x (by rw [hx]; simp)) (.inl ⟨':', by simp, by decide⟩)
  rw [← this]
  unfold CandumpLine.text
  rw [hp, hx]
  simp only [Prefix.text, Prefix.stampText, List.cons_append, List.append_assoc, List.nil_append,
    gap_eq, blanks_zero]

/-- The start of a pattern with seconds between parentheses. -/
theorem seconds_fail_date {i : Nat} {y rest : Chars} (hy : DigitsOf 4 y) {greedy : Bool} {K : Cont}
    {g : Groups} :
    (star false s).run ((chr '(').run ((group "timestamp"
      (plus greedy (cls fun c => isDigit c || c == '.'))).run ((chr ')').run K)))
      (blanks i ++ ('(' :: (y ++ ('-' :: rest)))) g = none := by
  unfold s
  rw [run_star_avoid (avoids_chr (by decide) _) blanks_space (.cons (by decide)), run_chr, run_group]
  apply run_plus_fail (.cons (by decide))
  intro u v hu he
  cases v with
  | nil => exact run_chr_ne (by decide) _ _ _
  | cons x v =>
    apply run_chr_ne
    have := hy.2 x (by rw [he]; simp)
    rintro rfl; revert this; decide

theorem timestamped_fail_date {l : CandumpLine} (h : l.Valid) {y mo d' hh mi s' f : Chars}
    (hp : l.pre = .date y mo d' hh mi s' f) :
    Pattern.candumpTimestamped.regex.match? l.text = none := by
  have hv := h.pre
  rw [hp] at hv
  show (all ([star false s, chr '(',
      group "timestamp" (plus true (cls fun c => isDigit c || c == '.')), chr ')', plus true s] ++
      candumpTail)).run done l.text [] = _
  unfold CandumpLine.text
  rw [hp]
  simp only [Prefix.text, Prefix.stampText, List.cons_append, List.append_assoc]
  rw [run_all_cons, run_all_cons, run_all_cons, run_all_cons]
  exact seconds_fail_date hv.1

theorem log_fail_date {l : CandumpLine} (h : l.Valid) {y mo d' hh mi s' f : Chars}
    (hp : l.pre = .date y mo d' hh mi s' f) :
    Pattern.candumpDefaultLog.regex.match? l.text = none := by
  have hv := h.pre
  rw [hp] at hv
  unfold Re.match? Pattern.regex CandumpLine.text
  rw [hp]
  simp only [Prefix.text, Prefix.stampText, List.cons_append, List.append_assoc]
  rw [run_all_cons, run_all_cons, run_all_cons, run_all_cons]
  exact seconds_fail_date hv.1

/-! ### candump -l -/

/-- `[0-9A-Fa-f]{2}` -/
def hexPair : Re := all [cls isHex, cls isHex]

theorem pairs_loop {rem : Chars} {k : Cont} {g res : Groups}
    (hrem : NotHead isHex rem) (hk : k rem g = some res) (data : Bytes) :
    (star true hexPair).run k (data.flatMap byteText ++ rem) g = some res := by
  rw [run_star]
  obtain ⟨fuel, hfe⟩ : ∃ fuel, (data.flatMap byteText ++ rem).length = fuel := ⟨_, rfl⟩
  rw [hfe]
  have hf : (data.flatMap byteText ++ rem).length ≤ fuel := by omega
  clear hfe
  induction data generalizing fuel with
  | nil =>
    show iterate hexPair.run true k fuel rem g = some res
    cases fuel with
    | zero => exact hk
    | succ fuel =>
      rw [iterate.eq_2]
      have : ∀ K, hexPair.run K rem g = none := fun K => run_cls_fail hrem
      simp [this, hk]
  | cons b r ih =>
    have he : (b :: r).flatMap byteText ++ rem =
        hexDigit (b.toNat / 16) :: hexDigit b.toNat :: (r.flatMap byteText ++ rem) := by
      simp [byteText_eq]
    rw [he] at hf ⊢
    cases fuel with
    | zero => simp at hf
    | succ fuel =>
      rw [iterate.eq_2]
      have hstep : ∀ K : Cont, hexPair.run K
          (hexDigit (b.toNat / 16) :: hexDigit b.toNat :: (r.flatMap byteText ++ rem)) g =
          K (r.flatMap byteText ++ rem) g := by
        intro K
        unfold hexPair
        simp only [run_all_cons, run_all_nil]
        rw [run_cls_ok (hex_isHex (hexDigit_upper _)), run_cls_ok (hex_isHex (hexDigit_upper _))]
      rw [hstep, if_pos rfl, if_pos (by simp only [List.length_cons]; omega),
        ih _ (by simp only [List.length_cons] at hf; omega)]
      rfl

def logGroups (l : LogLine) : Groups :=
  [("timestamp", l.stamp), ("channel", l.channel), ("can_id", idText l.ext l.id),
   ("can_data", logDataText l.data)]

def logEnd : List Re := [opt (all [plus true s, cls fun c => c == 'R' || c == 'T']), eos]

theorem logEnd_run (o : Option (Nat × Bool)) (g : Groups) :
    (all logEnd).run done (directionText o) g = some g := by
  unfold logEnd
  rw [run_all_cons]
  cases o with
  | none =>
    rw [run_opt_none]
    · rfl
    · rfl
  | some x =>
    obtain ⟨n, r⟩ := x
    apply run_opt_some
    rw [run_all_cons]
    unfold s directionText
    rw [run_plus_avoid _ (gap_ne _) gap_space]
    · rw [run_all_cons, run_cls_ok (by cases r <;> decide)]
      rfl
    · cases r <;> exact NotHead.cons (by decide)
    · rw [run_all_cons]
      refine avoids_cls (fun x hx => ?_) _
      have h1 : x ≠ 'R' := by rintro rfl; revert hx; decide
      have h2 : x ≠ 'T' := by rintro rfl; revert hx; decide
      simp [h1, h2]

theorem direction_notHead (o : Option (Nat × Bool)) : NotHead isHex (directionText o) := by
  cases o with
  | none => exact .nil
  | some x =>
    refine .append (gap_ne _) ?_
    intro c hc
    have := gap_space c hc
    chars

theorem logData_run (o : Option Bytes) (dir : Option (Nat × Bool)) (g : Groups) :
    (group "can_data" (alt (chr 'R') (star true hexPair))).run ((all logEnd).run done)
      (logDataText o ++ directionText dir) g = some (g ++ [("can_data", logDataText o)]) := by
  rw [run_group]
  cases o with
  | none =>
    apply run_alt_left
    show (chr 'R').run _ ('R' :: directionText dir) g = _
    rw [run_chr]
    rw [take_consumed]
    exact logEnd_run _ _
  | some data =>
    rw [run_alt_right]
    · refine pairs_loop (direction_notHead dir) ?_ data
      rw [show logDataText (some data) = data.flatMap byteText from rfl, take_consumed]
      exact logEnd_run _ _
    · show (chr 'R').run _ (data.flatMap byteText ++ directionText dir) g = _
      cases data with
      | nil =>
        cases dir with
        | none => rfl
        | some x => exact run_chr_ne (by decide) _ _ _
      | cons b r =>
        simp only [List.flatMap_cons, byteText_eq, List.cons_append, List.append_assoc]
        apply run_chr_ne
        have := hexDigit_upper (b.toNat / 16)
        intro h; rw [h] at this; revert this; decide

theorem logData_notHash (o : Option Bytes) (dir : Option (Nat × Bool)) :
    NotHead (· == '#') (logDataText o ++ directionText dir) := by
  cases o with
  | none => exact .cons (by decide)
  | some data =>
    cases data with
    | nil =>
      cases dir with
      | none => exact .nil
      | some x => exact .cons (by decide)
    | cons b r =>
      simp only [logDataText, List.flatMap_cons, byteText_eq, List.cons_append, List.append_assoc]
      refine .cons ?_
      have := hexDigit_upper (b.toNat / 16)
      have hne : hexDigit (b.toNat / 16) ≠ '#' := by intro h; rw [h] at this; revert this; decide
      simpa using hne

theorem logRest_run (fd : Option Nat) (o : Option Bytes) (dir : Option (Nat × Bool)) (g : Groups) :
    (opt (all [chr '#', hex])).run ((group "can_data" (alt (chr 'R') (star true hexPair))).run
      ((all logEnd).run done)) (fdText fd ++ (logDataText o ++ directionText dir)) g =
      some (g ++ [("can_data", logDataText o)]) := by
  cases fd with
  | none =>
    rw [run_opt_none]
    · exact logData_run o dir g
    · rw [run_all_cons]
      exact run_cls_fail (logData_notHash o dir)
  | some f =>
    apply run_opt_some
    rw [run_all_cons]
    show (chr '#').run _ ('#' :: hexDigit f :: (logDataText o ++ directionText dir)) g = _
    rw [run_chr, run_all_cons]
    unfold hex
    rw [run_cls_ok (hexDigit_upper _)]
    exact logData_run o dir g

theorem log_run {l : LogLine} (h : l.Valid) :
    Pattern.candumpDefaultLog.regex.match? l.text = some (logGroups l) := by
  show (all ([star false s, chr '(',
      group "timestamp" (plus false (cls fun c => isDigit c || c == '.')), chr ')', plus false s,
      group "channel" (plus true S), plus false s, group "can_id" (plus false hex), chr '#',
      opt (all [chr '#', hex]),
      group "can_data" (alt (chr 'R') (star true hexPair))] ++ logEnd)).run done l.text [] = _
  rw [run_all_append]
  unfold LogLine.text
  simp only [run_all_cons, run_all_nil]
  unfold s S
  rw [show hex = cls isUpperHex from rfl]
  rw [run_star_avoid (avoids_chr (by decide) _) blanks_space (.cons (by decide)), run_chr,
    run_group_plus_avoid (avoids_chr (by decide) _) h.stamp.1
      (fun c hc => seconds_class (h.stamp.2 c hc)) (.cons (by decide)), run_chr,
    run_plus_avoid (avoids_group _ (avoids_plus (by intro x; simp)) _) (gap_ne _) gap_space
      (word_notHead h.channel)]
  rw [run_group_plus_avoid (p := fun c => !isSpace c) (avoids_plus (by intro x; simp) _) h.channel.1
    (by intro c hc; simp [h.channel.2 c hc]) (.append (gap_ne _) (by intro c h; simp [gap_space c h]))]
  rw [run_plus_avoid (p := isSpace) (avoids_group _ (avoids_plus fun x => space_not_hex) _)
    (gap_ne _) gap_space (.append (idText_ne _ _) fun c h => hex_not_space (hexText_upper _ _ c h))]
  rw [run_group_plus_avoid (p := isUpperHex) (avoids_chr (by decide) _)
    (idText_ne _ _) (hexText_upper _ _) (.cons (by decide)), run_chr]
  rw [show cls isUpperHex = hex from rfl]
  exact logRest_run l.fd l.data l.direction _

theorem default_fail_log {l : LogLine} (h : l.Valid) :
    Pattern.candumpDefault.regex.match? l.text = none := by
  obtain ⟨x, r, hx, hu⟩ := idText_cons l.ext l.id
  have := default_fail_line (i := l.gaps 0) (stamp_word h.stamp) h.channel (n := l.gaps 1)
    (m := l.gaps 2) (x := x) (rest := r ++ ('#' ::
    (fdText l.fd ++ (logDataText l.data ++ directionText l.direction)))) (hex_not_space hu)
    (.inr (by rintro rfl; revert hu; decide))
  rw [← this]
  unfold LogLine.text
  rw [hx]
  simp only [List.cons_append, List.append_assoc, List.nil_append]

theorem timestamped_fail_log {l : LogLine} (h : l.Valid) :
    Pattern.candumpTimestamped.regex.match? l.text = none := by
  show (all ([star false s, chr '(',
      group "timestamp" (plus true (cls fun c => isDigit c || c == '.')), chr ')', plus true s] ++
      candumpTail)).run done l.text [] = _
  unfold LogLine.text
  rw [run_all_append]
  simp only [run_all_cons, run_all_nil]
  unfold s
  rw [run_star_avoid (avoids_chr (by decide) _) blanks_space (.cons (by decide)), run_chr,
    run_group_plus_avoid (avoids_chr (by decide) _) h.stamp.1
      (fun c hc => seconds_class (h.stamp.2 c hc)) (.cons (by decide)), run_chr,
    run_plus_avoid (tail_avoids _) (gap_ne _) gap_space (word_notHead h.channel)]
  rw [candumpTail_eq, run_all_append]
  simp only [run_all_cons, run_all_nil]
  unfold S s hex d
  rw [run_group_plus_avoid (p := fun c => !isSpace c) (avoids_plus (by intro x; simp) _) h.channel.1
    (by intro c hc; simp [h.channel.2 c hc]) (.append (gap_ne _) (by intro c h; simp [gap_space c h]))]
  rw [run_plus_avoid (p := isSpace) (avoids_group _ (avoids_plus fun x => space_not_hex) _)
    (gap_ne _) gap_space (.append (idText_ne _ _) fun c h => hex_not_space (hexText_upper _ _ c h))]
  exact group_word_then_space_fail (needsSpace_plus _) (by decide) (by decide)
    fun c hc => hex_not_space (hexText_upper _ _ c hc)

end Cantools.LogReader
