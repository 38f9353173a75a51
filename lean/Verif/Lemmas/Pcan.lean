import Verif.Lemmas.Candump

set_option linter.unusedSimpArgs false

namespace Cantools.LogReader
open Cantools Cantools.Regex Cantools.Spec.LogReader Re

/-! ### Timestamps -/

/-- `\d+.\d+` -/
def stampRe : Re := all [plus true (cls isDigit), any, plus true (cls isDigit)]

theorem pcanStamp_eq : pcanStamp = group "timestamp" stampRe := rfl

theorem needsSpace_avoids {k : Cont} (hk : NeedsSpace k) : Avoids isDigit k :=
  fun _ _ g hx => hk _ g (.cons (digit_not_space hx))

theorem stampRe_dec {a b rest : Chars} (ha : Digits a) (hb : Digits b) {k : Cont} (hk : NeedsSpace k)
    (hr : NotHead isDigit rest) (g : Groups) :
    stampRe.run k (a ++ '.' :: (b ++ rest)) g = k rest g := by
  unfold stampRe
  simp only [run_all_cons, run_all_nil]
  rw [run_plus_exact ha.1 ha.2 (.cons (by decide))]
  · unfold any
    rw [run_cls_ok (by decide), run_plus_avoid (needsSpace_avoids hk) hb.1 hb.2 hr]
  · intro u v hv he
    cases v with
    | nil => exact absurd rfl hv
    | cons x v =>
      unfold any
      rw [List.cons_append, run_cls_cons]
      split
      · by_cases hv' : v = []
        · subst hv'; exact run_plus_fail_head (.cons (by decide))
        · rw [run_plus_avoid (needsSpace_avoids hk) hv' (fun c hc => ha.2 c (by rw [he]; simp [hc]))
            (.cons (by decide))]
          exact hk _ _ (.cons (by decide))
      · rfl

theorem stamp_dec {a b rest : Chars} (ha : Digits a) (hb : Digits b) {k : Cont} (hk : NeedsSpace k)
    (hr : NotHead isDigit rest) (g : Groups) :
    pcanStamp.run k (a ++ '.' :: (b ++ rest)) g =
      k rest (g ++ [("timestamp", a ++ '.' :: b)]) := by
  rw [pcanStamp_eq, run_group, stampRe_dec ha hb (needsSpace_group hk _) hr]
  have := take_consumed (a ++ '.' :: b) rest
  rw [List.append_assoc, List.cons_append] at this
  rw [this]

theorem stampRe_fail {w rest : Chars} (hw : ∀ c ∈ w, isDigit c = true) {k : Cont}
    (hk : NeedsSpace k) (hr : NotHead isDigit rest) {g : Groups} (h1 : k rest g = none)
    (h2 : ∀ c r, rest = c :: r → (plus true (cls isDigit)).run k r g = none) :
    stampRe.run k (w ++ rest) g = none := by
  unfold stampRe
  simp only [run_all_cons, run_all_nil]
  apply run_plus_fail hr
  intro u v _ he
  unfold any
  cases v with
  | nil =>
    cases rest with
    | nil => rfl
    | cons c r =>
      rw [List.nil_append, run_cls_cons]
      split
      · exact h2 c r rfl
      · rfl
  | cons x v =>
    rw [List.cons_append, run_cls_cons]
    split
    · by_cases hv' : v = []
      · subst hv'; exact run_plus_fail_head hr
      · rw [run_plus_avoid (needsSpace_avoids hk) hv' (fun c hc => hw c (by rw [he]; simp [hc])) hr]
        exact h1
    · rfl

theorem stamp_fail {w rest : Chars} (hw : ∀ c ∈ w, isDigit c = true) {k : Cont}
    (hk : NeedsSpace k) (hr : NotHead isDigit rest) {g : Groups} (h1 : ∀ g, k rest g = none)
    (h2 : ∀ c r, rest = c :: r → ∀ f : Chars → Groups → Groups,
      (plus true (cls isDigit)).run (fun s g => k s (f s g)) r g = none) :
    pcanStamp.run k (w ++ rest) g = none := by
  rw [pcanStamp_eq, run_group]
  exact stampRe_fail hw (needsSpace_group hk _) hr (h1 _) fun c r he =>
    h2 c r he fun s g => g ++ [("timestamp", (w ++ rest).take ((w ++ rest).length - s.length))]

theorem stamp_avoids_space (k : Cont) : Avoids isSpace (pcanStamp.run k) := by
  rw [pcanStamp_eq]
  refine avoids_group _ (fun k => ?_) k
  unfold stampRe
  rw [run_all_cons]
  exact avoids_plus (fun x => space_not_digit) _

/-! ### Data -/

def rtrChars : Chars := ['R', 'T', 'R']
theorem rtr_chars : "RTR".toList = rtrChars := by decide +kernel

theorem body_eq (l : PcanLine) : l.body = match l.data with
    | some d => payloadText d
    | none => rtrChars := by
  unfold PcanLine.body
  rw [rtr_chars]
  cases l.data <;> rfl

theorem payload_chars {data : List (UInt8 × Nat)} {c : Char} (h : c ∈ payloadText data) :
    isUpperHex c = true ∨ c = ' ' := by
  induction data with
  | nil => cases h
  | cons x r ih =>
    obtain ⟨b, n⟩ := x
    rw [payload_cons] at h
    simp only [List.mem_cons, List.mem_append] at h
    rcases h with rfl | rfl | h | h
    · exact .inl (hexDigit_upper _)
    · exact .inl (hexDigit_upper _)
    · exact .inr (mem_blanks h)
    · exact ih h

theorem payload_notHead_nil {p : Char → Bool} (hp : ∀ c, isUpperHex c = true → p c = false)
    (data : List (UInt8 × Nat)) : NotHead p (payloadText data) := by
  have := payload_notHead (data := data) (rem := []) hp .nil
  rwa [List.append_nil] at this

theorem body_notSpace (l : PcanLine) : NotHead isSpace l.body := by
  rw [body_eq]
  cases l.data with
  | none => exact .cons (by decide)
  | some d => exact payload_notHead_nil (fun c => hex_not_space) d

theorem hexBlanks_run (data : List (UInt8 × Nat)) (g : Groups) :
    (group "can_data" (star true (cls fun c => isUpperHex c || c == ' '))).run (eos.run done)
      (payloadText data) g = some (g ++ [("can_data", payloadText data)]) := by
  rw [run_group]
  have := run_star_greedy' (p := fun c => isUpperHex c || c == ' ') (w := payloadText data)
    (rest := []) (g := g) (k := fun s' g' => (eos.run done) s' (g' ++ [("can_data",
      (payloadText data).take ((payloadText data).length - s'.length))]))
    (res := g ++ [("can_data", payloadText data)])
    (by
      intro c hc
      rcases payload_chars hc with h | h <;> simp [h]) .nil (by simp [Re.run])
  rwa [List.append_nil] at this

theorem pcanData_run (l : PcanLine) (g : Groups) :
    (all pcanData).run done l.body g = some (g ++ [("can_data", l.body)]) := by
  unfold pcanData
  rw [rtr_chars]
  simp only [run_all_cons, run_all_nil]
  rw [body_eq]
  cases l.data with
  | none =>
    rw [run_group]
    apply run_alt_left
    have := run_text rtrChars (fun s' g' => eos.run done s' (g' ++ [("can_data",
      rtrChars.take (rtrChars.length - s'.length))])) [] g
    rw [List.append_nil] at this
    rw [this]
    rfl
  | some d =>
    rw [run_group, run_alt_right]
    · exact hexBlanks_run d g
    · apply run_text_cons_fail
      intro r hr
      have := payload_notHead_nil (p := fun c => c == 'R') (fun c hc => by
        have : c ≠ 'R' := by rintro rfl; revert hc; decide
        simpa using this) d 'R' r hr
      revert this; decide

/-- `\s+(?P<can_id>[0-9A-F]+)\s+(?P<dlc>\d)\s+(?P<can_data>...)$` -/
def tail1Re : List Re := [group "can_id" (plus true hex), plus true s, group "dlc" d, plus true s]

theorem tail1_run {v : Version} {l : PcanLine} (h : l.Valid v) (g : Groups) :
    (all tail1Re).run ((all pcanData).run done) l.tail1 g =
      some (g ++ [("can_id", pcanIdText l.ext l.id), ("dlc", [l.dlc]), ("can_data", l.body)]) := by
  unfold tail1Re PcanLine.tail1
  simp only [run_all_cons, run_all_nil]
  unfold hex s d
  rw [run_group_plus_avoid (p := isUpperHex) (avoids_plus (fun x => hex_not_space) _)
      (pcanIdText_ne _ _) (hexText_upper _ _)
      (.append (gap_ne _) fun c h => space_not_hex (gap_space c h)),
    run_plus_avoid (avoids_group _ (avoids_cls fun x => space_not_digit) _) (gap_ne _) gap_space
      (.cons (digit_not_space h.dlc)),
    run_group_cls h.dlc]
  apply run_plus_greedy' (gap_ne _) gap_space (body_notSpace l)
  rw [pcanData_run]
  simp

def tail13Re : List Re :=
  [group "can_id" (plus true hex), plus true s, chr '-', plus true s, group "dlc" d, plus true s]

theorem tail13_run {v : Version} {l : PcanLine} (h : l.Valid v) (g : Groups) :
    (all tail13Re).run ((all pcanData).run done) l.tail13 g =
      some (g ++ [("can_id", pcanIdText l.ext l.id), ("dlc", [l.dlc]), ("can_data", l.body)]) := by
  unfold tail13Re PcanLine.tail13
  simp only [run_all_cons, run_all_nil]
  unfold hex s d
  rw [run_group_plus_avoid (p := isUpperHex) (avoids_plus (fun x => hex_not_space) _)
      (pcanIdText_ne _ _) (hexText_upper _ _)
      (.append (gap_ne _) fun c h => space_not_hex (gap_space c h)),
    run_plus_avoid (avoids_chr (by decide) _) (gap_ne _) gap_space (.cons (by decide)), run_chr,
    run_plus_avoid (avoids_group _ (avoids_cls fun x => space_not_digit) _) (gap_ne _) gap_space
      (.cons (digit_not_space h.dlc)),
    run_group_cls h.dlc]
  apply run_plus_greedy' (gap_ne _) gap_space (body_notSpace l)
  rw [pcanData_run]
  simp

/-! ### Version 1 -/

def head1Re : List Re := [star false s, plus true d, chr ')', star false s]

theorem head1_run {v v' : Version} {l : PcanLine} (h : l.Valid v) {K : Cont} (hK : Avoids isSpace K)
    (rest : Chars) (g : Groups) :
    (all head1Re).run K (l.head1 v' rest) g = K (l.stampText v' ++ (gap (l.gaps 2) ++ rest)) g := by
  have hst : NotHead isSpace (l.stampText v' ++ (gap (l.gaps 2) ++ rest)) := by
    obtain ⟨x, r, hx⟩ : ∃ x r, l.stamp = x :: r := by
      cases hc : l.stamp with
      | nil => exact absurd hc h.stamp.1
      | cons x r => exact ⟨x, r, rfl⟩
    have hxd : isSpace x = false := digit_not_space (h.stamp.2 x (by rw [hx]; simp))
    cases v' <;> simp only [PcanLine.stampText, hx, List.cons_append] <;> exact .cons hxd
  unfold head1Re PcanLine.head1
  simp only [run_all_cons, run_all_nil]
  unfold s d
  rw [run_star_avoid (avoids_plus (fun x => space_not_digit) _) blanks_space
      (.append h.number.1 fun c hc => digit_not_space (h.number.2 c hc)),
    run_plus_avoid (avoids_chr (by decide) _) h.number.1 h.number.2 (.cons (by decide)), run_chr,
    run_star_avoid hK gap_space hst]

theorem letters_word {w : Chars} (h : Letters w) : ∀ c ∈ w, isWord c = true := fun c hc => (h.2 c hc).1
theorem letters_notSpace {w : Chars} (h : Letters w) : ∀ c ∈ w, isSpace c = false :=
  fun c hc => word_not_space (h.2 c hc).1

theorem id_notSpace (ext : Bool) (id : Nat) (rest : Chars) :
    NotHead isSpace (pcanIdText ext id ++ rest) :=
  .append (pcanIdText_ne _ _) fun c h => hex_not_space (hexText_upper _ _ c h)

def groups1 (v : Version) (l : PcanLine) : Groups :=
  ("timestamp", l.stampText v) ::
    ((if v.channelled then [("channel", [l.channel])] else []) ++
    ((if v.typed then [("type", l.type)] else []) ++
    [("can_id", pcanIdText l.ext l.id), ("dlc", [l.dlc]), ("can_data", l.body)]))

theorem tail1_notSpace (l : PcanLine) : NotHead isSpace l.tail1 := id_notSpace _ _ _
theorem tail13_notSpace (l : PcanLine) : NotHead isSpace l.tail13 := id_notSpace _ _ _

theorem v10_run {l : PcanLine} (h : l.Valid .v10) :
    Pattern.pcanV10.regex.match? (l.text .v10) = some (groups1 .v10 l) := by
  show (all (head1Re ++ ([group "timestamp" (plus true d), plus true s] ++
    (tail1Re ++ pcanData)))).run done (l.head1 .v10 l.tail1) [] = _
  rw [run_all_append, run_all_append, run_all_append]
  rw [head1_run h]
  · simp only [run_all_cons, run_all_nil]
    unfold d s
    rw [show l.stampText .v10 = l.stamp from rfl,
      run_group_plus_avoid (avoids_plus (q := isSpace) (fun x => digit_not_space) _) h.stamp.1 h.stamp.2
        (.append (gap_ne _) fun c h => space_not_digit (gap_space c h)),
      run_plus_avoid _ (gap_ne _) gap_space (tail1_notSpace l), tail1_run h]
    · rfl
    · unfold tail1Re
      rw [run_all_cons]
      exact avoids_group _ (avoids_plus fun x => space_not_hex) _
  · rw [run_all_cons]
    exact avoids_group _ (avoids_plus fun x => space_not_digit) _

theorem gap_notDigit (n : Nat) (rest : Chars) : NotHead isDigit (gap n ++ rest) :=
  .append (gap_ne _) fun c h => space_not_digit (gap_space c h)

theorem stampText_dec {v : Version} (hv : v ≠ .v10) (l : PcanLine) (rest : Chars) :
    l.stampText v ++ rest = l.stamp ++ '.' :: (l.fraction ++ rest) := by
  cases v <;> first | exact absurd rfl hv | simp [PcanLine.stampText]

theorem type_run {v : Version} {l : PcanLine} (h : l.Valid v) {K : Cont} (hK : Avoids isSpace K)
    (n : Nat) {rest : Chars} (hr : NotHead isSpace rest) (g : Groups) :
    (group "type" (plus true (cls isWord))).run ((plus true (cls isSpace)).run K)
      (l.type ++ (gap n ++ rest)) g = K rest (g ++ [("type", l.type)]) := by
  rw [run_group_plus_avoid (avoids_plus (fun x => word_not_space) _) h.type.1 (letters_word h.type)
      (.append (gap_ne _) fun c h => space_not_word (gap_space c h)),
    run_plus_avoid hK (gap_ne _) gap_space hr]

theorem tail1_avoids (k : Cont) : Avoids isSpace ((all tail1Re).run k) := by
  unfold tail1Re
  rw [run_all_cons]
  exact avoids_group _ (avoids_plus fun x => space_not_hex) _

theorem tail13_avoids (k : Cont) : Avoids isSpace ((all tail13Re).run k) := by
  unfold tail13Re
  rw [run_all_cons]
  exact avoids_group _ (avoids_plus fun x => space_not_hex) _

theorem type_avoids (k : Cont) : Avoids isSpace ((group "type" (plus true (cls isWord))).run k) :=
  avoids_group _ (avoids_plus fun _ => space_not_word) _

theorem type_notSpace {v : Version} {l : PcanLine} (h : l.Valid v) (rest : Chars) :
    NotHead isSpace (l.type ++ rest) := .append h.type.1 (letters_notSpace h.type)

theorem v11_run {l : PcanLine} (h : l.Valid .v11) :
    Pattern.pcanV11.regex.match? (l.text .v11) = some (groups1 .v11 l) := by
  show (all (head1Re ++ ([pcanStamp, plus true s, group "type" (plus true w), plus true s] ++
    (tail1Re ++ pcanData)))).run done
    (l.head1 .v11 (l.type ++ (gap (l.gaps 3) ++ l.tail1))) [] = _
  rw [run_all_append, run_all_append, run_all_append]
  rw [head1_run h]
  · simp only [run_all_cons, run_all_nil]
    unfold s w
    rw [stampText_dec (by simp), stamp_dec h.stamp h.fraction (needsSpace_plus _) (gap_notDigit _ _),
      run_plus_avoid (type_avoids _) (gap_ne _) gap_space (type_notSpace h _),
      type_run h (tail1_avoids _) _ (tail1_notSpace l), tail1_run h]
    rfl
  · rw [run_all_cons]
    exact stamp_avoids_space _

theorem channel_run {v : Version} {l : PcanLine} (h : l.Valid v) {K : Cont} (hK : Avoids isSpace K)
    (n : Nat) {rest : Chars} (hr : NotHead isSpace rest) (g : Groups) :
    (group "channel" (cls isDigit)).run ((plus true (cls isSpace)).run K)
      (l.channel :: (gap n ++ rest)) g = K rest (g ++ [("channel", [l.channel])]) := by
  rw [run_group_cls h.channel, run_plus_avoid hK (gap_ne _) gap_space hr]

theorem channel_avoids (k : Cont) : Avoids isSpace ((group "channel" (cls isDigit)).run k) :=
  avoids_group _ (avoids_cls fun _ => space_not_digit) _

theorem v12_run {l : PcanLine} (h : l.Valid .v12) :
    Pattern.pcanV12.regex.match? (l.text .v12) = some (groups1 .v12 l) := by
  show (all (head1Re ++ ([pcanStamp, plus true s, group "channel" d, plus true s,
    group "type" (plus true w), plus true s] ++ (tail1Re ++ pcanData)))).run done
    (l.head1 .v12 (l.channel :: (gap (l.gaps 4) ++ (l.type ++ (gap (l.gaps 3) ++ l.tail1))))) [] = _
  rw [run_all_append, run_all_append, run_all_append]
  rw [head1_run h]
  · simp only [run_all_cons, run_all_nil]
    unfold s w d
    rw [stampText_dec (by simp), stamp_dec h.stamp h.fraction (needsSpace_plus _) (gap_notDigit _ _),
      run_plus_avoid (channel_avoids _) (gap_ne _) gap_space (.cons (digit_not_space h.channel)),
      channel_run h (type_avoids _) _ (type_notSpace h _),
      type_run h (tail1_avoids _) _ (tail1_notSpace l), tail1_run h]
    rfl
  · rw [run_all_cons]
    exact stamp_avoids_space _

theorem v13_run {l : PcanLine} (h : l.Valid .v13) :
    Pattern.pcanV13.regex.match? (l.text .v13) = some (groups1 .v13 l) := by
  show (all (head1Re ++ ([pcanStamp, plus true s, group "channel" d, plus true s,
    group "type" (plus true w), plus true s] ++ (tail13Re ++ pcanData)))).run done
    (l.head1 .v13 (l.channel :: (gap (l.gaps 4) ++ (l.type ++ (gap (l.gaps 3) ++ l.tail13))))) [] = _
  rw [run_all_append, run_all_append, run_all_append]
  rw [head1_run h]
  · simp only [run_all_cons, run_all_nil]
    unfold s w d
    rw [stampText_dec (by simp), stamp_dec h.stamp h.fraction (needsSpace_plus _) (gap_notDigit _ _),
      run_plus_avoid (channel_avoids _) (gap_ne _) gap_space (.cons (digit_not_space h.channel)),
      channel_run h (type_avoids _) _ (type_notSpace h _),
      type_run h (tail13_avoids _) _ (tail13_notSpace l), tail13_run h]
    rfl
  · rw [run_all_cons]
    exact stamp_avoids_space _

/-! ### Version 2 -/

def head2Re : List Re := [star false s, plus false d, star false s, pcanStamp, plus true s,
  group "type" (plus true w), plus true s]

theorem head2_run {v : Version} {l : PcanLine} (h : l.Valid v) {K : Cont} (hK : Avoids isSpace K)
    {rest : Chars} (hr : NotHead isSpace rest) {g res : Groups}
    (hres : K rest (g ++ [("timestamp", l.stamp ++ '.' :: l.fraction)] ++ [("type", l.type)]) =
      some res) :
    (all head2Re).run K (l.head2 rest) g = some res := by
  unfold head2Re PcanLine.head2
  simp only [run_all_cons, run_all_nil]
  unfold s d w
  rw [run_star_avoid (avoids_plus (fun x => space_not_digit) _) blanks_space
      (.append h.number.1 fun c hc => digit_not_space (h.number.2 c hc))]
  obtain ⟨x, r, hx⟩ : ∃ x r, l.number = x :: r := by
    cases hc : l.number with
    | nil => exact absurd hc h.number.1
    | cons x r => exact ⟨x, r, rfl⟩
  have hnum := h.number.2
  rw [hx] at hnum ⊢
  show (cls isDigit).run ((star false (cls isDigit)).run _) (x :: (r ++ _)) g = _
  rw [run_cls_ok (hnum x (by simp))]
  have hstamp0 : ∀ rest', NotHead isSpace (l.stamp ++ rest') := fun rest' =>
    .append h.stamp.1 fun c hc => digit_not_space (h.stamp.2 c hc)
  apply run_star_lazy fun c hc => hnum c (by simp [hc])
  · -- a part of the number is not the timestamp
    intro a b hab hb
    have hbd : ∀ c ∈ b, isDigit c = true := fun c hc => hnum c (by rw [hab]; simp [hc])
    rw [run_star_none (.append hb fun c hc => digit_not_space (hbd c hc))]
    refine stamp_fail hbd (needsSpace_plus _) (gap_notDigit _ _) ?_ ?_
    · intro g'
      rw [run_plus_avoid (type_avoids _) (gap_ne _) gap_space (hstamp0 _)]
      exact group_word_then_space_fail (needsSpace_plus _) (by decide) (by decide)
        fun c hc => digit_not_space (h.stamp.2 c hc)
    · intro c r' he f
      rw [gap_eq, List.cons_append] at he
      injection he with _ he
      subst he
      cases l.gaps 1 with
      | zero =>
        exact word_then_space_fail (needsSpace_group (needsSpace_plus _) f) (by decide) (by decide)
          fun c hc => digit_not_space (h.stamp.2 c hc)
      | succ n => exact run_plus_fail_head (.cons (by decide))
  · rw [run_star_avoid (stamp_avoids_space _) gap_space (hstamp0 _),
      stamp_dec h.stamp h.fraction (needsSpace_plus _) (gap_notDigit _ _),
      run_plus_avoid (type_avoids _) (gap_ne _) gap_space (type_notSpace h _),
      type_run h hK _ hr]
    exact hres

def tail2Groups (l : PcanLine) : Groups :=
  ("dlc", [l.dlc]) :: (match l.data with
    | some d => [("can_data", payloadText d)]
    | none => [])

theorem tail2_run {v : Version} {l : PcanLine} (h : l.Valid v) (g : Groups) :
    (group "dlc" (plus true d)).run ((all pcanOptData).run done) l.tail2 g =
      some (g ++ tail2Groups l) := by
  obtain ⟨rest, hrest⟩ : ∃ rest, l.tail2 = l.dlc :: rest := ⟨_, rfl⟩
  have hnone : l.data = none → rest = [] := by
    intro hd
    unfold PcanLine.tail2 at hrest
    rw [hd] at hrest
    exact (List.cons.inj hrest).2.symm
  have hsome : ∀ data, l.data = some data → rest = gap (l.gaps 6) ++ payloadText data := by
    intro data hd
    unfold PcanLine.tail2 at hrest
    rw [hd] at hrest
    exact (List.cons.inj hrest).2.symm
  rw [hrest]
  unfold pcanOptData d
  simp only [run_all_cons, run_all_nil]
  rw [run_group]
  have hnd : NotHead isDigit rest := by
    cases hd : l.data with
    | none => rw [hnone hd]; exact .nil
    | some d => rw [hsome d hd]; exact gap_notDigit _ _
  have := run_plus_greedy' (p := isDigit) (w := [l.dlc]) (rest := rest) (g := g)
    (k := fun s' g' => (opt (all [plus true s, group "can_data"
      (star true (cls fun c => isUpperHex c || c == ' '))])).run (eos.run done) s'
      (g' ++ [("dlc", (l.dlc :: rest).take ((l.dlc :: rest).length - s'.length))]))
    (res := g ++ tail2Groups l) (by simp) (by intro c hc; simp at hc; rw [hc]; exact h.dlc) hnd (by
      have hd : (l.dlc :: rest).take ((l.dlc :: rest).length - rest.length) = [l.dlc] :=
        take_consumed [l.dlc] rest
      simp only [hd]
      unfold tail2Groups
      cases hdata : l.data with
      | none =>
        rw [hnone hdata, run_opt_none rfl]
        simp [Re.run]
      | some data =>
        rw [hsome data hdata]
        apply run_opt_some
        simp only [run_all_cons, run_all_nil]
        unfold s
        apply run_plus_greedy' (gap_ne _) gap_space (payload_notHead_nil (fun c => hex_not_space) data)
        rw [hexBlanks_run]
        simp)
  exact this

def groups20 (l : PcanLine) : Groups :=
  [("timestamp", l.stamp ++ '.' :: l.fraction), ("type", l.type),
    ("can_id", pcanIdText l.ext l.id), ("rxtx", l.direction)] ++ tail2Groups l

theorem tail2_notSpace {v : Version} {l : PcanLine} (h : l.Valid v) : NotHead isSpace l.tail2 :=
  .cons (digit_not_space h.dlc)

theorem v20_run {l : PcanLine} (h : l.Valid .v20) :
    Pattern.pcanV20.regex.match? (l.text .v20) = some (groups20 l) := by
  show (all (head2Re ++ ([group "can_id" (plus true hex), plus true s, group "rxtx" (plus true w),
    plus true s, group "dlc" (plus true d)] ++ pcanOptData))).run done
    (l.head2 (pcanIdText l.ext l.id ++ (gap (l.gaps 5) ++ (l.direction ++ (gap (l.gaps 7) ++
      l.tail2))))) [] = _
  rw [run_all_append, run_all_append]
  apply head2_run h
  · rw [run_all_cons]
    exact avoids_group _ (avoids_plus fun _ => space_not_hex) _
  · exact id_notSpace _ _ _
  · simp only [run_all_cons, run_all_nil]
    unfold hex s w
    rw [run_group_plus_avoid (p := isUpperHex) (avoids_plus (q := isSpace) (fun _ => hex_not_space) _)
      (pcanIdText_ne _ _) (hexText_upper _ _)
      (.append (gap_ne _) fun c h => space_not_hex (gap_space c h)),
      run_plus_avoid (avoids_group _ (avoids_plus (q := isWord) fun _ => space_not_word) _) (gap_ne _)
        gap_space (.append h.direction.1 (letters_notSpace h.direction)),
      run_group_plus_avoid (avoids_plus (q := isSpace) (fun _ => word_not_space) _) h.direction.1
        (letters_word h.direction) (.append (gap_ne _) fun c h => space_not_word (gap_space c h)),
      run_plus_avoid _ (gap_ne _) gap_space (tail2_notSpace h), tail2_run h]
    · simp [groups20]
    · exact avoids_group _ (avoids_plus fun _ => space_not_digit) _

def groups21 (l : PcanLine) : Groups :=
  [("timestamp", l.stamp ++ '.' :: l.fraction), ("type", l.type), ("channel", [l.channel]),
    ("can_id", pcanIdText l.ext l.id), ("rxtx", l.direction ++ blanks (l.gaps 7))] ++ tail2Groups l

theorem v21_run {l : PcanLine} (h : l.Valid .v21) :
    Pattern.pcanV21.regex.match? (l.text .v21) = some (groups21 l) := by
  show (all (head2Re ++ ([group "channel" d, plus true s, group "can_id" (plus true hex), plus true s,
    group "rxtx" (plus true any), plus true s, chr '-', plus true s, group "dlc" (plus true d)] ++
    pcanOptData))).run done (l.head2 (l.channel :: (gap (l.gaps 4) ++ (pcanIdText l.ext l.id ++
      (gap (l.gaps 5) ++ (l.direction ++ (gap (l.gaps 7) ++ ('-' :: (gap (l.gaps 8) ++ l.tail2)))))))))
      [] = _
  rw [run_all_append, run_all_append]
  apply head2_run h
  · rw [run_all_cons]
    exact channel_avoids _
  · exact .cons (digit_not_space h.channel)
  · simp only [run_all_cons, run_all_nil]
    rw [show hex = cls isUpperHex from rfl, show s = cls isSpace from rfl]
    rw [show (group "channel" d) = group "channel" (cls isDigit) from rfl,
      channel_run h (avoids_group _ (avoids_plus (q := isUpperHex) fun _ => space_not_hex) _) _
        (id_notSpace _ _ _),
      run_group_plus_avoid (p := isUpperHex) (avoids_plus (q := isSpace) (fun _ => hex_not_space) _)
        (pcanIdText_ne _ _) (hexText_upper _ _)
        (.append (gap_ne _) fun c h => space_not_hex (gap_space c h))]
    have hdir : NotHead isSpace (l.direction ++ (gap (l.gaps 7) ++ '-' :: (gap (l.gaps 8) ++ l.tail2))) :=
      .append h.direction.1 (letters_notSpace h.direction)
    apply run_plus_greedy' (gap_ne _) gap_space hdir
    rw [run_group]
    have hw : ∀ c ∈ l.direction ++ blanks (l.gaps 7), (c != '\n') = true := by
      intro c hc
      rw [List.mem_append] at hc
      rcases hc with hc | hc
      · have := letters_word h.direction c hc
        have : c ≠ '\n' := by rintro rfl; revert this; decide
        simpa using this
      · rw [mem_blanks hc]; decide
    have hblank : gap (l.gaps 7) ++ '-' :: (gap (l.gaps 8) ++ l.tail2) =
        blanks (l.gaps 7) ++ ' ' :: '-' :: (gap (l.gaps 8) ++ l.tail2) := by
      rw [gap_eq, List.cons_append]
      induction l.gaps 7 with
      | zero => rfl
      | succ n ih => rw [blanks_succ, List.cons_append, List.cons_append, ih]
    have hne : l.direction ++ blanks (l.gaps 7) ≠ [] := by
      intro hc; exact h.direction.1 (List.append_eq_nil_iff.1 hc).1
    rw [hblank, ← List.append_assoc]
    unfold any
    apply run_plus_greedy (p := fun c => c != '\n') hne hw
    · simp only [take_consumed]
      have := run_plus_avoid (p := isSpace) (greedy := true) (w := [' '])
        (k := (chr '-').run ((plus true (cls isSpace)).run ((group "dlc" (plus true d)).run
          ((all pcanOptData).run done)))) (avoids_chr (by decide) _) (by simp)
        (by intro c hc; simp at hc; rw [hc]; decide)
        (rest := '-' :: (gap (l.gaps 8) ++ l.tail2)) (.cons (by decide))
        (g := [] ++ [("timestamp", l.stamp ++ '.' :: l.fraction)] ++ [("type", l.type)] ++
          [("channel", [l.channel])] ++ [("can_id", pcanIdText l.ext l.id)] ++
          [("rxtx", l.direction ++ blanks (l.gaps 7))])
      rw [List.singleton_append] at this
      rw [this, run_chr, run_plus_avoid _ (gap_ne _) gap_space (tail2_notSpace h), tail2_run h]
      · simp [groups21]
      · exact avoids_group _ (avoids_plus fun _ => space_not_digit) _
    · -- there is no other minus sign
      intro u v hu he _
      have hmem : '-' ∉ gap (l.gaps 8) ++ l.tail2 := by
        intro hc
        rw [List.mem_append] at hc
        rcases hc with hc | hc
        · have := mem_blanks hc; revert this; decide
        · unfold PcanLine.tail2 at hc
          rw [List.mem_cons] at hc
          rcases hc with hc | hc
          · have := h.dlc; rw [← hc] at this; revert this; decide
          · cases hd : l.data with
            | none => rw [hd] at hc; cases hc
            | some data =>
              rw [hd] at hc
              simp only [List.mem_append] at hc
              rcases hc with hc | hc
              · have := mem_blanks hc; revert this; decide
              · rcases payload_chars hc with hc | hc <;> revert hc <;> decide
      cases u with
      | nil => exact absurd rfl hu
      | cons x u =>
        cases u with
        | nil =>
          simp only [List.cons_append, List.nil_append, List.cons.injEq] at he
          rw [← he.2]
          exact run_plus_fail_head (.cons (by decide))
        | cons y u =>
          simp only [List.cons_append, List.cons.injEq] at he
          have hv : '-' ∉ v := fun hc => hmem (by rw [he.2.2]; simp [hc])
          by_contra hne
          have hn : Needs '-' (all [plus true (cls isSpace), chr '-', plus true (cls isSpace),
            group "dlc" (plus true d), all pcanOptData]) := needs_all (r := chr '-') (by simp) (needs_chr _)
          exact hv (hn done v _ hne)

/-! ### Other patterns do not match -/

/-- The first columns of version 2 are not found in lines of version 1. -/
theorem head2_fail_v1 {v v' : Version} {l : PcanLine} (h : l.Valid v) (K : Cont) (rest : Chars)
    (g : Groups) : (all head2Re).run K (l.head1 v' rest) g = none := by
  unfold head2Re PcanLine.head1
  simp only [run_all_cons, run_all_nil]
  unfold s d w
  rw [run_star_avoid (avoids_plus (fun x => space_not_digit) _) blanks_space
      (.append h.number.1 fun c hc => digit_not_space (h.number.2 c hc))]
  apply run_plus_fail (.cons (by decide))
  intro u v _ he
  have hvd : ∀ c ∈ v, isDigit c = true := fun c hc => h.number.2 c (by rw [he]; simp [hc])
  have hns : NotHead isSpace (v ++ ')' :: (gap (l.gaps 1) ++ (l.stampText v' ++
      (gap (l.gaps 2) ++ rest)))) := by
    cases v with
    | nil => exact .cons (by decide)
    | cons x v => exact .cons (digit_not_space (hvd x (by simp)))
  rw [run_star_none hns]
  refine stamp_fail hvd (needsSpace_plus _) (.cons (by decide)) ?_ ?_
  · intro g; exact run_plus_fail_head (.cons (by decide))
  · intro c r he f
    injection he with _ he
    subst he
    exact run_plus_fail_head (gap_notDigit _ _)

/-- There is a digit between white space. -/
def Lone : Chars → Prop
  | a :: b :: c :: r => (isSpace a = true ∧ isDigit b = true ∧ isSpace c = true) ∨ Lone (b :: c :: r)
  | _ => False

theorem lone_tail {a : Char} {t : Chars} (h : Lone t) : Lone (a :: t) := by
  match t, h with
  | _ :: _ :: _ :: _, h => exact .inr h

theorem lone_suffix {t u : Chars} (hs : t <:+ u) (h : Lone t) : Lone u := by
  obtain ⟨w, rfl⟩ := hs
  induction w with
  | nil => exact h
  | cons a w ih => exact lone_tail ih

theorem lone_of_run {n : String} {greedy greedy' : Bool} {K : Cont} {s : Chars} {g : Groups}
    (h : (plus greedy (cls isSpace)).run ((group n (cls isDigit)).run
      ((plus greedy' (cls isSpace)).run K)) s g ≠ none) : Lone s := by
  -- the digit follows a blank
  have key : ∀ (k : Cont), (∀ s g, k s g ≠ none → ∃ b c r, s = b :: c :: r ∧ isDigit b = true ∧
      isSpace c = true) → ∀ fuel s g a, isSpace a = true →
      iterate (cls isSpace).run greedy k fuel s g ≠ none → Lone (a :: s) := by
    intro k hk fuel
    induction fuel with
    | zero =>
      intro s g a ha hm
      obtain ⟨b, c, r, rfl, hb, hc⟩ := hk s g hm
      exact .inl ⟨ha, hb, hc⟩
    | succ fuel ih =>
      intro s g a ha hm
      by_cases hks : k s g = none
      · cases s with
        | nil => rw [iterate_none .nil] at hm; exact absurd hks hm
        | cons x r =>
          by_cases hx : isSpace x = true
          · rw [iterate_cons hx] at hm
            refine lone_tail (ih r g x hx ?_)
            intro hn
            rw [hn, hks] at hm
            cases greedy <;> exact absurd rfl hm
          · rw [iterate_none (.cons (by simpa using hx))] at hm
            exact absurd hks hm
      · obtain ⟨b, c, r, rfl, hb, hc⟩ := hk s g hks
        exact .inl ⟨ha, hb, hc⟩
  cases s with
  | nil => exact absurd rfl h
  | cons a r =>
    change (cls isSpace).run ((star greedy (cls isSpace)).run _) (a :: r) g ≠ none at h
    rw [run_cls_cons] at h
    split at h
    · rename_i ha
      rw [run_star] at h
      refine key _ ?_ _ r g a ha h
      intro s g hm
      rw [run_group] at hm
      cases s with
      | nil => exact absurd rfl hm
      | cons b r =>
        rw [run_cls_cons] at hm
        split at hm
        · rename_i hb
          cases r with
          | nil => exact absurd rfl hm
          | cons c r =>
            by_cases hc : isSpace c = true
            · exact ⟨b, c, r, rfl, hb, hc⟩
            · exact absurd (run_plus_fail_head (.cons (by simpa using hc))) hm
        · exact absurd rfl hm
    · exact absurd rfl h

/-- `t` does not begin with a single digit. -/
def NotLoneHead (t : Chars) : Prop := ∀ b c r, t = b :: c :: r → isDigit b = true → isSpace c = false

theorem not_lone_blank {t : Chars} (h : NotLoneHead t) (hn : ¬ Lone t) : ¬ Lone (' ' :: t) := by
  intro hl
  match t, hl with
  | b :: c :: r, .inl ⟨_, hb, hc⟩ => rw [h b c r rfl hb] at hc; cases hc
  | b :: c :: r, .inr hl => exact hn hl

theorem not_lone_blanks {t : Chars} (h : NotLoneHead t) (hn : ¬ Lone t) (n : Nat) :
    ¬ Lone (blanks n ++ t) ∧ NotLoneHead (blanks n ++ t) := by
  induction n with
  | zero => exact ⟨hn, h⟩
  | succ n ih =>
    rw [blanks_succ, List.cons_append]
    refine ⟨not_lone_blank ih.2 ih.1, ?_⟩
    intro b c r he hb
    injection he with h1 _
    subst h1
    exact absurd hb (by decide)

theorem not_lone_hex {a : Char} {t : Chars} (ha : isUpperHex a = true) (hn : ¬ Lone t) :
    ¬ Lone (a :: t) := by
  intro hl
  match t, hl with
  | b :: c :: r, .inl ⟨h, _⟩ => rw [hex_not_space ha] at h; cases h
  | b :: c :: r, .inr hl => exact hn hl

theorem not_lone_payload (data : List (UInt8 × Nat)) :
    ¬ Lone (payloadText data) ∧ NotLoneHead (payloadText data) := by
  induction data with
  | nil => exact ⟨id, by intro b c r h; cases h⟩
  | cons x r ih =>
    obtain ⟨b, n⟩ := x
    rw [payload_cons]
    refine ⟨not_lone_hex (hexDigit_upper _) (not_lone_hex (hexDigit_upper _)
      (not_lone_blanks ih.2 ih.1 n).1), ?_⟩
    intro x c t he _
    injection he with _ he
    injection he with h1 _
    rw [← h1]
    exact hex_not_space (hexDigit_upper _)

theorem not_lone_body (l : PcanLine) (n : Nat) : ¬ Lone (gap n ++ l.body) := by
  have : ¬ Lone l.body ∧ NotLoneHead l.body := by
    rw [body_eq]
    cases l.data with
    | none =>
      refine ⟨?_, ?_⟩
      · rintro (⟨h, _⟩ | h)
        · revert h; decide
        · exact h
      · intro b c r he hb
        injection he with h1 _
        subst h1
        exact absurd hb (by decide)
    | some d => exact not_lone_payload d
  exact (not_lone_blanks this.2 this.1 (n + 1)).1

/-- After the length, there is no other length. -/
theorem no_dlc (l : PcanLine) (n : Nat) (r : List Re) {K : Cont} {g : Groups} {t : Chars}
    (ht : t <:+ gap n ++ l.body) :
    (all r).run ((plus true (cls isSpace)).run ((group "dlc" (cls isDigit)).run
      ((plus true (cls isSpace)).run K))) t g = none := by
  by_contra h
  obtain ⟨s', g', hs, hk⟩ := run_suffix _ _ _ _ h
  exact not_lone_body l n (lone_suffix (hs.trans ht) (lone_of_run hk))

theorem v12_fail_v11 {l : PcanLine} (h : l.Valid .v11) :
    Pattern.pcanV12.regex.match? (l.text .v11) = none := by
  show (all (head1Re ++ ([pcanStamp, plus true s, group "channel" d, plus true s,
    group "type" (plus true w), plus true s] ++ (tail1Re ++ pcanData)))).run done
    (l.head1 .v11 (l.type ++ (gap (l.gaps 3) ++ l.tail1))) [] = _
  rw [run_all_append, run_all_append, run_all_append]
  rw [head1_run h]
  · simp only [run_all_cons, run_all_nil]
    unfold s w d
    rw [stampText_dec (by simp), stamp_dec h.stamp h.fraction (needsSpace_plus _) (gap_notDigit _ _),
      run_plus_avoid (channel_avoids _) (gap_ne _) gap_space (type_notSpace h _)]
    rw [run_group]
    exact run_cls_fail (.append h.type.1 fun c hc => (h.type.2 c hc).2)
  · rw [run_all_cons]
    exact stamp_avoids_space _

/-- A timestamp without a point, and what may be taken for one. -/
theorem stamp_fail_v10 {l : PcanLine} (h : l.Valid .v10) {K : Cont} (hK : Avoids isSpace K)
    (h1 : ∀ g, K l.tail1 g = none)
    (h2 : ∀ g, K (l.dlc :: (gap (l.gaps 6) ++ l.body)) g = none) (g : Groups) :
    pcanStamp.run ((plus true (cls isSpace)).run K) (l.stamp ++ (gap (l.gaps 2) ++ l.tail1)) g =
      none := by
  refine stamp_fail h.stamp.2 (needsSpace_plus _) (gap_notDigit _ _) ?_ ?_
  · intro g
    rw [run_plus_avoid hK (gap_ne _) gap_space (tail1_notSpace l)]
    exact h1 g
  · intro c r he f
    rw [gap_eq, List.cons_append] at he
    injection he with _ he
    subst he
    cases l.gaps 2 with
    | zero =>
      show (plus true (cls isDigit)).run _ (pcanIdText l.ext l.id ++ (gap (l.gaps 5) ++
        (l.dlc :: (gap (l.gaps 6) ++ l.body)))) g = none
      refine word_gap_fail (fun _ => space_not_digit) (needsSpace_group (needsSpace_plus _) f)
        (fun c hc => hex_not_space (hexText_upper _ _ c hc)) (.inr ?_)
      rw [run_plus_avoid hK (gap_ne _) gap_space (.cons (digit_not_space h.dlc))]
      exact h2 _
    | succ n => exact run_plus_fail_head (.cons (by decide))

theorem pcanId_cons (ext : Bool) (id : Nat) : ∃ a b r, pcanIdText ext id = a :: b :: r ∧
    isSpace b = false := by
  have hu := hexText_upper (if ext then 8 else 4) id
  match hc : pcanIdText ext id with
  | [] => exact absurd hc (pcanIdText_ne _ _)
  | [a] =>
    have := congrArg List.length hc
    cases ext <;> simp [pcanIdText] at this
  | a :: b :: r =>
    refine ⟨a, b, r, rfl, hex_not_space (hu b ?_)⟩
    unfold pcanIdText at hc
    rw [hc]; simp

theorem v12_fail_v10 {l : PcanLine} (h : l.Valid .v10) :
    Pattern.pcanV12.regex.match? (l.text .v10) = none := by
  show (all (head1Re ++ ([pcanStamp, plus true s, group "channel" d, plus true s,
    group "type" (plus true w), plus true s] ++ (tail1Re ++ pcanData)))).run done
    (l.head1 .v10 l.tail1) [] = _
  rw [run_all_append, run_all_append, run_all_append]
  rw [head1_run h]
  · simp only [run_all_cons, run_all_nil]
    unfold s w d
    apply stamp_fail_v10 h (channel_avoids _)
    · intro g
      obtain ⟨a, b, r, hid, hb⟩ := pcanId_cons l.ext l.id
      unfold PcanLine.tail1
      rw [hid, run_group, List.cons_append, run_cls_cons]
      split
      · exact run_plus_fail_head (.cons hb)
      · rfl
    · intro g
      rw [run_group, run_cls_cons]
      split
      · exact no_dlc l (l.gaps 6) [plus true (cls isSpace), group "type" (plus true (cls isWord)),
          plus true (cls isSpace), group "can_id" (plus true hex)] List.suffix_rfl
      · rfl
  · rw [run_all_cons]
    exact stamp_avoids_space _

theorem v11_fail_v10 {l : PcanLine} (h : l.Valid .v10) :
    Pattern.pcanV11.regex.match? (l.text .v10) = none := by
  show (all (head1Re ++ ([pcanStamp, plus true s, group "type" (plus true w), plus true s] ++
    (tail1Re ++ pcanData)))).run done (l.head1 .v10 l.tail1) [] = _
  rw [run_all_append, run_all_append, run_all_append]
  rw [head1_run h]
  · simp only [run_all_cons, run_all_nil]
    unfold s w
    apply stamp_fail_v10 h (type_avoids _)
    · intro g
      refine group_word_gap_fail (fun _ => space_not_word) (needsSpace_plus _)
        (fun c hc => hex_not_space (hexText_upper _ _ c hc)) (.inr ?_)
      intro g
      rw [run_plus_avoid (tail1_avoids _) (gap_ne _) gap_space (.cons (digit_not_space h.dlc))]
      unfold tail1Re hex s d
      simp only [run_all_cons, run_all_nil]
      have := group_word_gap_fail (name := "can_id") (p := isUpperHex) (greedy := true)
        (fun _ => space_not_hex) (k := (plus true (cls isSpace)).run ((group "dlc" (cls isDigit)).run
          ((plus true (cls isSpace)).run ((all pcanData).run done)))) (needsSpace_plus _)
        (word := [l.dlc]) (by intro c hc; simp at hc; rw [hc]; exact digit_not_space h.dlc)
        (n := l.gaps 6) (rest := l.body) (g := g) (.inr ?_)
      · exact this
      · intro g
        exact no_dlc l (l.gaps 6) [] List.suffix_rfl
    · intro g
      have := group_word_gap_fail (name := "type") (p := isWord) (greedy := true)
        (fun _ => space_not_word) (k := (plus true (cls isSpace)).run
          ((all tail1Re).run ((all pcanData).run done))) (needsSpace_plus _)
        (word := [l.dlc]) (by intro c hc; simp at hc; rw [hc]; exact digit_not_space h.dlc)
        (n := l.gaps 6) (rest := l.body) (g := g) (.inr ?_)
      · exact this
      · intro g
        exact no_dlc l (l.gaps 6) [plus true (cls isSpace), group "can_id" (plus true hex)]
          List.suffix_rfl
  · rw [run_all_cons]
    exact stamp_avoids_space _

end Cantools.LogReader
