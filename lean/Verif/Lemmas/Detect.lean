import Verif.Lemmas.Pcan

set_option linter.unusedSimpArgs false

namespace Cantools.LogReader
open Cantools Cantools.Regex Cantools.Spec.LogReader Re

/-! ### Characters of PCAN lines -/

/-- Characters that may appear. -/
def Ordinary (c : Char) : Prop := isWord c = true ∨ isSpace c = true ∨ c = '.' ∨ c = ')'

def AllOrd (t : Chars) : Prop := ∀ c ∈ t, Ordinary c

theorem AllOrd.append {a b : Chars} (ha : AllOrd a) (hb : AllOrd b) : AllOrd (a ++ b) := by
  intro c hc
  rcases List.mem_append.1 hc with h | h
  · exact ha c h
  · exact hb c h

theorem AllOrd.cons {c : Char} {b : Chars} (ha : Ordinary c) (hb : AllOrd b) : AllOrd (c :: b) := by
  intro x hx
  rcases List.mem_cons.1 hx with rfl | h
  · exact ha
  · exact hb x h

theorem AllOrd.nil : AllOrd [] := by intro c hc; cases hc
theorem ord_blanks (n : Nat) : AllOrd (blanks n) := fun c hc => .inr (.inl (blanks_space c hc))
theorem ord_gap (n : Nat) : AllOrd (gap n) := ord_blanks _
theorem ord_digits {w : Chars} (h : Digits w) : AllOrd w := fun c hc => .inl (digit_word (h.2 c hc))
theorem ord_letters {w : Chars} (h : Letters w) : AllOrd w := fun c hc => .inl (h.2 c hc).1
theorem hex_word {x : Char} (h : isUpperHex x = true) : isWord x = true := by chars
theorem ord_id (ext : Bool) (id : Nat) : AllOrd (pcanIdText ext id) :=
  fun c hc => .inl (hex_word (hexText_upper _ _ c hc))
theorem ord_payload (d : List (UInt8 × Nat)) : AllOrd (payloadText d) := by
  intro c hc
  rcases payload_chars hc with h | rfl
  · exact .inl (hex_word h)
  · exact .inr (.inl (by decide))
theorem ord_body (l : PcanLine) : AllOrd l.body := by
  rw [body_eq]
  cases l.data with
  | none => exact .cons (.inl (by decide)) (.cons (.inl (by decide)) (.cons (.inl (by decide)) .nil))
  | some d => exact ord_payload d

theorem ord_tail1 {v : Version} {l : PcanLine} (h : l.Valid v) : AllOrd l.tail1 :=
  .append (ord_id _ _) (.append (ord_gap _) (.cons (.inl (digit_word h.dlc))
    (.append (ord_gap _) (ord_body l))))

theorem ord_tail2 {v : Version} {l : PcanLine} (h : l.Valid v) : AllOrd l.tail2 := by
  unfold PcanLine.tail2
  refine .cons (.inl (digit_word h.dlc)) ?_
  cases l.data with
  | none => exact .nil
  | some d => exact .append (ord_gap _) (ord_payload d)

theorem ord_stamp {v v' : Version} {l : PcanLine} (h : l.Valid v) : AllOrd (l.stampText v') := by
  cases v' <;> first
    | exact ord_digits h.stamp
    | exact .append (ord_digits h.stamp) (.cons (.inr (.inr (.inl rfl))) (ord_digits h.fraction))

theorem ord_head1 {v v' : Version} {l : PcanLine} (h : l.Valid v) {rest : Chars} (hr : AllOrd rest) :
    AllOrd (l.head1 v' rest) :=
  .append (ord_blanks _) (.append (ord_digits h.number) (.cons (.inr (.inr (.inr rfl)))
    (.append (ord_gap _) (.append (ord_stamp h) (.append (ord_gap _) hr)))))

theorem ord_text {v : Version} {l : PcanLine} (h : l.Valid v) (hv : v ≠ .v13 ∧ v ≠ .v21) :
    AllOrd (l.text v) := by
  cases v with
  | v10 => exact ord_head1 h (ord_tail1 h)
  | v11 => exact ord_head1 h (.append (ord_letters h.type) (.append (ord_gap _) (ord_tail1 h)))
  | v12 =>
    exact ord_head1 h (.cons (.inl (digit_word h.channel)) (.append (ord_gap _)
      (.append (ord_letters h.type) (.append (ord_gap _) (ord_tail1 h)))))
  | v13 => exact absurd rfl hv.1
  | v20 =>
    exact .append (ord_blanks _) (.append (ord_digits h.number) (.append (ord_gap _)
      (.append (ord_digits h.stamp) (.cons (.inr (.inr (.inl rfl))) (.append (ord_digits h.fraction)
      (.append (ord_gap _) (.append (ord_letters h.type) (.append (ord_gap _) (.append (ord_id _ _)
      (.append (ord_gap _) (.append (ord_letters h.direction) (.append (ord_gap _)
      (ord_tail2 h)))))))))))))
  | v21 => exact absurd rfl hv.2

theorem not_mem_ord {t : Chars} (h : AllOrd t) {c : Char} (hc : ¬ Ordinary c) : c ∉ t :=
  fun hm => hc (h c hm)

theorem minus_ord : ¬ Ordinary '-' := by
  rintro (h | h | h | h) <;> revert h <;> decide
theorem bracket_ord : ¬ Ordinary '[' := by
  rintro (h | h | h | h) <;> revert h <;> decide
theorem paren_ord : ¬ Ordinary '(' := by
  rintro (h | h | h | h) <;> revert h <;> decide

/-- Also in the versions with a minus sign. -/
theorem not_mem_text {v : Version} {l : PcanLine} (h : l.Valid v) {c : Char} (hc : ¬ Ordinary c)
    (hm : c ≠ '-') : c ∉ l.text v := by
  by_cases hv : v ≠ .v13 ∧ v ≠ .v21
  · exact not_mem_ord (ord_text h hv) hc
  · -- the same with a minus sign
    have hb : ∀ {t}, AllOrd t → c ∉ t := fun ht => not_mem_ord ht hc
    have hd : c ≠ l.dlc := by rintro rfl; exact hc (.inl (digit_word h.dlc))
    have hch : c ≠ l.channel := by rintro rfl; exact hc (.inl (digit_word h.channel))
    have hp1 : c ≠ ')' := by rintro rfl; exact hc (.inr (.inr (.inr rfl)))
    have hp2 : c ≠ '.' := by rintro rfl; exact hc (.inr (.inr (.inl rfl)))
    cases v with
    | v13 =>
      simp only [PcanLine.text, PcanLine.head1, PcanLine.tail13, List.mem_append, List.mem_cons, not_or]
      exact ⟨hb (ord_blanks _), hb (ord_digits h.number), hp1, hb (ord_gap _), hb (ord_stamp h),
        hb (ord_gap _), hch, hb (ord_gap _), hb (ord_letters h.type), hb (ord_gap _),
        hb (ord_id _ _), hb (ord_gap _), hm, hb (ord_gap _), hd, hb (ord_gap _), hb (ord_body l)⟩
    | v21 =>
      simp only [PcanLine.text, PcanLine.head2, List.mem_append, List.mem_cons, not_or]
      exact ⟨hb (ord_blanks _), hb (ord_digits h.number), hb (ord_gap _), hb (ord_digits h.stamp),
        hp2, hb (ord_digits h.fraction), hb (ord_gap _), hb (ord_letters h.type), hb (ord_gap _),
        hch, hb (ord_gap _), hb (ord_id _ _), hb (ord_gap _), hb (ord_letters h.direction),
        hb (ord_gap _), hm, hb (ord_gap _), hb (ord_tail2 h)⟩
    | _ => exact absurd ⟨by simp, by simp⟩ hv

/-! ### Necessary characters of the patterns -/

theorem default_needs : Needs '[' Pattern.candumpDefault.regex :=
  needs_all (r := chr '[') (by simp [candumpTail]) (needs_chr _)
theorem timestamped_needs : Needs '(' Pattern.candumpTimestamped.regex :=
  needs_all (r := chr '(') (by simp) (needs_chr _)
theorem log_needs : Needs '(' Pattern.candumpDefaultLog.regex :=
  needs_all (r := chr '(') (by simp) (needs_chr _)
theorem absolute_needs : Needs '(' Pattern.candumpAbsoluteLog.regex :=
  needs_all (r := chr '(') (by simp) (needs_chr _)
theorem v21_needs : Needs '-' Pattern.pcanV21.regex :=
  needs_all (r := chr '-') (by simp) (needs_chr _)
theorem v13_needs : Needs '-' Pattern.pcanV13.regex :=
  needs_all (r := chr '-') (by simp) (needs_chr _)

theorem v21_fail_v1 {v v' : Version} {l : PcanLine} (h : l.Valid v) (rest : Chars) :
    Pattern.pcanV21.regex.match? (l.head1 v' rest) = none := by
  show (all (head2Re ++ ([group "channel" d, plus true s, group "can_id" (plus true hex), plus true s,
    group "rxtx" (plus true any), plus true s, chr '-', plus true s, group "dlc" (plus true d)] ++
    pcanOptData))).run done _ [] = _
  rw [run_all_append]
  exact head2_fail_v1 h _ _ _

theorem v20_fail_v1 {v v' : Version} {l : PcanLine} (h : l.Valid v) (rest : Chars) :
    Pattern.pcanV20.regex.match? (l.head1 v' rest) = none := by
  show (all (head2Re ++ ([group "can_id" (plus true hex), plus true s, group "rxtx" (plus true w),
    plus true s, group "dlc" (plus true d)] ++ pcanOptData))).run done _ [] = _
  rw [run_all_append]
  exact head2_fail_v1 h _ _ _

/-! ### Detection -/

theorem detect_candump {l : CandumpLine} (h : l.Valid) :
    detectPattern l.text = some l.pre.pattern := by
  unfold detectPattern patterns
  cases hp : l.pre with
  | plain => simp [List.find?, default_run h hp, Prefix.pattern]
  | seconds t =>
    simp [List.find?, default_fail_seconds h hp, timestamped_run h hp, Prefix.pattern]
  | date y mo d hh mi s f =>
    simp [List.find?, default_fail_date h hp, timestamped_fail_date h hp, log_fail_date h hp,
      absolute_run h hp, Prefix.pattern]

theorem detect_log {l : LogLine} (h : l.Valid) : detectPattern l.text = some .candumpDefaultLog := by
  unfold detectPattern patterns
  simp [List.find?, default_fail_log h, timestamped_fail_log h, log_run h]

theorem detect_pcan {v : Version} {l : PcanLine} (h : l.Valid v) :
    detectPattern (l.text v) = some v.pattern := by
  have h1 := match?_none_of_needs default_needs (not_mem_text h bracket_ord (by decide))
  have h2 := match?_none_of_needs timestamped_needs (not_mem_text h paren_ord (by decide))
  have h3 := match?_none_of_needs log_needs (not_mem_text h paren_ord (by decide))
  have h4 := match?_none_of_needs absolute_needs (not_mem_text h paren_ord (by decide))
  unfold detectPattern patterns
  cases v with
  | v10 =>
    have h7 := match?_none_of_needs v13_needs (not_mem_ord (ord_text h (by simp)) minus_ord)
    have h5 := v21_fail_v1 (v' := .v10) h l.tail1
    have h6 := v20_fail_v1 (v' := .v10) h l.tail1
    change _ = none at h5 h6
    simp only [List.find?, h1, h2, h3, h4, v12_fail_v10 h, v11_fail_v10 h, v10_run h, h7]
    simp only [PcanLine.text, h5, h6]
    rfl
  | v11 =>
    have h7 := match?_none_of_needs v13_needs (not_mem_ord (ord_text h (by simp)) minus_ord)
    simp only [List.find?, h1, h2, h3, h4, v12_fail_v11 h, v11_run h, h7]
    simp only [PcanLine.text, v21_fail_v1 h, v20_fail_v1 h]
    rfl
  | v12 =>
    have h7 := match?_none_of_needs v13_needs (not_mem_ord (ord_text h (by simp)) minus_ord)
    simp only [List.find?, h1, h2, h3, h4, v12_run h, h7]
    simp only [PcanLine.text, v21_fail_v1 h, v20_fail_v1 h]
    rfl
  | v13 =>
    simp only [List.find?, h1, h2, h3, h4, v13_run h]
    simp only [PcanLine.text, v21_fail_v1 h, v20_fail_v1 h]
    rfl
  | v20 =>
    have h7 := match?_none_of_needs v21_needs (not_mem_ord (ord_text h (by simp)) minus_ord)
    simp only [List.find?, h1, h2, h3, h4, h7, v20_run h]
    rfl
  | v21 =>
    simp only [List.find?, h1, h2, h3, h4, v21_run h]
    rfl

/-! ### Unpacking -/

theorem idText_length {ext : Bool} {id : Nat} : decide (3 < (idText ext id).length) = ext := by
  cases ext <;> simp [idText]

theorem pcanIdText_length {ext : Bool} {id : Nat} : decide (4 < (pcanIdText ext id).length) = ext := by
  cases ext <;> simp [pcanIdText]

theorem r_chars : "R".toList = ['R'] := by decide +kernel

theorem payload_ne_cons {data : List (UInt8 × Nat)} {c : Char} {r : Chars}
    (hc : isUpperHex c = false) : payloadText data ≠ c :: r := by
  intro h
  have := payload_notHead_nil (p := fun x => !isUpperHex x) (fun x hx => by simp [hx]) data c r h
  simp [hc] at this

theorem candump_unpack {clock : Clock} {l : CandumpLine} (h : l.Valid)
    (hc : Readable clock l.pre.kind l.pre.stampText) {g : Groups}
    (hg : g = [("timestamp", l.pre.stampText)] ++ tailGroups l ∨
      (l.pre = .plain ∧ g = tailGroups l)) :
    unpackCandump clock l.pre.kind g = .ok l.frame := by
  have h1 : textOf g "channel" = l.channel := by
    rcases hg with rfl | ⟨_, rfl⟩ <;> simp [textOf, groupOf, dictGet?, tailGroups]
  have h2 : textOf g "can_id" = idText l.ext l.id := by
    rcases hg with rfl | ⟨_, rfl⟩ <;> simp [textOf, groupOf, dictGet?, tailGroups]
  have h3 : ∀ k, l.pre.kind = some k → textOf g "timestamp" = l.pre.stampText := by
    intro k hk
    rcases hg with rfl | ⟨hp, _⟩
    · simp [textOf, groupOf, dictGet?]
    · rw [hp] at hk; cases hk
  have hst : ∀ k, l.pre.kind = some k → clock k l.pre.stampText = true := by
    intro k hk
    rw [hk] at hc
    exact hc
  have h4 : textOf g "error_frame" = match l.content with
      | .errorFrame _ => errorChars
      | _ => [] := by
    rcases hg with rfl | ⟨_, rfl⟩ <;> cases hcont : l.content <;>
      simp [textOf, groupOf, dictGet?, tailGroups, contentGroups, hcont]
  have h5 : textOf g "can_data" = match l.content with
      | .errorFrame b => payloadText b
      | .remote _ => remoteChars
      | .data b => payloadText b := by
    rcases hg with rfl | ⟨_, rfl⟩ <;> cases hcont : l.content <;>
      simp [textOf, groupOf, dictGet?, tailGroups, contentGroups, hcont]
  unfold unpackCandump CandumpLine.frame
  rw [remote_chars, r_chars]
  cases hcont : l.content with
  | data b =>
    simp only [hcont] at h4 h5
    have hr1 : payloadText b ≠ remoteChars := payload_ne_cons (by decide)
    have hr2 : payloadText b ≠ ['R'] := payload_ne_cons (by decide)
    simp only [h4, h5, ne_eq, not_true_eq_false, if_false, hr1, hr2, or_self, decide_false,
      Bool.false_eq_true, unhexlify_payload, bind, Except.bind, pure, Except.pure, h1, h2,
      parseHex_idText h.id, idText_length]
    cases hk : l.pre.kind with
    | none => rfl
    | some k => simp only [h3 k hk, stamp, hst k hk, if_true, stampOf]
  | remote n =>
    simp only [hcont] at h4 h5
    simp only [h4, h5, ne_eq, not_true_eq_false, if_false, true_or, decide_true, if_true,
      bind, Except.bind, pure, Except.pure, h1, h2,
      parseHex_idText h.id, idText_length]
    cases hk : l.pre.kind with
    | none => rfl
    | some k => simp only [h3 k hk, stamp, hst k hk, if_true, stampOf]
  | errorFrame b =>
    simp only [hcont] at h4
    have hne : errorChars ≠ [] := by decide
    simp only [h4, ne_eq, hne, not_false_eq_true, if_true]

theorem matchLine_candump {clock : Clock} {l : CandumpLine} (h : l.Valid)
    (hc : Readable clock l.pre.kind l.pre.stampText) :
    l.pre.pattern.matchLine clock l.text = .ok l.frame := by
  unfold Pattern.matchLine
  cases hp : l.pre with
  | plain =>
    have := candump_unpack h hc (.inr ⟨hp, rfl⟩)
    rw [hp] at this
    simp only [Prefix.pattern, default_run h hp, Pattern.unpack]
    exact this
  | seconds t =>
    have := candump_unpack h hc (.inl rfl)
    rw [hp] at this
    simp only [Prefix.pattern, timestamped_run h hp, Pattern.unpack]
    exact this
  | date y mo d hh mi s f =>
    have := candump_unpack h hc (.inl rfl)
    have hr := absolute_run h hp
    rw [hp] at this hr
    simp only [Prefix.pattern, hr, Pattern.unpack]
    exact this

theorem unhexlify_bytes (data : Bytes) :
    unhexlifyText ((data.flatMap byteText).filter (· != ' ')) = .ok data := by
  have := unhexlify_payload (data.map fun b => (b, 0))
  simpa [payloadText, List.flatMap_map, Function.comp_def] using this

theorem bytes_ne_cons {data : Bytes} {c : Char} {r : Chars} (hc : isUpperHex c = false) :
    data.flatMap byteText ≠ c :: r := by
  have := payload_ne_cons (data := data.map fun b => (b, 0)) (r := r) hc
  simpa [payloadText, List.flatMap_map, Function.comp_def] using this

theorem matchLine_log {clock : Clock} {l : LogLine} (h : l.Valid) (hc : clock .epoch l.stamp = true) :
    Pattern.candumpDefaultLog.matchLine clock l.text = .ok (some l.frame) := by
  unfold Pattern.matchLine
  simp only [log_run h, Pattern.unpack]
  unfold unpackCandump LogLine.frame
  rw [remote_chars, r_chars]
  have h1 : textOf (logGroups l) "channel" = l.channel := by simp [textOf, groupOf, dictGet?, logGroups]
  have h2 : textOf (logGroups l) "can_id" = idText l.ext l.id := by
    simp [textOf, groupOf, dictGet?, logGroups]
  have h3 : textOf (logGroups l) "timestamp" = l.stamp := by
    simp [textOf, groupOf, dictGet?, logGroups]
  have h4 : textOf (logGroups l) "error_frame" = [] := by simp [textOf, groupOf, dictGet?, logGroups]
  have h5 : textOf (logGroups l) "can_data" = logDataText l.data := by
    simp [textOf, groupOf, dictGet?, logGroups]
  cases hd : l.data with
  | none =>
    rw [hd] at h5
    have hr : ¬ (['R'] : Chars) = remoteChars := by decide
    simp only [h4, h5, logDataText, ne_eq, not_true_eq_false, if_false, or_true, decide_true, if_true,
      stamp, h3, hc, bind, Except.bind, pure, Except.pure, h1, h2, parseHex_idText h.id, idText_length,
      Option.getD_none, Option.isNone_none]
  | some data =>
    rw [hd] at h5
    have hr1 : data.flatMap byteText ≠ remoteChars := bytes_ne_cons (by decide)
    have hr2 : data.flatMap byteText ≠ ['R'] := bytes_ne_cons (by decide)
    simp only [h4, h5, logDataText, ne_eq, not_true_eq_false, if_false, hr1, hr2, or_self, decide_false,
      Bool.false_eq_true, unhexlify_bytes, stamp, h3, hc, if_true, bind, Except.bind, pure, Except.pure,
      h1, h2, parseHex_idText h.id, idText_length, Option.getD_some, Option.isNone_some]

theorem pcanParse_body (l : PcanLine) {g : Groups} (hg : groupOf g "can_data" = some l.body) :
    pcanParseData g = .ok ((l.data.getD []).map (·.1), l.data.isNone) := by
  unfold pcanParseData
  rw [hg, rtr_chars]
  rw [body_eq]
  cases l.data with
  | none => simp
  | some d =>
    have : payloadText d ≠ rtrChars := payload_ne_cons (by decide)
    simp only [this, if_false, fromhex_payload, Except.map, Option.getD_some, Option.isNone_some]

theorem unpackPcan_ok {clock : Clock} {v : Version} {l : PcanLine} (h : l.Valid v)
    (hc : clock .millis (l.stampText v) = true) {g : Groups} {channel : Chars}
    {parseData : Groups → Except Err (Bytes × Bool)}
    (hp : parseData g = .ok ((l.data.getD []).map (·.1), l.data.isNone))
    (hid : textOf g "can_id" = pcanIdText l.ext l.id) (hst : textOf g "timestamp" = l.stampText v) :
    unpackPcan clock channel parseData g = .ok (some
      { channel, frameId := l.id, isExtendedFrame := l.ext,
        data := (l.data.getD []).map (·.1), isRemoteFrame := l.data.isNone,
        timestamp := .given .millis (l.stampText v) }) := by
  unfold unpackPcan
  simp only [hp, hid, hst, stamp, hc, if_true, bind, Except.bind, pure, Except.pure,
    parseHex_pcanIdText h.id, pcanIdText_length]

theorem unpackTyped_ok {clock : Clock} {v : Version} {l : PcanLine} (h : l.Valid v)
    (hv : v.typed = true) (hc : clock .millis (l.stampText v) = true) {g : Groups} {channel : Chars}
    {parseData : Groups → Except Err (Bytes × Bool)}
    (hch : channel = "pcan".toList ++ (if v.channelled then [l.channel] else ['x']))
    (hp : parseData g = .ok ((l.data.getD []).map (·.1), l.data.isNone))
    (hty : textOf g "type" = l.type)
    (hid : textOf g "can_id" = pcanIdText l.ext l.id) (hst : textOf g "timestamp" = l.stampText v) :
    unpackPcanTyped clock channel parseData g = .ok (l.frame v) := by
  unfold unpackPcanTyped PcanLine.frame
  rw [hty]
  simp only [hv, true_and]
  split
  · rfl
  · rw [unpackPcan_ok h hc hp hid hst, hch]

theorem pcanx_chars : pcanx = "pcan".toList ++ ['x'] := by decide +kernel

theorem tail2_data (l : PcanLine) {g0 : Groups} (h0 : ∀ x ∈ g0, x.1 ≠ "can_data") :
    groupOf (g0 ++ tail2Groups l) "can_data" = l.data.map payloadText := by
  unfold groupOf
  induction g0 with
  | nil => unfold tail2Groups; cases l.data <;> simp [dictGet?]
  | cons x r ih =>
    obtain ⟨a, b⟩ := x
    have ha : a ≠ "can_data" := h0 (a, b) (by simp)
    have := ih fun x hx => h0 x (by simp [hx])
    rw [← this]
    simp [dictGet?, ha]

theorem pcanParse2 {v : Version} (hv : v.second = true) (l : PcanLine) (hr : l.RemoteType v)
    {g : Groups} (hg : groupOf g "can_data" = l.data.map payloadText) (hty : textOf g "type" = l.type) :
    pcanParseDataV2 g = .ok ((l.data.getD []).map (·.1), l.data.isNone) := by
  unfold pcanParseDataV2
  rw [hty]
  cases hd : l.data with
  | none =>
    rw [if_pos ((hr hv).1 hd)]
    rfl
  | some d =>
    rw [if_neg (fun hc => by have := (hr hv).2 hc; rw [hd] at this; cases this)]
    unfold pcanParseData
    rw [hg, hd, Option.map_some, rtr_chars]
    have : payloadText d ≠ rtrChars := payload_ne_cons (by decide)
    simp only [this, if_false, fromhex_payload, Except.map, Option.getD_some, Option.isNone_some]

theorem matchLine_pcan {clock : Clock} {v : Version} {l : PcanLine} (h : l.Valid v)
    (hr : l.RemoteType v) (hc : clock .millis (l.stampText v) = true) :
    v.pattern.matchLine clock (l.text v) = .ok (l.frame v) := by
  unfold Pattern.matchLine
  cases v with
  | v10 =>
    simp only [Version.pattern, v10_run h, Pattern.unpack]
    rw [unpackPcan_ok h hc (pcanParse_body l (by simp [groupOf, dictGet?, groups1, Version.channelled, Version.typed]))
      (by simp [textOf, groupOf, dictGet?, groups1, Version.channelled, Version.typed])
      (by simp [textOf, groupOf, dictGet?, groups1])]
    simp [PcanLine.frame, Version.typed, Version.channelled, pcanx_chars]
  | v11 =>
    simp only [Version.pattern, v11_run h, Pattern.unpack]
    apply unpackTyped_ok h rfl hc
    · simp [pcanx_chars, Version.channelled]
    · exact pcanParse_body l (by simp [groupOf, dictGet?, groups1, Version.channelled, Version.typed])
    all_goals simp [textOf, groupOf, dictGet?, groups1, Version.channelled, Version.typed]
  | v12 =>
    simp only [Version.pattern, v12_run h, Pattern.unpack]
    apply unpackTyped_ok h rfl hc
    · simp [pcanChannel, textOf, groupOf, dictGet?, groups1, Version.channelled]
    · exact pcanParse_body l (by simp [groupOf, dictGet?, groups1, Version.channelled, Version.typed])
    all_goals simp [textOf, groupOf, dictGet?, groups1, Version.channelled, Version.typed]
  | v13 =>
    simp only [Version.pattern, v13_run h, Pattern.unpack]
    apply unpackTyped_ok h rfl hc
    · simp [pcanChannel, textOf, groupOf, dictGet?, groups1, Version.channelled]
    · exact pcanParse_body l (by simp [groupOf, dictGet?, groups1, Version.channelled, Version.typed])
    all_goals simp [textOf, groupOf, dictGet?, groups1, Version.channelled, Version.typed]
  | v20 =>
    simp only [Version.pattern, v20_run h, Pattern.unpack]
    apply unpackTyped_ok h rfl hc
    · simp [pcanx_chars, Version.channelled]
    · apply pcanParse2 rfl l hr
      · exact tail2_data l (by simp)
      · simp [textOf, groupOf, dictGet?, groups20]
    all_goals simp [textOf, groupOf, dictGet?, groups20, PcanLine.stampText]
  | v21 =>
    simp only [Version.pattern, v21_run h, Pattern.unpack]
    apply unpackTyped_ok h rfl hc
    · simp [pcanChannel, textOf, groupOf, dictGet?, groups21, Version.channelled]
    · apply pcanParse2 rfl l hr
      · exact tail2_data l (by simp)
      · simp [textOf, groupOf, dictGet?, groups21]
    all_goals simp [textOf, groupOf, dictGet?, groups21, PcanLine.stampText]

end Cantools.LogReader
