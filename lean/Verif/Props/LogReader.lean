import Verif.Lemmas.Detect

/-
C36: log files.
-/

namespace Cantools
open Cantools.Regex Cantools.LogReader Cantools.Spec.LogReader

/-- C36.  A line of any of the ten formats is parsed to the frame that is written on it, both by a new
parser, which finds the format, and by one that has seen a line of the format before.  All ids, data,
channels, timestamps and numbers of blanks. -/
theorem C36_line {clock : Clock} {l : Line} (h : l.Valid clock) {st : Option Pattern}
    (hst : st = none ∨ st = some l.pattern) :
    parse clock st l.text = (some l.pattern, .ok l.frame) := by
  have hd : detectPattern l.text = some l.pattern := by
    cases l with
    | candump l => exact detect_candump h.1
    | log l => exact detect_log h.1
    | pcan v l => exact detect_pcan h.1
  have hm : l.pattern.matchLine clock l.text = .ok l.frame := by
    cases l with
    | candump l => exact matchLine_candump h.1 h.2
    | log l => exact matchLine_log h.1 h.2
    | pcan v l => exact matchLine_pcan h.1 h.2.1 h.2.2
  unfold parse
  rcases hst with rfl | rfl
  · simp [hd, hm]
  · simp [hm]

/-- C36.  Iterating over a file returns the frames of its lines in order and skips what is not in any
format (for example comments), before, between and after the lines of the format. -/
theorem C36_file {clock : Clock} {p : Pattern} {items : List (Chars × Option Line)}
    (hlines : ∀ raw l, (raw, some l) ∈ items →
      stripNewlines raw = l.text ∧ l.Valid clock ∧ l.pattern = p)
    (hother : ∀ raw, (raw, none) ∈ items → detectPattern (stripNewlines raw) = none) :
    frames clock (items.map (·.1)) = (items.filterMap fun i => i.2.bind Line.frame, none) := by
  have key : ∀ st : Option Pattern, (st = none ∨ st = some p) →
      (∀ raw, (raw, none) ∈ items → p.regex.match? (stripNewlines raw) = none) →
      ((iterlines clock false st (items.map (·.1))).1.filterMap (·.2),
        (iterlines clock false st (items.map (·.1))).2) =
      (items.filterMap fun i => i.2.bind Line.frame, none) := by
    intro st hst hno
    induction items generalizing st with
    | nil => rfl
    | cons i r ih =>
      obtain ⟨raw, o⟩ := i
      have ihr := fun st hst => ih (fun raw l h => hlines raw l (List.mem_cons_of_mem _ h))
        (fun raw h => hother raw (List.mem_cons_of_mem _ h)) st hst
        (fun raw h => hno raw (List.mem_cons_of_mem _ h))
      cases o with
      | some l =>
        obtain ⟨h1, h2, h3⟩ := hlines raw l (by simp)
        have hp := C36_line h2 (st := st) (by rw [h3]; exact hst)
        rw [← h1] at hp
        have ih' := ihr (some p) (.inr rfl)
        rw [← h3] at ih'
        simp only [List.map_cons, iterlines, hp]
        cases hf : l.frame with
        | none =>
          simp only [Bool.false_eq_true, if_false, ih']
          simp [hf]
        | some f =>
          rw [Prod.mk.injEq] at ih' ⊢
          simp only [List.filterMap_cons, ih'.1, ih'.2, Option.bind_some, hf, and_self]
      | none =>
        have hp : ∃ st', parse clock st (stripNewlines raw) = (st', .ok none) ∧
            (st' = none ∨ st' = some p) := by
          rcases hst with rfl | rfl
          · refine ⟨none, ?_, .inl rfl⟩
            simp [parse, hother raw (by simp)]
          · refine ⟨some p, ?_, .inr rfl⟩
            simp [parse, Pattern.matchLine, hno raw (by simp)]
        obtain ⟨st', hp, hst'⟩ := hp
        simp only [List.map_cons, iterlines, hp, Bool.false_eq_true, if_false, ihr st' hst']
        simp
  have hno : ∀ raw, (raw, none) ∈ items → p.regex.match? (stripNewlines raw) = none := by
    intro raw h
    have := hother raw h
    unfold detectPattern at this
    rw [List.find?_eq_none] at this
    have hp := this p (by cases p <;> simp [patterns])
    simpa using hp
  exact key none (.inl rfl) hno

/-- C36.  With `keep_unknowns` there is one result for each line, in order, with the text of the line;
without it, exactly the results without a frame are left out. -/
theorem C36_iterlines {clock : Clock} {st : Option Pattern} {lines : List Chars} :
    (iterlines clock false st lines) = ((iterlines clock true st lines).1.filter (·.2.isSome),
      (iterlines clock true st lines).2) ∧
    (iterlines clock true st lines).1.map (·.1) <+: lines.map stripNewlines ∧
    ((iterlines clock true st lines).2 = none →
      (iterlines clock true st lines).1.map (·.1) = lines.map stripNewlines) := by
  induction lines generalizing st with
  | nil => exact ⟨rfl, List.prefix_rfl, fun _ => rfl⟩
  | cons nl rest ih =>
    obtain ⟨st', r, hp⟩ : ∃ st' r, parse clock st (stripNewlines nl) = (st', r) := ⟨_, _, rfl⟩
    obtain ⟨h1, h2, h3⟩ := ih (st := st')
    rw [Prod.ext_iff] at h1
    simp only [iterlines, hp]
    cases r with
    | error e => exact ⟨rfl, by simp, by simp⟩
    | ok o =>
      cases o with
      | none =>
        refine ⟨?_, ?_, ?_⟩
        · simp only [Bool.false_eq_true, if_false, if_true]
          rw [Prod.mk.injEq]
          simp only [List.filter_cons, Option.isSome_none, Bool.false_eq_true, if_false]
          exact h1
        · simpa using h2
        · intro he
          simp only [if_true, List.map_cons]
          rw [h3 he]
      | some f =>
        refine ⟨?_, ?_, ?_⟩
        · rw [Prod.mk.injEq]
          simp only [List.filter_cons, Option.isSome_some, if_true]
          exact ⟨by rw [h1.1], h1.2⟩
        · simpa using h2
        · intro he
          simp only [List.map_cons]
          rw [h3 he]

/-- C36.  What is returned for the beginning of a file does not depend on what is appended to it. -/
theorem C36_prefix {clock : Clock} {keep : Bool} {st : Option Pattern} {lines more : List Chars} :
    (iterlines clock keep st lines).1 <+: (iterlines clock keep st (lines ++ more)).1 ∧
    ∀ e, (iterlines clock keep st lines).2 = some e →
      iterlines clock keep st (lines ++ more) = iterlines clock keep st lines := by
  induction lines generalizing st with
  | nil => exact ⟨List.nil_prefix, by intro e h; cases h⟩
  | cons nl rest ih =>
    obtain ⟨st', r, hp⟩ : ∃ st' r, parse clock st (stripNewlines nl) = (st', r) := ⟨_, _, rfl⟩
    obtain ⟨h1, h2⟩ := ih (st := st')
    simp only [List.cons_append, iterlines, hp]
    cases r with
    | error e => exact ⟨List.prefix_rfl, by intro e _; rfl⟩
    | ok o =>
      cases o with
      | none =>
        refine ⟨?_, ?_⟩
        · cases keep
          · simpa using h1
          · simpa using h1
        · intro e he
          rw [h2 e he]
      | some f =>
        refine ⟨by simpa using h1, ?_⟩
        intro e he
        rw [h2 e he]

/-- C36 is false for lines of PCAN versions 2.0 and 2.1 without data that are not remote frames (the
length is 0 and nothing follows it): `TypeError` is raised. -/
theorem C36_empty_data_fails {clock : Clock} {v : Version} (hv : v.second = true) {l : PcanLine}
    (h : l.Valid v) (hd : l.data = none) (ht : l.type ≠ "RR".toList)
    (hf : (l.frame v).isSome) : parse clock none (l.text v) = (some v.pattern, .error .typeError) := by
  have hm : v.pattern.matchLine clock (l.text v) = .error .typeError := by
    have hty : ¬ (l.type = "Error".toList ∨ l.type = "Warng".toList) := by
      intro hc
      cases v <;> first
        | (unfold PcanLine.frame at hf; rw [if_pos ⟨rfl, hc⟩] at hf; cases hf)
        | cases hv
    unfold Pattern.matchLine
    cases v with
    | v20 =>
      have h1 : textOf (groups20 l) "type" = l.type := by simp [textOf, groupOf, dictGet?, groups20]
      have h2 : groupOf (groups20 l) "can_data" = none := by
        have := tail2_data l (g0 := [("timestamp", l.stamp ++ '.' :: l.fraction), ("type", l.type),
          ("can_id", pcanIdText l.ext l.id), ("rxtx", l.direction)]) (by simp)
        rw [hd] at this
        exact this
      simp only [Version.pattern, v20_run h, Pattern.unpack, unpackPcanTyped, h1, hty, if_false,
        unpackPcan, pcanParseDataV2, ht, pcanParseData, h2]
      rfl
    | v21 =>
      have h1 : textOf (groups21 l) "type" = l.type := by simp [textOf, groupOf, dictGet?, groups21]
      have h2 : groupOf (groups21 l) "can_data" = none := by
        have := tail2_data l (g0 := [("timestamp", l.stamp ++ '.' :: l.fraction), ("type", l.type),
          ("channel", [l.channel]), ("can_id", pcanIdText l.ext l.id),
          ("rxtx", l.direction ++ blanks (l.gaps 7))]) (by simp)
        rw [hd] at this
        exact this
      simp only [Version.pattern, v21_run h, Pattern.unpack, unpackPcanTyped, h1, hty, if_false,
        unpackPcan, pcanParseDataV2, ht, pcanParseData, h2]
      rfl
    | _ => cases hv
  unfold parse
  simp [detect_pcan h, hm]

namespace LogExample

/-- All timestamps can be converted. -/
def clock : Clock := fun _ _ => true

def cd : CandumpLine :=
  { pre := .seconds "000.000000".toList, channel := "vcan0".toList, ext := false, id := 0x1F0,
    len := ['8'], content := .data [(0, 1), (0x1B, 3)], trailer := "'..'".toList, gaps := fun _ => 1 }

theorem cd_valid : cd.Valid where
  pre := by
    refine ⟨by decide +kernel, ?_⟩
    have : ("000.000000".toList).all (fun c => isDigit c || c == '.') = true := by decide +kernel
    intro c hc
    simpa using List.all_eq_true.1 this c hc
  channel := by
    refine ⟨by decide +kernel, ?_⟩
    have : ("vcan0".toList).all (fun c => !isSpace c) = true := by decide +kernel
    intro c hc
    simpa using List.all_eq_true.1 this c hc
  id := by unfold ValidId; decide
  len := ⟨by decide, by intro c hc; revert c; decide⟩
  trailer := ⟨by decide +kernel, .inr ⟨"..'".toList, by decide +kernel⟩⟩

-- C36_line
example : cd.text = " (000.000000)  vcan0  1F0  [8] 00 1B   '..'".toList := by decide +kernel
example : parse clock none cd.text = (some .candumpTimestamped, .ok (some
    { channel := "vcan0".toList, frameId := 0x1F0, isExtendedFrame := false, data := [0, 0x1B],
      isRemoteFrame := false, timestamp := .given .seconds "000.000000".toList })) :=
  C36_line (l := .candump cd) ⟨cd_valid, show clock _ _ = true from rfl⟩ (.inl rfl)

/-- The number of bytes between the brackets is not compared with the data: here it is 8. -/
example : cd.len = ['8'] ∧ (cd.frame.map (·.data.length)) = some 2 := by decide +kernel

def pc : PcanLine :=
  { number := "1234".toList, stamp := "1059".toList, fraction := "900".toList, channel := '1',
    type := "DT".toList, ext := true, id := 0x300, direction := "Rx".toList, dlc := '2',
    data := some [(0xAB, 1), (0x01, 0)], gaps := fun _ => 0 }

theorem pc_valid (v : Version) : pc.Valid v where
  number := ⟨by decide +kernel, fun c hc => List.all_eq_true.1
    (by decide +kernel : ("1234".toList).all isDigit = true) c hc⟩
  stamp := ⟨by decide +kernel, fun c hc => List.all_eq_true.1
    (by decide +kernel : ("1059".toList).all isDigit = true) c hc⟩
  fraction := ⟨by decide +kernel, fun c hc => List.all_eq_true.1
    (by decide +kernel : ("900".toList).all isDigit = true) c hc⟩
  channel := by decide
  type := ⟨by decide +kernel, fun c hc => by
    have := List.all_eq_true.1
      (by decide +kernel : ("DT".toList).all (fun c => isWord c && !isDigit c) = true) c hc
    simpa using this⟩
  id := by unfold ValidId; decide
  direction := ⟨by decide +kernel, fun c hc => by
    have := List.all_eq_true.1
      (by decide +kernel : ("Rx".toList).all (fun c => isWord c && !isDigit c) = true) c hc
    simpa using this⟩
  dlc := by decide

theorem pc_remote (v : Version) : pc.RemoteType v := by
  intro _
  have h1 : pc.data ≠ none := by simp [pc]
  have h2 : pc.type ≠ "RR".toList := by decide +kernel
  exact ⟨fun h => absurd h h1, fun h => absurd h h2⟩

example : pc.text .v10 = "1234) 1059 00000300 2 AB 01".toList := by decide +kernel
example : pc.text .v11 = "1234) 1059.900 DT 00000300 2 AB 01".toList := by decide +kernel
example : pc.text .v12 = "1234) 1059.900 1 DT 00000300 2 AB 01".toList := by decide +kernel
example : pc.text .v13 = "1234) 1059.900 1 DT 00000300 - 2 AB 01".toList := by decide +kernel
example : pc.text .v20 = "1234 1059.900 DT 00000300 Rx 2 AB 01".toList := by decide +kernel
example : pc.text .v21 = "1234 1059.900 DT 1 00000300 Rx - 2 AB 01".toList := by decide +kernel
example (v : Version) : parse clock none (pc.text v) = (some v.pattern, .ok (pc.frame v)) :=
  C36_line (l := .pcan v pc) ⟨pc_valid v, pc_remote v, rfl⟩ (.inl rfl)

def lg : LogLine :=
  { stamp := "1579857014.345944".toList, channel := "can2".toList, ext := false, id := 0x486,
    fd := some 1, data := some [0x82, 0x96], direction := none, gaps := fun _ => 0 }

theorem lg_valid : lg.Valid where
  stamp := by
    refine ⟨by decide +kernel, ?_⟩
    have : ("1579857014.345944".toList).all (fun c => isDigit c || c == '.') = true := by
      decide +kernel
    intro c hc
    simpa using List.all_eq_true.1 this c hc
  channel := by
    refine ⟨by decide +kernel, ?_⟩
    have : ("can2".toList).all (fun c => !isSpace c) = true := by decide +kernel
    intro c hc
    simpa using List.all_eq_true.1 this c hc
  id := by unfold ValidId; decide

-- C36_line, C36_file
example : lg.text = "(1579857014.345944) can2 486##18296".toList := by decide +kernel
example : frames clock ["comment\n".toList, lg.text ++ ['\n'], [], lg.text] =
    ([lg.frame, lg.frame], none) :=
  C36_file (p := .candumpDefaultLog)
    (items := [("comment\n".toList, none), (lg.text ++ ['\n'], some (.log lg)), ([], none),
      (lg.text, some (.log lg))])
    (by
      intro raw l h
      simp only [List.mem_cons, Prod.mk.injEq, reduceCtorEq, and_false, false_or, Option.some.injEq,
        List.not_mem_nil, or_false] at h
      rcases h with ⟨rfl, rfl⟩ | ⟨rfl, rfl⟩
      · exact ⟨by decide +kernel, ⟨lg_valid, rfl⟩, rfl⟩
      · exact ⟨by decide +kernel, ⟨lg_valid, rfl⟩, rfl⟩)
    (by
      intro raw h
      simp only [List.mem_cons, Prod.mk.injEq, reduceCtorEq, and_false, false_or, and_true,
        List.not_mem_nil, or_false] at h
      rcases h with rfl | rfl <;> decide +kernel)

-- C36_empty_data_fails
example : parse clock none ({ pc with data := none }.text .v20) = (some .pcanV20, .error .typeError) :=
  C36_empty_data_fails rfl { pc_valid .v20 with } rfl (by decide +kernel) (by decide +kernel)

/-- The iteration ends there: later lines are lost. -/
theorem C36_iteration_aborts : ∃ (clock : Clock) (lines : List Chars) (l : Line),
    l.Valid clock ∧ l.text ∈ lines ∧ l.frame.isSome ∧ frames clock lines = ([], some .typeError) := by
  refine ⟨clock, ["1 1059.900 DT 0300 Rx 0".toList, pc.text .v20], .pcan .v20 pc,
    ⟨pc_valid _, pc_remote _, rfl⟩, by simp [Line.text], by decide +kernel, by decide +kernel⟩

/-- A PCAN line that is cut off inside a byte raises an exception instead of being skipped. -/
theorem C36_truncated_line_aborts :
    frames clock ["1) 1841 0001 2 AB 0".toList] = ([], some .valueError) := by decide +kernel

/-- Remote frames with a length in candump logs are not found. -/
theorem C36_remote_length_skipped :
    frames clock ["(1579857014.345944) can2 486#R8".toList] = ([], none) := by decide +kernel

/-- Lines in another format than the first one are skipped, although a parser that starts with them
understands them. -/
theorem C36_mixed_formats : ∃ (clock : Clock) (lines : List Chars) (l : Line),
    l.Valid clock ∧ l.text ∈ lines ∧ l.frame.isSome ∧
    frames clock lines = ([lg.frame], none) ∧ l.frame ≠ some lg.frame := by
  refine ⟨clock, [lg.text, cd.text], .candump cd, ⟨cd_valid, rfl⟩, by simp [Line.text],
    by decide +kernel, by decide +kernel, by decide +kernel⟩

end LogExample
end Cantools
