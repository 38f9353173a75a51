import Verif.Lemmas.DbcMux
import Verif.Lemmas.DbcNames

/-
Properties C26 to C29: what survives being written to a DBC file and read back.
-/

namespace Cantools
open Spec

/-! ### C26: frame ids -/

/-- C26: the frame id and the frame format are recovered from the number in the file. -/
theorem C26_frame_id_round_trip (frameId : Int) (isExtended : Bool) (h : ValidFrameId frameId isExtended) :
    loadFrameId (dbcFrameId frameId isExtended) = (frameId, isExtended) := by
  obtain ⟨h1, h2⟩ := h
  unfold loadFrameId dbcFrameId
  cases isExtended
  · simp only [Bool.false_eq_true, if_false] at h2 ⊢
    refine Prod.ext ?_ ?_
    · show frameId % 2 ^ 31 = frameId; omega
    · show decide _ = false; rw [decide_eq_false_iff_not]; omega
  · simp only [if_true] at h2 ⊢
    have : ¬ (frameId / 2 ^ 31) % 2 = 1 := by omega
    rw [if_neg this]
    refine Prod.ext ?_ ?_
    · show (frameId + 2 ^ 31) % 2 ^ 31 = frameId; omega
    · show decide _ = true; rw [decide_eq_true_iff]; omega

/-- C26: two different frames never share a number. -/
theorem C26_distinct (a b : Int) (x y : Bool) (ha : ValidFrameId a x) (hb : ValidFrameId b y)
    (h : dbcFrameId a x = dbcFrameId b y) : a = b ∧ x = y := by
  have := C26_frame_id_round_trip a x ha
  rw [h, C26_frame_id_round_trip b y hb] at this
  exact ⟨(Prod.ext_iff.1 this).1.symm, (Prod.ext_iff.1 this).2.symm⟩

/-- C26: a number that was read is written again unchanged. -/
theorem C26_number_round_trip (n : Int) (h1 : 0 ≤ n) (h2 : n < 2 ^ 32) :
    dbcFrameId (loadFrameId n).1 (loadFrameId n).2 = n := by
  unfold dbcFrameId loadFrameId
  by_cases h : (n / 2 ^ 31) % 2 = 1
  · simp only [h, decide_true, if_true]
    rw [if_neg (by omega)]
    omega
  · simp only [h, decide_false, Bool.false_eq_true, if_false]
    omega

/-- The frame id must fit its format: the 30 bit extended id is still recovered, but a standard id
with bit 31 is read as an extended one. -/
theorem C26_invalid_id : loadFrameId (dbcFrameId 0x80000001 false) = (1, true) := by decide

example : ValidFrameId 0x18fef100 true ∧ ValidFrameId 0x7ff false ∧
    dbcFrameId 0x18fef100 true = 0x98fef100 ∧ dbcFrameId 0x100 true ≠ dbcFrameId 0x100 false := by
  refine ⟨⟨by decide, by decide⟩, ⟨by decide, by decide⟩, by decide, by decide⟩

/-! ### C27: multiplexing -/

/-- C27: the ranges written for a signal stand for the ids of the signal. -/
theorem C27_ranges (ids : List Int) (h : ids ≠ []) :
    ∃ ranges, createMuxRanges ids = .ok ranges ∧ ∀ i, i ∈ expandRanges ranges ↔ i ∈ ids :=
  createMuxRanges_spec h

example : createMuxRanges [7, 3, 1, 2, 7, 9] = .ok [(1, 3), (7, 7), (7, 7), (9, 9)] := by rfl

/-- C27: every signal of every message of a database has the same multiplexing after its message
was written to a DBC file and read back, whatever the other messages are and in whatever order the
signals are written. -/
theorem C27_multiplexing_round_trip (messages : List (List Signal)) (signals : List Signal)
    (sort : List Signal → List Signal) (hsort : ∀ l, List.Perm (sort l) l)
    (hmem : signals ∈ messages) (hw : WellMuxed signals) :
    ∃ fields entries, dumpMux (isExtendedMuxNeeded messages) sort signals = .ok (fields, entries) ∧
      List.Forall₂ SameMux (sort signals) (loadMux fields entries) := by
  have hp := hsort signals
  have hf : ((sort signals).mapM fun s =>
      (formatMux s).map fun m => ({ name := s.name, marker := m } : MuxField)) =
      .ok ((sort signals).map fun s => ({ name := s.name, marker := muxMarker s } : MuxField)) := by
    apply mapM_ok_map
    intro s hs
    rw [formatMux_eq (hw.some_id s (hp.mem_iff.1 hs))]
    rfl
  obtain ⟨entries, he⟩ : ∃ entries,
      (if isExtendedMuxNeeded messages then dumpMuxEntries signals else .ok []) = .ok entries := by
    rw [dumpMuxEntries_eq]; split <;> exact ⟨_, rfl⟩
  refine ⟨_, entries, by unfold dumpMux; rw [hf, he]; rfl, ?_⟩
  unfold loadMux
  rw [List.map_map, List.forall₂_map_right_iff, List.forall₂_same]
  intro s hs
  have hmark : ∀ p, (muxMarker p).isSelector = p.isMultiplexer := by
    intro p
    unfold muxMarker
    split
    · rename_i h; rw [h]; rfl
    · rename_i h
      have : p.isMultiplexer = false := by simpa using h
      rw [this]
      split <;> rfl
  refine loaded_same (sel := (sort signals).filter (·.isMultiplexer)) hmem hw (fun p => ?_) ?_ he ?_
    (hp.mem_iff.1 hs)
  · rw [List.mem_filter, hp.mem_iff]
  · exact (hp.filter _).length_eq
  · unfold singleSelector
    have : ((sort signals).map fun s => ({ name := s.name, marker := muxMarker s } : MuxField)).filter
        (·.marker.isSelector) = ((sort signals).filter (·.isMultiplexer)).map fun s =>
          ({ name := s.name, marker := muxMarker s } : MuxField) := by
      rw [List.filter_map]
      congr 1
      apply List.filter_congr
      intro p _
      exact hmark p
    rw [this]
    generalize (sort signals).filter (·.isMultiplexer) = sel
    rcases sel with _ | ⟨p, _ | ⟨q, r⟩⟩ <;> rfl

namespace DbcExample

/-- a selector below a selector -/
def signals : List Signal :=
  [ { name := "S", start := 0, length := 4, isMultiplexer := true },
    { name := "A", start := 8, length := 8, multiplexerIds := some [3, 1, 2, 9], multiplexerSignal := some "S" },
    { name := "T", start := 8, length := 4, isMultiplexer := true, multiplexerIds := some [5], multiplexerSignal := some "S" },
    { name := "B", start := 16, length := 8, multiplexerIds := some [0], multiplexerSignal := some "T" },
    { name := "P", start := 4, length := 4 } ]

theorem wellMuxed : WellMuxed signals := by
  constructor
  · decide
  · decide
  · decide
  · intro s hs n hn
    simp only [signals, List.mem_cons, List.not_mem_nil, or_false] at hs
    rcases hs with rfl | rfl | rfl | rfl | rfl <;> simp at hn <;> subst hn
    · exact ⟨_, List.mem_cons_self, rfl, by decide, rfl⟩
    · exact ⟨_, List.mem_cons_self, rfl, by decide, rfl⟩
    · exact ⟨_, List.mem_cons_of_mem _ (List.mem_cons_of_mem _ List.mem_cons_self), rfl, by decide, rfl⟩

/-- a selector with a long name -/
def longName : String := "ThisIsTheSelectorOfTheWholeMessage"

def long : List Signal :=
  [ { name := longName, start := 0, length := 4, isMultiplexer := true },
    { name := "A", start := 8, length := 8, multiplexerIds := some [3], multiplexerSignal := some longName } ]

end DbcExample

example : ∃ fields entries, dumpMux (isExtendedMuxNeeded [DbcExample.signals, []]) List.reverse
    DbcExample.signals = .ok (fields, entries) ∧
      List.Forall₂ SameMux DbcExample.signals.reverse (loadMux fields entries) :=
  C27_multiplexing_round_trip _ _ _ List.reverse_perm (by simp) DbcExample.wellMuxed

/-- C27 does not hold together with the abbreviation of long names (C28): the selector gets its long
name back, the signals below it do not get the long name of their selector back, so that no signal of
the loaded message has the name they refer to. -/
theorem C27_long_selector_fails :
    WellMuxed DbcExample.long ∧
    ∃ l2s s2l signals fields entries,
      longNamesConverter (DbcExample.long.map (·.name.toList)) = some (l2s, s2l) ∧
      shortenSignals l2s DbcExample.long = .ok signals ∧
      dumpMux false id (signals.map (·.1)) = .ok (fields, entries) ∧
      (loadMux fields entries).map (·.multiplexerSignal) =
        [none, some "ThisIsTheSelectorOfTheWholeMessa"] ∧
      "ThisIsTheSelectorOfTheWholeMessa".toList ∉
        (signals.map fun s => loadName s.1.name.toList s.2) := by
  refine ⟨⟨by decide, by decide, by decide, ?_⟩, ?_⟩
  · intro s hs n hn
    simp only [DbcExample.long, List.mem_cons, List.not_mem_nil, or_false] at hs
    rcases hs with rfl | rfl <;> simp at hn <;> subst hn
    exact ⟨_, List.mem_cons_self, rfl, by decide, rfl⟩
  · refine ⟨_, _, _, _, _, rfl, rfl, rfl, ?_, ?_⟩ <;> decide +kernel

/-- A signal with an empty list of ids cannot be written. -/
theorem C27_empty_ids (s : Signal) (h1 : s.isMultiplexer = false) (h2 : s.multiplexerIds = some []) :
    formatMux s = .error .indexError := by
  unfold formatMux; rw [h1, h2]; rfl

/-! ### C28: long names -/

/-- C28: every name gets a short name, from which it can be recovered; names of up to 32 characters
are kept; no two names get the same short name; short names have at most 32 characters if there are
at most 10000 names. -/
theorem C28_abbreviation_partial (names : List Chars) (hnd : names.Nodup) :
    ∃ l2s s2l, longNamesConverter names = some (l2s, s2l) ∧
      (∀ n ∈ names, ∃ s, dictGet? l2s n = some s ∧ dictGet? s2l s = some n ∧
        (n.length ≤ 32 → s = n) ∧ (names.length ≤ 10000 → s.length ≤ 32)) ∧
      (∀ n ∈ names, ∀ m ∈ names, dictGet? l2s n = dictGet? l2s m → n = m) := by
  obtain ⟨⟨l2s, s2l⟩, h⟩ := convertNames_exists (pySorted nameLe names) [] []
  obtain ⟨h1, h2, h3⟩ := longNames_spec h hnd
  refine ⟨l2s, s2l, h, fun n hn => ?_, fun n hn m hm he => ?_⟩
  · obtain ⟨s, g1, g2, _, g4⟩ := h3 n hn
    exact ⟨s, g1, (h1 n s).1 g1, g2, g4⟩
  · obtain ⟨s, g1, _⟩ := h3 n hn
    rw [g1] at he
    have a := (h1 n s).1 g1
    have b := (h1 m s).1 he.symm
    rw [a] at b
    exact Option.some.inj b

/-- C28: the short names do not depend on the order in which the names are given. -/
theorem C28_order_independent (names names' : List Chars) (h : List.Perm names names') :
    longNamesConverter names = longNamesConverter names' := by
  unfold longNamesConverter
  rw [pySorted_nameLe_congr h]

/-- C28: the search for short names ends for every list of names, also with repetitions. -/
theorem C28_terminates (names : List Chars) : ∃ r, longNamesConverter names = some r :=
  convertNames_exists _ _ _

/-- C28: what is written for an object gives its name back. -/
theorem C28_name_round_trip (names : List Chars) (hnd : names.Nodup) :
    ∃ l2s s2l, longNamesConverter names = some (l2s, s2l) ∧
      ∀ n ∈ names, ∃ short symbol, dumpName l2s n = .ok (short, symbol) ∧
        loadName short symbol = n ∧ (symbol = none ↔ short = n) := by
  obtain ⟨l2s, s2l, h, h1, _⟩ := C28_abbreviation_partial names hnd
  refine ⟨l2s, s2l, h, fun n hn => ?_⟩
  obtain ⟨s, hs, _⟩ := h1 n hn
  refine ⟨s, if n = s then none else some n, by unfold dumpName; rw [hs], ?_⟩
  by_cases he : n = s
  · rw [if_pos he]; exact ⟨he.symm, by simp [he]⟩
  · rw [if_neg he]; exact ⟨rfl, by simp [Ne.symm he]⟩

namespace DbcExample

/-- three long names with the same first 32 characters, and a kept name they clash with -/
def names : List Chars :=
  ["SignalWithAnExceedinglyLongName_AtTheEnd".toList, "SignalWithAnExceedinglyLongName_".toList,
   "SignalWithAnExceedinglyLongName_B".toList, "Short".toList]

end DbcExample

example : DbcExample.names.Nodup ∧ (longNamesConverter DbcExample.names).map (fun r => r.1.map
    fun p => (String.ofList p.1, String.ofList p.2)) =
    some [("Short", "Short"),
      ("SignalWithAnExceedinglyLongName_", "SignalWithAnExceedinglyLongName_"),
      ("SignalWithAnExceedinglyLongName_B", "SignalWithAnExceedinglyLong_0000"),
      ("SignalWithAnExceedinglyLongName_AtTheEnd", "SignalWithAnExceedinglyLong_0001")] := by
  constructor <;> decide +kernel

/-- With a repeated name the kept names are not kept: both get the name `A_0000`. -/
theorem C28_repeated_name :
    (longNamesConverter ["A".toList, "A".toList]).map (·.1) = some [("A".toList, "A_0000".toList)] := by
  decide +kernel

/-- names that use up all indices of four digits -/
def DbcExample.many : List Chars :=
  List.replicate 32 'a' :: List.replicate 33 'a' ::
    (List.range 10000).map fun i => List.replicate 27 'a' ++ '_' :: decimal4 i

/-- C28 without the bound on the number of names is false: a short name of more than 32 characters. -/
theorem C28_too_many_names : DbcExample.many.Nodup ∧
    ∃ l2s s2l s, longNamesConverter DbcExample.many = some (l2s, s2l) ∧
      dictGet? l2s (List.replicate 33 'a') = some s ∧ 32 < s.length := by
  have hlen : ∀ i, i < 10000 → (List.replicate 27 'a' ++ '_' :: decimal4 i).length = 32 := by
    intro i hi
    rw [List.length_append, List.length_replicate, List.length_cons, decimal4_length hi]
  have hund : ∀ k i, List.replicate k 'a' ≠ List.replicate 27 'a' ++ '_' :: decimal4 i := by
    intro k i h
    have : '_' ∈ List.replicate k 'a' := by rw [h]; simp
    exact absurd (List.mem_replicate.1 this).2 (by decide)
  have hnd : DbcExample.many.Nodup := by
    unfold DbcExample.many
    refine List.nodup_cons.2 ⟨?_, List.nodup_cons.2 ⟨?_, ?_⟩⟩
    · rw [List.mem_cons, not_or]
      refine ⟨fun h => absurd (congrArg List.length h) (by rw [List.length_replicate, List.length_replicate]; decide), ?_⟩
      rw [List.mem_map]
      rintro ⟨i, _, h⟩
      exact hund _ i h.symm
    · rw [List.mem_map]
      rintro ⟨i, _, h⟩
      exact hund _ i h.symm
    · apply List.Nodup.map
      · intro a b hab
        have := congrArg suffixIndex hab
        simpa only [suffixIndex_eq] using this
      · exact List.nodup_range
  refine ⟨hnd, ?_⟩
  obtain ⟨⟨l2s, s2l⟩, h⟩ := convertNames_exists (pySorted nameLe DbcExample.many) [] []
  obtain ⟨h1, h2, h3⟩ := longNames_spec h hnd
  have hm33 : List.replicate 33 'a' ∈ DbcExample.many := by
    unfold DbcExample.many; exact List.mem_cons_of_mem _ List.mem_cons_self
  have hm32 : List.replicate 32 'a' ∈ DbcExample.many := by
    unfold DbcExample.many; exact List.mem_cons_self
  have hmi : ∀ i, i < 10000 → List.replicate 27 'a' ++ '_' :: decimal4 i ∈ DbcExample.many := by
    intro i hi
    unfold DbcExample.many
    exact List.mem_cons_of_mem _ (List.mem_cons_of_mem _ (List.mem_map.2 ⟨i, List.mem_range.2 hi, rfl⟩))
  obtain ⟨s, g1, _, g3, _⟩ := h3 _ hm33
  refine ⟨l2s, s2l, s, h, g1, ?_⟩
  have huniq : ∀ m ∈ DbcExample.many, m.length ≤ 32 → s ≠ m := by
    rintro m hm hml rfl
    obtain ⟨t, k1, k2, _⟩ := h3 s hm
    rw [k2 hml] at k1
    have a := (h1 _ _).1 g1
    have b := (h1 _ _).1 k1
    rw [a] at b
    have := congrArg List.length (Option.some.inj b)
    rw [List.length_replicate] at this
    omega
  rcases g3 with hs | ⟨i, hs⟩
  · exact absurd (hs.trans (by rw [List.take_replicate]; rfl)) (huniq _ hm32 (by simp))
  · have hs' : s = List.replicate 27 'a' ++ '_' :: decimal4 i := by
      rw [hs, List.take_replicate]; rfl
    by_cases hi : i < 10000
    · exact absurd hs' (huniq _ (hmi i hi) (by rw [hlen i hi]))
    · have := decimal4_length_gt (n := i) (by omega)
      rw [hs', List.length_append, List.length_replicate, List.length_cons]
      omega

/-! ### C29: strings -/

/-- C29: a comment of a node, message, signal or environment variable is read back unchanged,
whatever follows it in the file, exactly if it does not end with a backslash. -/
theorem C29_comment_iff (comment : Chars) :
    (∀ rest, readString (dumpComment comment ++ rest) = some (comment, rest)) ↔
      comment.getLast? ≠ some '\\' := by
  constructor
  · intro h hl
    obtain ⟨s, rfl⟩ : ∃ s, comment = s ++ ['\\'] := by
      rw [List.getLast?_eq_some_iff] at hl; exact hl
    have := h ['"']
    simp only [readString, dumpComment, lexString, List.cons_append, List.append_assoc,
      List.nil_append, matchString_trailing] at this
    simp at this
  · intro hl rest
    simp only [readString, dumpComment, lexString, List.cons_append, List.append_assoc,
      List.nil_append, matchString_escape comment rest hl, Option.map_some, unescape_escape]

/-- C29: strings that are written as they are (units, names of values, attribute values, comments of
buses) are read back unchanged, whatever follows them in the file, exactly if they contain no
quotation mark and do not end with a backslash. -/
theorem C29_plain_iff_partial (text : Chars) :
    (∀ rest, readString (dumpPlain text ++ rest) = some (text, rest)) ↔
      '"' ∉ text ∧ text.getLast? ≠ some '\\' := by
  constructor
  · intro h
    have hq : '"' ∉ text := by
      intro hq
      have := h []
      simp only [readString, dumpPlain, lexString, List.cons_append, List.append_nil] at this
      rw [Option.map_eq_some_iff] at this
      obtain ⟨⟨m, r⟩, h1, h2⟩ := this
      simp only [Prod.mk.injEq] at h2
      obtain ⟨h3, h4, _⟩ := matchString_split h1
      rw [h2.2] at h3
      have hm : m = text := (List.append_inj_left' h3 rfl).symm
      subst hm
      have := h4 hq
      rw [h2.1] at this
      omega
    refine ⟨hq, fun hl => ?_⟩
    refine (C29_comment_iff text).1 (fun rest => ?_) hl
    have := h rest
    unfold dumpPlain at this
    unfold dumpComment
    rw [escape_of_no_quote hq]
    exact this
  · rintro ⟨hq, hl⟩ rest
    have := (C29_comment_iff text).2 hl rest
    unfold dumpComment at this
    rw [escape_of_no_quote hq] at this
    exact this

example : readString (dumpComment "a \"quoted\" \\ word".toList ++ ";\n".toList) =
    some ("a \"quoted\" \\ word".toList, ";\n".toList) := by
  refine (C29_comment_iff _).2 (by decide +kernel) _

/-- A unit with a quotation mark is cut off there. -/
theorem C29_quoted_unit : readString (dumpPlain "5\" disk".toList ++ " X".toList) =
    some ("5".toList, " disk\" X".toList) := by decide +kernel

/-- A comment ending with a backslash swallows what follows up to the next quotation mark. -/
theorem C29_trailing_backslash :
    readString (dumpComment "C:\\".toList ++ ";\nCM_ \"next\"".toList) =
      some ("C:\";\nCM_ ".toList, "next\"".toList) := by decide +kernel

end Cantools
