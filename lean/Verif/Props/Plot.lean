import Verif.Lemmas.PlotLoop
import Verif.Props.DecodeCommand

/-!
The `plot` command (C55).
-/

namespace Cantools
open Plot Spec Spec.Plot

theorem sound_keys {fo : FloatOps} {m : Message} (h : Sound m) {data : Bytes} {dc sc tr ex : Bool} {r : List (String × Value)}
    (hr : decode fo m data dc sc tr ex = .ok r) : ∀ e ∈ r, ∃ s ∈ m.signals, s.name = e.1 := by
  obtain ⟨l, h1, h2, _⟩ := (DecodeCommand.sound_decode (T := ⟨fun _ _ => [], fun _ => none, fun _ _ => []⟩) h).1 r hr
  intro e he
  obtain ⟨x, hx, rfl⟩ := List.mem_map.1 (h1.mem_iff.2 he)
  exact ⟨x.1, h2.subset (List.mem_map.2 ⟨x, hx, rfl⟩), rfl⟩

/-- The names in a log. -/
theorem sample_name {fo : FloatOps} {o : Plot.Options} {db : Db} (h : SoundDb db) {es : List Entry} {n : Regex.Chars}
    (hn : samples fo o db es n ≠ []) :
    ∃ e ∈ db.byId, ∃ m, e.2.body = .inl m ∧ ∃ s ∈ m.signals, n = e.2.name.toList ++ '.' :: s.name.toList := by
  obtain ⟨p, hp⟩ := List.exists_mem_of_ne_nil _ hn
  obtain ⟨e, _, he⟩ := List.mem_flatMap.1 hp
  cases e with
  | junk => cases he
  | frame x id data =>
    obtain ⟨v, hv, _⟩ := List.mem_map.1 he
    obtain ⟨hv, e⟩ := List.mem_filter.1 hv
    have e : v.1 = n := by simpa using e
    unfold valuesIn at hv
    cases hm : db.getByFrameId id false with
    | error err => rw [hm] at hv; cases hv
    | ok m =>
      rw [hm] at hv
      dsimp only at hv
      obtain ⟨k, hk⟩ : ∃ k, (k, m) ∈ db.byId := ⟨_, dictGet?_mem (dictGet_eq_ok.1 hm)⟩
      cases hb : m.body with
      | inr c => rw [hb] at hv; cases hv
      | inl msg =>
        rw [hb] at hv
        dsimp only at hv
        cases hd : decode fo msg data o.decodeChoices true false true with
        | error err => rw [hd] at hv; cases hv
        | ok d =>
          rw [hd] at hv
          obtain ⟨w, hw, rfl⟩ := List.mem_map.1 hv
          have hs := h _ hk
          dsimp only at hs
          rw [hb] at hs
          obtain ⟨s, hs, hn⟩ := sound_keys hs hd w hw
          exact ⟨_, hk, msg, hb, s, hs, by rw [← e, hn]⟩

/-- A signal belongs to a pattern of the command line exactly if the pattern stands for the name
`message.signal`: `*` is any text, `?` any character, other characters stand for themselves, and a
pattern without point is one for the signal in any message. -/
theorem C55_pattern (caseSensitive : Bool) (subplot axis : Nat) (arg name : Regex.Chars) (hn : '\n' ∉ name) (a : Argument)
    (ha : Written arg a) : (makeSg caseSensitive subplot axis arg).match name = true ↔ Selects caseSensitive a.pattern name := by
  rw [makeSg_eq, match_iff hn, (written_unique ha (written_argOf arg (subplot, axis))).1]

/-- The arguments mean what the help text says: `-` starts the next subplot, `,` the next axis, all
signals are plotted if there is none, and a format after a colon may ask for stems. -/
theorem C55_arguments (caseSensitive : Bool) (args : List Regex.Chars) :
    ∃ as, Means args as ∧ (∀ bs, Means args bs → bs = as) ∧
      List.Forall₂ (fun (a : Argument) (s : Sg) => s.subplot = a.subplot ∧ s.axis = a.axis ∧ s.stem = a.stem ∧ s.fmt = a.fmt ∧
        ∀ name, '\n' ∉ name → (s.match name = true ↔ Selects caseSensitive a.pattern name)) as
        (parseSignals caseSensitive args) := by
  obtain ⟨as, h1, h2⟩ := parseSignals_means caseSensitive args
  refine ⟨as, h1, fun bs hb => means_unique hb h1, ?_⟩
  rw [h2, List.forall₂_map_right_iff, List.forall₂_same]
  exact fun a _ => ⟨rfl, rfl, rfl, rfl, fun name hn => match_iff hn⟩

/-- The command shows the samples of the log: for every argument, and every signal with samples that
is to be drawn for it, a curve with exactly the values of the frames of the log from `--start` to
`--stop`, in their order, at the places given by their time stamps. -/
theorem C55_picture {fo : FloatOps} {o : Plot.Options} {db : Db} {unit : Signal → Regex.Chars} {clock : Plot.Clock}
    (hs : SoundDb db) (hp : PlainNames db) {f : Format} {lines : List Regex.Chars} {items : List Spec.Plot.Item}
    (hr : List.Forall₂ (Reads f) lines items) {pic : Picture} (h : Plot.run fo o db unit clock lines = .ok pic) :
    ∃ as entries, Means o.signals as ∧ LogEntries o clock items entries ∧ Spec.Plot.Shows fo o db unit entries as pic := by
  obtain ⟨as, h1, h2⟩ := parseSignals_means o.caseSensitive o.signals
  unfold Plot.run at h
  obtain ⟨st, hst, h⟩ := bind_ok_iff.1 h
  obtain ⟨⟨l, w⟩, hd, h⟩ := bind_ok_iff.1 h
  injection h with h
  obtain ⟨entries, he, hh⟩ := (loop_log hr).1 st hst
  rw [h2] at hd hh
  refine ⟨as, entries, h1, he, ?_⟩
  rw [← h]
  refine picture_shows (means_ne h1) (fun n hn => ?_) hh hd
  obtain ⟨e, hm, m, hb, s, hsm, rfl⟩ := sample_name hs hn
  obtain ⟨p1, p2⟩ := hp e hm
  simp only [List.mem_append, List.mem_cons, not_or]
  exact ⟨p1, by decide, p2 m hb s hsm⟩

/-- The command succeeds if the time stamps and the bounds can be read and signals can be found by
their names. -/
theorem C55_success {fo : FloatOps} {o : Plot.Options} {db : Db} {unit : Signal → Regex.Chars} {clock : Plot.Clock}
    (hs : SoundDb db) (hp : PlainNames db) (hf : Findable db) {f : Format} {lines : List Regex.Chars} {items : List Spec.Plot.Item}
    (hr : List.Forall₂ (Reads f) lines items) (ht : Timed clock (axisFor o clock items) items) (hb : Bounded o clock items) :
    ∃ pic, Plot.run fo o db unit clock lines = .ok pic ∧
      ∃ as entries, Means o.signals as ∧ LogEntries o clock items entries ∧ Spec.Plot.Shows fo o db unit entries as pic := by
  have key : ∃ pic, Plot.run fo o db unit clock lines = .ok pic := by
    obtain ⟨as, h1, h2⟩ := parseSignals_means o.caseSensitive o.signals
    obtain ⟨l1, l2⟩ := loop_log (fo := fo) (o := o) (db := db) (sgs := parseSignals o.caseSensitive o.signals) hr
    obtain ⟨st, hst⟩ := l2 ht hb
    obtain ⟨entries, he, hh⟩ := l1 st hst
    have hl : ∀ n ∈ sortedNames st.plotter.graphs, ∃ l, labelOf o db unit n = .ok l := by
      intro n hn
      have hm : n ∈ st.plotter.graphs.map (·.1) := (sorted_perm _).mem_iff.1 hn
      have hsam : samples fo o db entries n ≠ [] := by
        rw [samples_eq]
        intro h0
        have := hh.tracks.get n
        rw [if_neg (by simp [h0]), dictGet?_eq_none_iff] at this
        exact this hm
      obtain ⟨e, hmem, m, hb, s, hsm, rfl⟩ := sample_name hs hsam
      obtain ⟨f1, f2, f3⟩ := hf e hmem
      exact label_total f1 (f3 m hb s hsm) (by rw [String.ofList_toList]; exact f2) hb hsm rfl
    obtain ⟨r, hr⟩ := drawAll_total (o := o) (db := db) (unit := unit) (graphs := st.plotter.graphs) hl
      (sgs := parseSignals o.caseSensitive o.signals) (plotted := [])
    exact ⟨_, bind_ok_iff.2 ⟨st, hst, bind_ok_iff.2 ⟨r, hr, rfl⟩⟩⟩
  obtain ⟨pic, h⟩ := key
  exact ⟨pic, h, C55_picture hs hp hr h⟩

namespace PlotExample
open Example

/-- Numbers without sign and fraction are read. -/
def number (t : Regex.Chars) : Option Rat :=
  if t.all (fun c => Regex.isDigit c || c == '.') then
    some ((t.takeWhile (· ≠ '.')).foldl (fun n c => n * 10 + (c.toNat - 48)) 0 : Nat)
  else none

def clock : Plot.Clock :=
  { date := fun _ => none, float := number, fromSeconds := some, userRelative := number, userAbsolute := fun t x => (number t).map (x + ·)
    int := number }

def db : Db := ({ messages := [⟨"Msg", 0x123, false, .inl msg, true⟩] } : Db).refresh.1

theorem byId : db.byId = [(0x123, ⟨"Msg", 0x123, false, .inl msg, true⟩)] := rfl

theorem sound : SoundDb db := by
  intro e h
  rw [byId] at h
  simp only [List.mem_cons, List.not_mem_nil, or_false] at h
  subst h
  exact ⟨_, _, _, _, _, _, nodup, built, plain, msg_ok⟩

theorem names : ∀ s ∈ msg.signals, '\n' ∉ s.name.toList ∧ '.' ∉ s.name.toList := by decide +kernel

theorem plainNames : PlainNames db := by
  intro e h
  rw [byId] at h
  simp only [List.mem_cons, List.not_mem_nil, or_false] at h
  subst h
  exact ⟨by decide +kernel, fun m hm s hs => by injection hm with hm; subst hm; exact (names s hs).1⟩

theorem findable : Findable db := by
  intro e h
  rw [byId] at h
  simp only [List.mem_cons, List.not_mem_nil, or_false] at h
  subst h
  exact ⟨by decide +kernel, rfl, fun m hm s hs => by injection hm with hm; subst hm; exact (names s hs).2⟩

/-- A line of `candump -l`. -/
def logLine (seconds : String) (data : Bytes) : Spec.Plot.LogLine :=
  { seconds := seconds.toList, fraction := ['0'], channel := "can2".toList, ext := false, id := 0x123, data := data
    direction := none, gaps := fun _ => 0 }

theorem logLine_valid {seconds : String} (h : Spec.LogReader.Digits seconds.toList) (data : Bytes) : (logLine seconds data).Valid :=
  have f : Spec.LogReader.Digits ['0'] := ⟨by decide, by decide⟩
  have c : Spec.LogReader.Word "can2".toList ∧ '[' ∉ "can2".toList := ⟨⟨by decide +kernel, by decide +kernel⟩, by decide +kernel⟩
  have i : (0x123 : Nat) < 2 ^ 11 := by decide
  ⟨h, f, c, i⟩

theorem digits (n : String) (h : n.toList ≠ []) (h' : ∀ c ∈ n.toList, Regex.isDigit c = true) : Spec.LogReader.Digits n.toList := ⟨h, h'⟩

def lines : List Regex.Chars :=
  [(logLine "3" [0x91, 0xa5, 0xaf, 0xc5]).text ++ ['\n'], "!comment".toList ++ ['\n'], ['\n'],
    (logLine "7" [0x91, 0xa5, 0xaf, 0xc5]).text ++ ['\n'], (logLine "9" [0x91]).text ++ ['\n'],
    (logLine "400" [0x92, 0xa5, 0xaf, 0xc5]).text ++ ['\n']]

def items : List Spec.Plot.Item :=
  [.frame (some "3.0".toList) 0x123 [0x91, 0xa5, 0xaf, 0xc5], .junk "!comment".toList, .skip,
    .frame (some "7.0".toList) 0x123 [0x91, 0xa5, 0xaf, 0xc5], .frame (some "9.0".toList) 0x123 [0x91],
    .frame (some "400.0".toList) 0x123 [0x92, 0xa5, 0xaf, 0xc5]]

theorem newline : Eol ['\n'] := by
  intro c hc
  rw [List.mem_singleton] at hc
  exact .inr hc

theorem reads : List.Forall₂ (Reads .candumpLog) lines items := by
  refine .cons (.log (logLine_valid (digits _ (by decide +kernel) (by decide +kernel)) _) newline) (.cons ?_ (.cons (.blank newline)
    (.cons (.log (logLine_valid (digits _ (by decide +kernel) (by decide +kernel)) _) newline)
    (.cons (.log (logLine_valid (digits _ (by decide +kernel) (by decide +kernel)) _) newline)
    (.cons (.log (logLine_valid (digits _ (by decide +kernel) (by decide +kernel)) _) newline) .nil)))))
  have e : "!comment".toList = '!' :: "comment".toList := by decide +kernel
  rw [e]
  exact .junk ⟨by decide +kernel, by decide +kernel⟩ (by decide) (by decide) (by decide +kernel) (by decide +kernel) (by decide +kernel) newline

example : lines[0]! = "(3.0) can2 123#91A5AFC5\n".toList := by decide +kernel

def unit (s : Signal) : Regex.Chars := if s.name = "P" then ['V'] else "None".toList

def options : Plot.Options := { signals := ["a".toList, ['-'], "Msg.P:|x".toList], start := some ['5'], decodeChoices := false }

theorem hx : axisFor options clock items = .seconds := by decide +kernel

theorem timed : Timed clock (axisFor options clock items) items := by
  rw [hx]
  intro t id data h n
  simp only [items, List.mem_cons, reduceCtorEq, List.not_mem_nil, or_false, Spec.Plot.Item.frame.injEq, false_or] at h
  rcases h with ⟨rfl, _, _⟩ | ⟨rfl, _, _⟩ | ⟨rfl, _, _⟩ | ⟨rfl, _, _⟩ <;>
  · dsimp only [Axis.at, clock]
    decide +kernel

theorem bounded : Bounded options clock items := by
  refine ⟨by decide, fun x _ => ⟨some 5, none, ⟨5, rfl, ?_⟩, rfl⟩⟩
  rw [hx]
  show number ['5'] = some 5
  decide +kernel

-- C55_success and C55_picture
example := C55_success (fo := fo) (unit := unit) sound plainNames findable reads timed bounded
/-- The frame before the start is left out, the line is interrupted where there is no frame for more
than 100 seconds, the frame that is too short is reported. -/
example : (Plot.run fo options db unit clock lines).map (fun p => (p.curves, p.printed)) = .ok
    ([⟨1, 0, false, [], "Msg.A [None]".toList, [(7, some (.num (-12)))]⟩,
      ⟨2, 0, true, ['x'], "Msg.P [V]".toList, [(7, some (.num 9)), (57, none), (400, some (.num 9))]⟩],
      [.syntax "!comment".toList, .invalid 0x123]) := by decide +kernel

end PlotExample

open PlotExample Example in
/-- The comment in the code says that a signal that has been drawn for a pattern is drawn again for an
argument that is its complete name.  It is not. -/
theorem C55_complete_name_partial :
    (Plot.run fo { signals := ["*A".toList, "Msg.A".toList], decodeChoices := false } db unit clock lines).map (fun p => p.curves) =
      .ok [⟨1, 0, false, [], "Msg.A [None]".toList,
        [(3, some (.num (-12))), (7, some (.num (-12)))]⟩] := by
  decide +kernel

open PlotExample Example in
/-- With line numbers on the axis, a start or a stop makes the command fail. -/
theorem C55_line_bounds_partial :
    Plot.run fo { signals := ["*".toList], lineNumbers := true, start := some ['2'] } db unit clock lines = .error .typeError ∧
    Plot.run fo { signals := ["*".toList], showSyntax := true, stop := some ['2'] } db unit clock lines = .error .typeError :=
  ⟨by decide +kernel, by decide +kernel⟩

open PlotExample Example in
/-- Half a byte in one line of the log makes the command fail, and nothing is shown of the others. -/
theorem C55_half_byte_partial :
    Plot.run fo { signals := ["*".toList] } db unit clock (lines ++ ["(500.0) can2 123#9\n".toList]) = .error .valueError := by
  decide +kernel

end Cantools
