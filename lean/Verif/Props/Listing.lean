import Verif.Lemmas.ListingEntry
import Verif.Lemmas.DbcHalves

/-
C64: the `list` command.
-/

namespace Cantools
open Spec Dbc Listing Spec.Listed

section
variable {F : Type} {T : FloatText F} {db db' : LDatabase F} {args : Args}

/-! ### What is told about a message -/

theorem C64_determines_partial (L : FloatLaws T) {specifics specifics' : Bool} {e e' : Entry F} (he : FineEntry T e)
    (he' : FineEntry T e') {lines lines' : List Line} (h : entryLines T specifics e = .ok lines)
    (h' : entryLines T specifics' e' = .ok lines') (same : output lines = output lines') : SameEntry T e e' := by
  have := lines_eq (oneLines_entry L he h) (oneLines_entry L he' h') same
  subst this
  exact sameEntry L he he' h h'

theorem core_eq {s s' : LSignal F} (h : SameSignal T s s') : s'.core T = s.core T := by
  unfold LSignal.core
  rw [h.name, h.start, h.length, h.byteOrder, h.isSigned, h.isFloat, h.scale, h.offset, h.minimum, h.maximum, h.choices,
    h.isMultiplexer, h.multiplexerIds, h.multiplexerSignal]

theorem C64_frames_partial {m m' : LMessage F} (h : Listed.SameMessage T m m') (hm : m.headerId = none) (pattern : UInt8)
    (strict : Bool) : Listed.messageOf T pattern strict m' = Listed.messageOf T pattern strict m := by
  have hs : m'.signals.map (·.core T) = m.signals.map (·.core T) := by
    have := h.signals
    generalize m.signals = l at this
    generalize m'.signals = l' at this
    induction this with
    | nil => rfl
    | cons e _ ih => rw [List.map_cons, List.map_cons, core_eq e, ih]
  obtain ⟨h1, h2, -⟩ := h.frame hm
  unfold Listed.messageOf
  rw [hs, h1, h2, h.name, h.length]

/-! ### There is a listing -/

theorem tree_succeeds {signals : List (LSignal F)} (h : (signals.map (·.name)).Nodup) : ∃ lines, treeLines T signals = .ok lines := by
  unfold treeLines
  split
  · exact ⟨_, rfl⟩
  · have hn : ((signals.map (·.core T)).map (·.name)).Nodup := by
      have : (signals.map (·.core T)).map (·.name) = (signals.map (·.name)).map String.ofList := by
        rw [List.map_map, List.map_map]
        rfl
      rw [this]
      exact h.map fun a b e => String.ofList_injective e
    have := createCodec_isSome hn (fuel := signals.length + 1) (π := []) .nil (by simp)
    obtain ⟨c, hc⟩ := Option.isSome_iff_exists.1 this
    have hc' : createCodec (signals.map (·.core T)) (signals.length + 1) none none = some c := hc
    unfold signalTree
    rw [hc']
    exact ⟨_, rfl⟩

theorem mapM_succeeds {α β : Type} {f : α → Except Err β} {l : List α} (h : ∀ a ∈ l, ∃ b, f a = .ok b) : ∃ r, l.mapM f = .ok r := by
  induction l with
  | nil => exact ⟨_, rfl⟩
  | cons a l ih =>
    obtain ⟨b, hb⟩ := h a (by simp)
    obtain ⟨r, hr⟩ := ih fun a ha => h a (by simp [ha])
    refine ⟨b :: r, ?_⟩
    rw [List.mapM_cons, hb, hr]
    rfl

theorem details_succeed {m : LMessage F} (h : Listable m) : ∃ lines, detailLines T m.signals = .ok lines := by
  unfold detailLines
  split
  · exact ⟨_, rfl⟩
  · obtain ⟨r, hr⟩ := mapM_succeeds (f := signalLines T m.signals) (l := m.signals) fun s hs => by
      have : ∃ l, selectorLines m.signals s = .ok l := by
        unfold selectorLines
        cases hm : s.multiplexerSignal with
        | none => exact ⟨_, rfl⟩
        | some n =>
          obtain ⟨s', hs', hn⟩ := h.2 s hs n hm
          cases hx : signalNamed m.signals n with
          | error _ =>
            unfold signalNamed at hx
            cases hf : m.signals.reverse.find? fun s => s.name = n with
            | none =>
              have := List.find?_eq_none.1 hf s' (List.mem_reverse.2 hs')
              exact absurd hn (by simpa using this)
            | some _ => rw [hf] at hx; cases hx
          | ok x =>
            dsimp only
            rw [hx]
            exact ⟨_, rfl⟩
      obtain ⟨l, hl⟩ := this
      unfold signalLines
      rw [hl]
      exact ⟨_, rfl⟩
    rw [hr]
    exact ⟨_, rfl⟩

theorem entry_succeeds {specifics : Bool} {e : Entry F} (h : Listable e.message)
    (hc : ∀ c ∈ e.contained, Listable c ∧ c.headerId ≠ none) : ∃ lines, entryLines T specifics e = .ok lines := by
  obtain ⟨tree, h1⟩ := tree_succeeds (T := T) h.1
  obtain ⟨details, h2⟩ := details_succeed (T := T) h
  have : ∃ l, containedLines T specifics e.contained = .ok l := by
    unfold containedLines
    split
    · exact ⟨_, rfl⟩
    · obtain ⟨names, h3⟩ := mapM_succeeds (f := containedLine) (l := e.contained) fun c hm => by
        unfold containedLine
        cases hh : c.headerId with
        | none => exact absurd hh (hc c hm).2
        | some i => exact ⟨_, rfl⟩
      obtain ⟨d, h4⟩ := mapM_succeeds (f := Listing.messageLines T specifics) (l := e.contained) fun c hm => by
        obtain ⟨t, h5⟩ := tree_succeeds (T := T) (hc c hm).1.1
        obtain ⟨d, h6⟩ := details_succeed (T := T) (hc c hm).1
        unfold Listing.messageLines
        rw [h5, h6]
        exact ⟨_, rfl⟩
      rw [h3, h4]
      exact ⟨_, rfl⟩
  obtain ⟨l, h3⟩ := this
  unfold entryLines
  rw [h1, h2, h3]
  exact ⟨_, rfl⟩

theorem C64_succeeds (h : ∀ e ∈ db.messages, Listable e.message ∧ ∀ c ∈ e.contained, Listable c ∧ c.headerId ≠ none) :
    ∃ lines, doList T (some db) args = .ok lines := by
  unfold doList
  dsimp only
  split
  · exact ⟨_, rfl⟩
  · split
    · exact ⟨_, rfl⟩
    · unfold listMessages
      dsimp only
      generalize (if args.printAll = true then sortTexts (args.items ++ Listing.messageNames db args) else args.items) = names
      split
      · exact ⟨_, rfl⟩
      · obtain ⟨r, hr⟩ := mapM_succeeds (f := itemLines T db (!args.skipSpecifics)) (l := names) fun n _ => by
          unfold itemLines
          cases hm : messageNamed db n with
          | none => exact ⟨_, rfl⟩
          | some e =>
            obtain ⟨b, a, h1, -⟩ := lastNamed_iff.1 hm
            have he := h e (by rw [h1]; simp)
            exact entry_succeeds he.1 he.2
        rw [hr]
        exact ⟨_, rfl⟩

/-! ### Which messages are listed -/

theorem C64_names (hb : args.printBuses = false) (hn : args.printNodes = false) (ha : args.printAll = false)
    (hi : args.items = []) : ∃ names, doList T (some db) args = .ok names ∧ Sorted names ∧
      names.Perm ((db.messages.filter fun e => decide (Included args e)).map (·.message.name)) := by
  refine ⟨sortTexts (messageNames db args), ?_, sortTexts_sorted _, ?_⟩
  · simp [doList, hb, hn, listMessages, ha, hi]
  · rw [← messageNames_eq]
    exact sortTexts_perm _

theorem shown_of {names : List Chars} {lines : List Line} (hn : names ≠ [])
    (h : (if names = [] then .ok (sortTexts (messageNames db args))
      else do
        let lines ← names.mapM (itemLines T db (!args.skipSpecifics))
        return lines.flatten : Except Err (List Line)) = .ok lines) :
    ∃ blocks, List.Forall₂ (ItemShown T db (!args.skipSpecifics)) names blocks ∧ lines = blocks.flatten := by
  rw [if_neg hn] at h
  obtain ⟨blocks, h1, h2⟩ := bind_ok_iff.1 h
  cases h2
  exact ⟨blocks, (mapM_ok h1).imp fun _ _ h => itemShown_iff.1 h, rfl⟩

theorem C64_items (hb : args.printBuses = false) (hn : args.printNodes = false) (ha : args.printAll = false)
    (hi : args.items ≠ []) {lines : List Line} (h : doList T (some db) args = .ok lines) :
    ∃ blocks, List.Forall₂ (ItemShown T db (!args.skipSpecifics)) args.items blocks ∧ lines = blocks.flatten := by
  simp only [doList, hb, hn, Bool.false_eq_true, if_false, listMessages, ha] at h
  exact shown_of hi h

theorem C64_all_items (hb : args.printBuses = false) (hn : args.printNodes = false) (ha : args.printAll = true)
    {lines : List Line} (h : doList T (some db) args = .ok lines) :
    ∃ names blocks, Sorted names ∧
      names.Perm (args.items ++ (db.messages.filter fun e => decide (Included args e)).map (·.message.name)) ∧
      List.Forall₂ (ItemShown T db (!args.skipSpecifics)) names blocks ∧ lines = blocks.flatten := by
  simp only [doList, hb, hn, Bool.false_eq_true, if_false, listMessages, ha, if_true] at h
  refine ⟨sortTexts (args.items ++ messageNames db args), ?_⟩
  have hp := sortTexts_perm (args.items ++ messageNames db args)
  by_cases he : sortTexts (args.items ++ messageNames db args) = []
  · have he' := sortTexts_nil.1 he
    rw [if_pos he, (List.append_eq_nil_iff.1 he').2] at h
    cases h
    exact ⟨[], sortTexts_sorted _, messageNames_eq db args ▸ hp, by rw [he]; exact .nil, rfl⟩
  · obtain ⟨blocks, h1, h2⟩ := shown_of he h
    exact ⟨blocks, sortTexts_sorted _, messageNames_eq db args ▸ hp, h1, h2⟩

/-! ### The whole database -/

/-- The messages of `list --all`, if all have different names. -/
theorem all_blocks (hb : args.printBuses = false) (hn : args.printNodes = false) (ha : args.printAll = true)
    (hi : args.items = []) (hu : (db.messages.map (·.message.name)).Nodup) {lines : List Line}
    (h : doList T (some db) args = .ok lines) :
    ∃ es ls, es.Perm (db.messages.filter fun e => decide (Included args e)) ∧
      List.Forall₂ (fun e l => entryLines T (!args.skipSpecifics) e = .ok l) es ls ∧ lines = ls.flatten := by
  obtain ⟨names, blocks, -, h1, h2, rfl⟩ := C64_all_items hb hn ha h
  rw [hi, List.nil_append] at h1
  refine ⟨names.filterMap (messageNamed db), blocks, ?_, ?_, rfl⟩
  · refine (h1.filterMap (messageNamed db)).trans ?_
    rw [List.filterMap_map]
    refine List.Perm.of_eq ?_
    have : ∀ l : List (Entry F), (∀ e ∈ l, e ∈ db.messages) → l.filterMap (messageNamed db ∘ fun e => e.message.name) = l := by
      intro l hl
      induction l with
      | nil => rfl
      | cons e l ih =>
        have : (messageNamed db ∘ fun e => e.message.name) e = some e := messageNamed_unique hu (hl e (by simp))
        rw [List.filterMap_cons_some (b := e) this, ih fun e he => hl e (by simp [he])]
    exact this _ fun e he => (List.mem_filter.1 he).1
  · have hmem : ∀ n ∈ names, ∃ e ∈ db.messages, e.message.name = n := fun n hn => by
      obtain ⟨e, he, rfl⟩ := List.mem_map.1 (h1.mem_iff.1 hn)
      exact ⟨e, (List.mem_filter.1 he).1, rfl⟩
    clear h1 h
    induction h2 with
    | nil => exact .nil
    | @cons n b ns bs e _ ih =>
      obtain ⟨x, hx, hxn⟩ := hmem n (by simp)
      rcases e with ⟨y, hy, e⟩ | ⟨hno, -⟩
      · rw [List.filterMap_cons_some (lastNamed_iff.2 hy)]
        exact .cons e (ih fun n hn => hmem n (by simp [hn]))
      · exact absurd hxn (hno x hx)

theorem C64_all_partial (L : FloatLaws T) (hb : args.printBuses = false) (hn : args.printNodes = false)
    (ha : args.printAll = true) (hi : args.items = []) (fine : ∀ e ∈ db.messages, FineEntry T e)
    (fine' : ∀ e ∈ db'.messages, FineEntry T e) (hu : (db.messages.map (·.message.name)).Nodup)
    (hu' : (db'.messages.map (·.message.name)).Nodup) {lines lines' : List Line}
    (h : doList T (some db) args = .ok lines) (h' : doList T (some db') args = .ok lines')
    (same : output lines = output lines') :
    ∃ es es', es.Perm (db.messages.filter fun e => decide (Included args e)) ∧
      es'.Perm (db'.messages.filter fun e => decide (Included args e)) ∧ List.Forall₂ (SameEntry T) es es' := by
  obtain ⟨es, ls, p, f, rfl⟩ := all_blocks hb hn ha hi hu h
  obtain ⟨es', ls', p', f', rfl⟩ := all_blocks hb hn ha hi hu' h'
  have hf : ∀ e ∈ es, FineEntry T e := fun e he => fine e (List.mem_filter.1 (p.mem_iff.1 he)).1
  have hf' : ∀ e ∈ es', FineEntry T e := fun e he => fine' e (List.mem_filter.1 (p'.mem_iff.1 he)).1
  have one : ∀ {es : List (Entry F)} {ls : List (List Line)}, (∀ e ∈ es, FineEntry T e) →
      List.Forall₂ (fun e l => entryLines T (!args.skipSpecifics) e = .ok l) es ls → ∀ l ∈ ls.flatten, '\n' ∉ l := by
    intro es ls hf f l hl
    obtain ⟨b, hb, hl⟩ := List.mem_flatten.1 hl
    obtain ⟨e, he, h⟩ := forall₂_partner' f hb
    exact oneLines_entry L (hf e he) h l hl
  exact ⟨es, es', p, p', entries_split L hf hf' f f' (lines_eq (one hf f) (one hf' f') same)⟩

/-! ### Buses and nodes -/

theorem C64_buses (hb : args.printBuses = true) :
    ∃ lines, doList T (some db) args = .ok lines ∧
      lines = (db.buses.filter fun b => decide (args.items = [] ∨ b.name ∈ args.items)).flatMap busLines := by
  refine ⟨listBuses db args, by simp only [doList, hb, if_true], ?_⟩
  unfold listBuses
  congr 1
  apply List.filter_congr
  intro b _
  cases args.items <;> simp

theorem C64_nodes (hb : args.printBuses = false) (hn : args.printNodes = true) :
    ∃ lines, doList T (some db) args = .ok lines ∧
      lines = (db.nodes.filter fun n => decide (args.items = [] ∨ n.name ∈ args.items)).flatMap nodeLines := by
  refine ⟨listNodes db args, by simp only [doList, hb, hn, if_true, Bool.false_eq_true, if_false], ?_⟩
  unfold listNodes
  congr 1
  apply List.filter_congr
  intro n _
  cases args.items <;> simp

/-- What is told about a bus. -/
theorem C64_bus_determines_partial {b b' : LBus} (hb : OneLine b.name ∧ FineComments (b.comments.getD []))
    (hb' : OneLine b'.name ∧ FineComments (b'.comments.getD [])) (same : output (busLines b) = output (busLines b')) :
    b'.name = b.name ∧ b'.comments.getD [] = b.comments.getD [] ∧ b'.baudrate = b.baudrate ∧ b'.fdBaudrate = b.fdBaudrate :=
  bus_determines hb hb' same

end

/-! ### A database that meets the hypotheses -/

namespace Listing.Example

def mode : LSignal Int :=
  { name := "Mode".toList, start := 0, length := 4, isMultiplexer := true, receivers := ["Rear".toList, "Front".toList],
    comments := some [("EN".toList, "What follows".toList)],
    choices := some [(0, { name := "Off".toList, comments := [("DE".toList, "Aus".toList)] }), (1, { name := "On".toList })],
    initial := some (.name "Off".toList) }

def speed : LSignal Int :=
  { name := "Speed".toList, start := 8, length := 8, isSigned := true, scale := .float 1, offset := .int 3,
    minimum := some (.int 0), maximum := some (.float 21), unit := some "m/s".toList, multiplexerIds := some [1, 3],
    multiplexerSignal := some "Mode".toList, initial := some (.num (.int 4)) }

def level : LSignal Int :=
  { name := "Level".toList, start := 15, length := 8, byteOrder := .big, multiplexerIds := some [0],
    multiplexerSignal := some "Mode".toList }

def motion : LMessage Int :=
  { frameId := 0x123, name := "Motion".toList, length := 3, signals := [mode, speed, level],
    comments := some [("None".toList, "How it moves".toList)], senders := ["Front".toList], cycleTime := some (.float 5),
    busName := some "Body".toList,
    autosar := some { e2e := some { category := some "PROFILE_02".toList, dataIds := some [4, 5], payloadLength := 16 },
                      secoc := some { dataId := some 3 } } }

def inner : LMessage Int :=
  { frameId := 0x200, name := "Inner".toList, length := 1, headerId := some 0x77, signals := [{ name := "S".toList, start := 0, length := 8 }] }

def outer : Entry Int :=
  { message := { frameId := 0x200, name := "Outer".toList, length := 64, isFd := true }, contained := [inner] }

/-- A message with a multiplexer, and a message that contains a message. -/
def db : LDatabase Int := { messages := [{ message := motion }, outer], buses := [{ name := "Body".toList, baudrate := some 500000 }] }

instance (t : Chars) : Decidable (Word t) := inferInstanceAs (Decidable (_ ∧ _))
instance (l : List Chars) : Decidable (Separable l) := inferInstanceAs (Decidable (∀ t ∈ l, OneLine t ∧ ',' ∉ t))
instance (l : Listing.Comments) : Decidable (FineComments l) :=
  inferInstanceAs (Decidable (∀ c ∈ l, OneLine c.1 ∧ ']' ∉ c.1 ∧ OneLine c.2))

theorem no_number {t : Chars} (h : ∃ c ∈ t, c ≠ '-' ∧ isDigit c = false) (i : Int) : t ≠ intText i := by
  rintro rfl
  obtain ⟨c, hc, h1, h2⟩ := h
  rcases intText_chars hc with e | e
  · exact h1 e
  · rw [h2] at e
    cases e

theorem fine_plain {signals : List (LSignal Int)} {s : LSignal Int} (h1 : Word s.name) (h2 : FineComments (s.comments.getD []))
    (h3 : OneLine (s.unit.getD [])) (h4 : Separable s.receivers) (h5 : s.choices = none) (h6 : s.initial = none ∨ ∃ n, s.initial = some (.num n))
    (h7 : s.invalid = none) (h8 : s.scale.value halves = 1 ∨ 1 + 1 / 10 ^ 10 < s.scale.value halves ∨ s.scale.value halves < 1 - 1 / 10 ^ 10)
    (h9 : s.multiplexerIds = none ↔ s.multiplexerSignal = none) (h10 : s.multiplexerIds ≠ some []) (h11 : s.isMultiplexer = false)
    (h12 : ∀ s' ∈ signals, s'.multiplexerSignal ≠ some s.name) : FineSignal halves signals s where
  name := h1
  comments := h2
  unit := h3
  receivers := h4
  choices := by rw [h5]; decide
  choiceNames := by rw [h5]; intro e he; cases he
  initial := by rcases h6 with h | ⟨n, h⟩ <;> rw [h] <;> trivial
  invalid := by rw [h7]; trivial
  scale := h8
  muxed := h9
  some_id := h10
  multiplexer := by rw [h11]; exact ⟨fun h => (by cases h), fun ⟨s', hs, e⟩ => absurd e (h12 s' hs)⟩
  selector := by rw [h11]; intro h; cases h

theorem fine_motion : FineMessage halves motion where
  name := by decide +kernel
  comments := by decide +kernel
  busName := by decide +kernel
  senders := by decide +kernel
  autosar a h := by
    cases h
    exact ⟨fun e h => by cases h; exact (by decide +kernel : OneLine "PROFILE_02".toList), fun s h => by cases h; exact ⟨trivial, trivial⟩⟩
  names := by decide +kernel
  signals s hs := by
    simp only [motion, List.mem_cons, List.not_mem_nil, or_false] at hs
    rcases hs with rfl | rfl | rfl
    · exact {
        name := by decide +kernel
        comments := by decide +kernel
        unit := by decide +kernel
        receivers := by decide +kernel
        choices := by decide +kernel
        choiceNames := by decide +kernel
        initial := (by decide +kernel : OneLine "Off".toList)
        invalid := trivial
        scale := by decide +kernel
        muxed := by decide +kernel
        some_id := by decide +kernel
        multiplexer := ⟨fun _ => ⟨speed, by decide +kernel, rfl⟩, fun _ => rfl⟩
        selector := fun _ => ⟨by decide +kernel, fun e he =>
          ⟨(by decide +kernel : ∀ e ∈ mode.choices.getD [], ',' ∉ e.2.name) e he,
            no_number ((by decide +kernel : ∀ e ∈ mode.choices.getD [], ∃ c ∈ e.2.name, c ≠ '-' ∧ isDigit c = false) e he)⟩⟩ }
    · exact fine_plain (by decide +kernel) (by decide +kernel) (by decide +kernel) (by decide +kernel) rfl (.inr ⟨_, rfl⟩) rfl
        (by decide +kernel) (by decide +kernel) (by decide +kernel) rfl (by decide +kernel)
    · exact fine_plain (by decide +kernel) (by decide +kernel) (by decide +kernel) (by decide +kernel) rfl (.inl rfl) rfl
        (by decide +kernel) (by decide +kernel) (by decide +kernel) rfl (by decide +kernel)

theorem fine_outer : FineEntry halves outer where
  message := ⟨by decide +kernel, by decide +kernel, by decide +kernel, by decide +kernel, fun _ h => (by cases h),
    by decide +kernel, fun _ h => (by cases h)⟩
  contained m hm := by
    rw [List.mem_singleton.1 hm]
    exact ⟨by decide +kernel, by decide +kernel, by decide +kernel, by decide +kernel, fun _ h => (by cases h),
      by decide +kernel, fun s hs => by
        rw [List.mem_singleton.1 hs]
        exact fine_plain (by decide +kernel) (by decide +kernel) (by decide +kernel) (by decide +kernel) rfl (.inl rfl) rfl
          (by decide +kernel) (by decide +kernel) (by decide +kernel) rfl (by decide +kernel)⟩
  signals _ := rfl

theorem fine_db : ∀ e ∈ db.messages, FineEntry halves e := by
  intro e he
  simp only [db, List.mem_cons, List.not_mem_nil, or_false] at he
  rcases he with rfl | rfl
  · exact ⟨fine_motion, fun _ h => (by cases h), fun h => absurd rfl h⟩
  · exact fine_outer

def all : Args := { printAll := true }

/-- The text that is written. -/
def text (db : LDatabase Int) (args : Args) : Except Err Chars := (doList halves (some db) args).map output

example : (doList halves (some db) {}).map (·.map String.ofList) = .ok ["Motion", "Outer"] := by decide +kernel

/-- What is written. -/
example : (doList halves (some db) { items := ["Motion".toList, "X".toList] }).map (·.map String.ofList) = .ok
    ["Motion:", "  Comment[None]: How it moves", "  Bus: Body", "  Sending ECUs: Front", "  Frame ID: 0x123 (291)",
     "  Size: 3 bytes", "  Is extended frame: False", "  Is CAN-FD frame: False", "  Cycle time: 2.5 ms",
     "  Is network management frame: False", "  End-to-end properties:", "    Category: PROFILE_02", "    Data IDs: [4, 5]",
     "    Protected size: 16 bytes", "  Is secured: True", "  Security properties:", "    Authentication algorithm: None",
     "    Freshness algorithm: None", "    Data ID: 3", "    Authentication transmit bits: None",
     "    Freshness counter size: None bits", "    Freshness counter transmit size: None bits", "    Secured size: None bytes",
     "  Signal tree:", "", "    -- {root}", "       +-- Mode", "           +-- Off (0)", "           |   +-- Level",
     "           +-- On (1)", "           |   +-- Speed", "           +-- 3", "               +-- Speed", "",
     "  Signal details:", "    Mode:", "      Comment[EN]: What follows", "      Receiving ECUs: Front, Rear",
     "      Internal type: Multiplex Selector", "      Start bit: 0", "      Length: 4 bits", "      Byte order: little_endian",
     "      Initial value: Off", "      Is signed: False", "      Named values:", "        0: Off",
     "          Comment[DE]: Aus", "        1: On",
     "    Speed:", "      Internal type: Integer", "      Selector signal: Mode", "      Selector values: On, 3",
     "      Start bit: 8", "      Length: 8 bits", "      Byte order: little_endian", "      Unit: m/s", "      Initial value: 4 m/s",
     "      Is signed: True", "      Minimum: 0 m/s", "      Maximum: 10.5 m/s", "      Offset: 3 m/s",
     "      Scaling factor: 0.5 m/s",
     "    Level:", "      Internal type: Integer", "      Selector signal: Mode", "      Selector values: Off", "      Start bit: 15",
     "      Length: 8 bits", "      Byte order: big_endian", "      Is signed: False",
     "No message named \"X\" has been found in input file."] := by decide +kernel

example : (doList halves (some db) { items := ["Outer".toList] }).map (·.map String.ofList) = .ok
    ["Outer:", "  Frame ID: 0x200 (512)", "  Maximum Size: 64 bytes", "  Is extended frame: False", "  Is CAN-FD frame: True",
     "  Potentially contained messages:", "", "    Inner (0x77)", "", "  Potentially contained message details:",
     "    Inner:", "      Header ID: 0x77 (119)", "      Size: 1 bytes", "      Signal tree:", "", "        -- {root}",
     "           +-- S", "", "      Signal details:", "        S:", "          Internal type: Integer", "          Start bit: 0",
     "          Length: 8 bits", "          Byte order: little_endian", "          Is signed: False"] := by decide +kernel

/-- Everything is listed; a database with other messages is listed in another way. -/
example : ∃ lines, doList halves (some db) all = .ok lines :=
  C64_succeeds fun e he => ⟨⟨(fine_db e he).message.names, by
    revert e
    decide +kernel⟩, fun c hc => ⟨⟨((fine_db e he).contained c hc).names, by
      revert c e
      decide +kernel⟩, by
      revert c e
      decide +kernel⟩⟩

example {db' : LDatabase Int} (fine' : ∀ e ∈ db'.messages, FineEntry halves e) (hu' : (db'.messages.map (·.message.name)).Nodup)
    {lines lines' : List Line} (h : doList halves (some db) all = .ok lines) (h' : doList halves (some db') all = .ok lines')
    (same : output lines = output lines') :=
  C64_all_partial halves_laws (db := db) rfl rfl rfl rfl fine_db fine' (by decide +kernel) hu' h h' same

example {e' : Entry Int} (he' : FineEntry halves e') {lines lines' : List Line} (h : entryLines halves true outer = .ok lines)
    (h' : entryLines halves false e' = .ok lines') (same : output lines = output lines') : SameEntry halves outer e' :=
  C64_determines_partial halves_laws fine_outer he' h h' same

example {m' : LMessage Int} (h : Listed.SameMessage halves motion m') :
    ∃ msg, Listed.messageOf halves 0xff true m' = .ok msg ∧ msg.signals.length = 3 := by
  rw [C64_frames_partial h rfl]
  have : ((Listed.messageOf halves 0xff true motion).map fun msg => msg.signals.length) = .ok 3 := by decide +kernel
  cases hm : Listed.messageOf halves 0xff true motion with
  | error e => rw [hm] at this; cases this
  | ok msg =>
    rw [hm] at this
    exact ⟨msg, rfl, by injection this⟩

example := C64_names (T := halves) (db := db) (args := { excludeExtended := true }) rfl rfl rfl rfl
example {lines : List Line} (h : doList halves (some db) { items := ["Motion".toList, "X".toList] } = .ok lines) :=
  C64_items rfl rfl rfl (by decide +kernel) h
example {lines : List Line} (h : doList halves (some db) all = .ok lines) := C64_all_items rfl rfl rfl h
example : (doList halves (some db) { printBuses := true }).map (·.map String.ofList) =
    .ok ["Body:", "  Baudrate: 500000", "  CAN-FD enabled: False"] := by decide +kernel
example := C64_buses (T := halves) (db := db) (args := { printBuses := true, items := ["Body".toList] }) rfl
example := C64_nodes (T := halves) (db := db) (args := { printNodes := true }) rfl rfl
example {b : LBus} := C64_bus_determines_partial (b := { name := "Body".toList, baudrate := some 500000 }) (b' := b)
  ⟨by decide +kernel, by decide +kernel⟩

/-! ### What cannot be told -/

def plain : LMessage Int := { frameId := 1, name := "M".toList, length := 1 }

/-- Several lines of a comment look like other properties. -/
theorem C64_comment_fails : ∃ m m' : LMessage Int, m.busName ≠ m'.busName ∧
    text { messages := [{ message := m }] } all = text { messages := [{ message := m' }] } all :=
  ⟨{ plain with comments := some [("None".toList, "x\n  Bus: B".toList)] },
   { plain with comments := some [("None".toList, "x".toList)], busName := some "B".toList },
   by decide +kernel, by decide +kernel⟩

/-- Of two messages with the same name, the last one is listed twice. -/
theorem C64_same_name_fails : ∃ m m' m'' : LMessage Int, m.frameId ≠ m''.frameId ∧
    text { messages := [{ message := m }, { message := m' }] } all = text { messages := [{ message := m'' }, { message := m' }] } all :=
  ⟨plain, { plain with frameId := 2 }, { plain with frameId := 3 }, by decide +kernel, by decide +kernel⟩

/-- The frame id of a message with a header id is not listed. -/
theorem C64_header_fails : ∃ m m' : LMessage Int, m.frameId ≠ m'.frameId ∧
    text { messages := [{ message := m }] } all = text { messages := [{ message := m' }] } all :=
  ⟨{ plain with headerId := some 7 }, { plain with headerId := some 7, frameId := 2 }, by decide +kernel, by decide +kernel⟩

/-- A message whose selector is missing cannot be listed. -/
theorem C64_selector_fails : ∃ m : LMessage Int, text { messages := [{ message := m }] } all = .error .keyError :=
  ⟨{ plain with signals := [{ level with start := 7 }] }, by decide +kernel⟩

/-- A scaling factor that is very close to one is not listed. -/
theorem C64_scale_fails {F : Type} {T : FloatText F} {f : F} (h1 : T.value f ≠ 1) (h2 : 1 - 1 / 10 ^ 10 ≤ T.value f)
    (h3 : T.value f ≤ 1 + 1 / 10 ^ 10) : ∃ s s' : LSignal F, s.scale.value T ≠ s'.scale.value T ∧
      signalLines T [s] s = signalLines T [s'] s' := by
  refine ⟨{ name := "S".toList, start := 0, length := 8, scale := .float f }, { name := "S".toList, start := 0, length := 8 }, ?_, ?_⟩
  · simpa [Num.value] using h1
  · have : scaled T ({ name := "S".toList, start := 0, length := 8, scale := .float f } : LSignal F) =
        scaled T ({ name := "S".toList, start := 0, length := 8 } : LSignal F) := by
      unfold scaled
      have a : decide (1 + 1 / 10 ^ 10 < T.value f) = false := decide_eq_false (not_lt.2 h3)
      have b : decide (T.value f < 1 - 1 / 10 ^ 10) = false := decide_eq_false (not_lt.2 h2)
      show (_ || (decide (1 + 1 / 10 ^ 10 < T.value f) || decide (T.value f < 1 - 1 / 10 ^ 10))) = _
      rw [a, b]
      simp [Num.value]
    unfold signalLines scalingLines
    rw [this]
    have n : scaled T ({ name := "S".toList, start := 0, length := 8 } : LSignal F) = false := by
      simp [scaled, Num.value]
    rw [n]
    rfl

end Listing.Example
end Cantools
