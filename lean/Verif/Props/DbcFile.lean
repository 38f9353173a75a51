import Verif.Lemmas.DbcHalves
import Verif.Props.LayoutIds

/-
C45: a DBC file keeps the database.
-/

namespace Cantools
open Spec Dbc

section

variable {F : Type} {T : FloatText F} {db : DDatabase F} {shorten strict : Bool}

theorem constructible_of_create (W : WritableDatabase T db)
    (C : ∀ m ∈ db.messages, ∃ pattern msg, messageOf T pattern strict m = .ok msg) : Constructible T strict db := by
  intro m hm
  obtain ⟨pat, msg, h⟩ := C m hm
  have hnd := (W.messages m hm).muxed.nodup
  constructor
  · have := (create_ok_iff.1 h).2.1
    intro s hs
    exact this (s.core T) ((default_perm _).mem_iff.2 (List.mem_map_of_mem hs))
  · rintro rfl
    exact ((C05_strict_check_iff hnd (default_perm _)).1.1 ⟨msg, h⟩).2.2

theorem frameId_bounds {i : Int} {ext : Bool} (h : ValidFrameId i ext) :
    -(2 ^ (if ext then 29 else 11)) < i ∧ i < 2 ^ (if ext then 29 else 11) := by
  refine ⟨lt_of_lt_of_le ?_ h.1, h.2⟩
  cases ext <;> decide

/-- C45: the text that is written for a database can be read, strictly or not as its messages were
constructed, and gives a database with the same contents: names (long ones too, if they are shortened),
frame ids, layout, scaling, limits, units, value tables, multiplexing, senders and receivers, comments,
initial values, cycle times, frame formats, signal groups, attributes with their definitions, nodes,
buses, environment variables and value tables. -/
theorem C45_round_trip (L : FloatLaws T) {U : Unicode} (hU : UnicodeLaws U) (W : WritableDatabase T db)
    (K : shorten = true → KeptNames db)
    (C : ∀ m ∈ db.messages, ∃ pattern msg, messageOf T pattern strict m = .ok msg)
    {sort sortAttrs : List (DSignal F) → List (DSignal F)} (hs : ∀ l, (sort l).Perm l)
    (hsa : ∀ l, (sortAttrs l).Perm l) :
    ∃ text, dumpString U T sort sortAttrs shorten db = .ok text ∧
      ∃ db', loadString T strict text = .ok db' ∧ SameDatabase T db db' :=
  round_trip L hU W K (constructible_of_create W C) hs hsa

/-- C45: the messages that are read treat frames as the original ones do: they are accepted by the
strict check, decode every frame to the same values, and encode all data to the same frame, without
padding or if the original message pads with ones. -/
theorem C45_frames_survive {fo : FloatOps} (L : FloatLaws T) {U : Unicode} (hU : UnicodeLaws U)
    (W : WritableDatabase T db) (K : shorten = true → KeptNames db)
    (C : ∀ m ∈ db.messages, ∃ pattern msg, messageOf T pattern true m = .ok msg)
    (hpt : ∀ m ∈ db.messages, ∀ s ∈ m.signals, s.isFloat = true → s.choices = none)
    {sort sortAttrs : List (DSignal F) → List (DSignal F)} (hs : ∀ l, (sort l).Perm l)
    (hsa : ∀ l, (sortAttrs l).Perm l) :
    ∃ text db', dumpString U T sort sortAttrs shorten db = .ok text ∧ loadString T true text = .ok db' ∧
      List.Forall₂ (fun m m' => ∀ pattern msg, messageOf T pattern true m = .ok msg →
        ∃ msg', messageOf T 0xff true m' = .ok msg' ∧
          (∀ data scaling padding strict payload, (padding = true → pattern = 0xff) →
            (encode fo msg data scaling padding strict = .ok payload ↔
              encode fo msg' data scaling padding strict = .ok payload)) ∧
          ∀ data decodeChoices scaling truncated excess,
            (decode fo msg data decodeChoices scaling truncated excess = .error .decodeError ∧
              decode fo msg' data decodeChoices scaling truncated excess = .error .decodeError) ∨
            ∃ r r', decode fo msg data decodeChoices scaling truncated excess = .ok r ∧
              decode fo msg' data decodeChoices scaling truncated excess = .ok r' ∧ r'.Perm r)
        db.messages db'.messages := by
  obtain ⟨text, h1, db', h2, S⟩ := C45_round_trip L hU W K C hs hsa
  refine ⟨text, db', h1, h2, ?_⟩
  have hW := W.messages
  have key := S.messages
  generalize db.messages = ms at key hW hpt
  generalize db'.messages = ms' at key
  induction key with
  | nil => exact .nil
  | @cons m m' _ _ e _ ih =>
    refine .cons ?_ (ih (fun x hx => hW x (List.mem_cons_of_mem _ hx)) fun x hx => hpt x (List.mem_cons_of_mem _ hx))
    have Wm := hW m (List.mem_cons_self ..)
    have hp := hpt m (List.mem_cons_self ..)
    intro pattern msg hmsg
    obtain ⟨l, hl, hf⟩ := e.signals
    have hl' : (l.map (·.core T)).Perm (m.signals.map (·.core T)) := hl.map _
    have hf' : List.Forall₂ SameIds (l.map (·.core T)) (m'.signals.map (·.core T)) := by
      rw [List.forall₂_map_left_iff, List.forall₂_map_right_iff]
      exact hf.imp fun _ _ h => SameSignal.core_ids h
    have hnd := Wm.muxed.nodup
    have hb : ∀ s ∈ m.signals.map (·.core T), Built s.conversion := by
      intro s hs
      obtain ⟨k, _, rfl⟩ := List.mem_map.1 hs
      exact ⟨_, _, _, _, rfl⟩
    have hpl : ∀ s ∈ m.signals.map (·.core T), s.conversion.isFloat = true → s.conversion.choices = none := by
      intro s hs
      obtain ⟨k, hk, rfl⟩ := List.mem_map.1 hs
      intro hfl
      have hk' : k.isFloat = true := by
        have : (k.core T).conversion.isFloat = k.isFloat := by
          unfold DSignal.core Conversion.isFloat Conversion.factory
          cases k.choices <;> simp only [Option.map_none, Option.map_some, Conversion.inner, BaseConv.factory] <;>
            split <;> (try split) <;> simp_all [BaseConv.isFloat]
        rw [← this]; exact hfl
      unfold DSignal.core
      rw [hp k hk hk']
      rfl
    obtain ⟨c1, c2, c3⟩ := (C05_strict_check_iff hnd (default_perm _)).1.1 ⟨msg, hmsg⟩
    have hid := Wm.id
    obtain ⟨msg', hmsg'⟩ : ∃ msg', messageOf T 0xff true m' = .ok msg' := by
      unfold messageOf
      rw [e.frameId, e.name, e.length, e.isExtendedFrame]
      exact create_ids hl' hf' hnd c2 (frameId_bounds hid) fun _ => c3
    refine ⟨msg', hmsg', ?_, ?_⟩
    · intro data scaling padding strict payload hpat
      unfold messageOf at hmsg'
      rw [e.length] at hmsg'
      exact C39_encode_ids_independent hnd hb hl' hf' hmsg hmsg' fun h => (hpat h).symm
    · intro data decodeChoices scaling truncated excess
      unfold messageOf at hmsg'
      rw [e.length] at hmsg'
      exact C39_decode_ids_independent hnd hb hpl hl' hf' hmsg hmsg' data decodeChoices scaling truncated excess

end

/-! ### The hypotheses can be met -/

section Example45

/-- The value of every entry of an option. -/
theorem forall_some {α : Type} {o : Option α} {P : α → Prop} (h : ∀ x ∈ o, P x) : ∀ x, o = some x → P x := h

instance (t : Chars) : Decidable (PlainText t) := by unfold PlainText; infer_instance
instance (t : Chars) : Decidable (CommentText t) := by unfold CommentText; infer_instance
instance (t : Chars) : Decidable (Ident t) :=
  decidable_of_iff (t ≠ [] ∧ (∀ c ∈ t, isWordChar c = true) ∧ ∀ c ∈ t.head?, isDigit c = false) Iff.rfl
instance (t : Chars) : Decidable (Name t) := by unfold Name; infer_instance

namespace DbcExample

def ascii : Unicode := { word := isWordChar, digit := isDigit }

def longNode : Chars := "ElectronicStabilityProgramControlUnit".toList
def longSignal : Chars := "SteeringWheelAngleSensorConfidence".toList

def frameDef : AttrDef Int := vFrameFormatDef
def sendDef : AttrDef Int :=
  { name := genMsgSendType, default := some (.str "Cyclic".toList), kind := some "BO_", typeName := some "ENUM",
    choices := ["Cyclic".toList, "OnChange".toList] }
def cycleDef : AttrDef Int :=
  { name := genMsgCycleTime, default := some (.num (.int 0)), kind := some "BO_", typeName := some "INT",
    minimum := some (.int 0), maximum := some (.int 65535) }
def startDef : AttrDef Int :=
  { name := genSigStartValue, default := some (.num (.float 0)), kind := some "SG_", typeName := some "FLOAT",
    minimum := some (.float (-20)), maximum := some (.float 20) }
def nameDef : AttrDef Int :=
  { name := dbName, default := some (.str []), typeName := some "STRING" }

def selector : DSignal Int :=
  { name := "Mode".toList, start := 0, length := 4, isMultiplexer := true
    choices := some [(0, "off".toList), (3, "full speed".toList)] }
def angle : DSignal Int :=
  { name := longSignal, start := 19, length := 11, byteOrder := .big, isSigned := true
    scale := .float 1, offset := .float (-6), minimum := some (.float (-21)), maximum := some (.int 500)
    unit := some "deg".toList, receivers := [longNode, "Gateway".toList]
    comment := some "The \"raw\" angle".toList, multiplexerIds := some [3, 1]
    multiplexerSignal := some "Mode".toList, rawInitial := some (.float 5) }
def level : DSignal Int :=
  { name := "Level".toList, start := 32, length := 32, isFloat := true, receivers := ["Gateway".toList] }

def message : DMessage Int :=
  { frameId := 0x18ff, isExtendedFrame := true, name := "Steering".toList, length := 8
    senders := [longNode, "Gateway".toList], sendType := some "OnChange".toList, cycleTime := some (.int 100)
    comment := some "Sent by the \"ESP\"".toList, busName := some "Chassis".toList, isFd := true
    signals := [level, angle, selector]
    signalGroups := some [{ name := "Group".toList, signalNames := ["Level".toList, "Mode".toList] }]
    attributes := [(genMsgSendType, { value := .num (.int 1), definition := sendDef })] }

def db : DDatabase Int :=
  { messages := [message]
    nodes := [{ name := longNode, comment := some "Brakes".toList }, { name := "Gateway".toList }]
    buses := [{ name := "Chassis".toList, baudrate := some 500000, comment := some "Main bus".toList }]
    version := some "1.0".toList
    attributes := [(dbName, { value := .str "Chassis".toList, definition := nameDef })]
    definitions := [(vFrameFormat, frameDef), (genMsgSendType, sendDef), (genMsgCycleTime, cycleDef),
      (genSigStartValue, startDef), (dbName, nameDef)]
    envvars := [("Key".toList,
      { name := "Key".toList, envType := 0, minimum := .int 0, maximum := .float 3, unit := "V".toList
        initialValue := .int 0, envId := 4, accessType := "DUMMY_NODE_VECTOR0".toList
        accessNode := "Gateway".toList })]
    valueTables := [("Modes".toList, [(0, "off".toList), (1, "on".toList)])] }

theorem ascii_laws : UnicodeLaws ascii := ⟨fun _ h => h, fun _ _ => rfl⟩

theorem writableDef {d : AttrDef Int} (hd : d ∈ db.definitions.map (·.2)) : WritableDef d := by
  simp only [db, List.map_cons, List.map_nil, List.mem_cons, List.not_mem_nil, or_false] at hd
  rcases hd with rfl | rfl | rfl | rfl | rfl
  · exact ⟨by decide +kernel, by decide +kernel, by decide +kernel, by rintro v ⟨⟩; decide +kernel,
      .inl ⟨rfl, rfl⟩, by decide +kernel, by decide +kernel⟩
  · exact ⟨by decide +kernel, by decide +kernel, by decide +kernel, by rintro v ⟨⟩; decide +kernel,
      .inl ⟨rfl, rfl⟩, by decide +kernel, by decide +kernel⟩
  · exact ⟨by decide +kernel, by decide +kernel, by decide +kernel, by rintro v ⟨⟩; decide +kernel,
      .inr (.inl ⟨_, _, rfl, rfl, .inl rfl⟩), by decide +kernel, by decide +kernel⟩
  · exact ⟨by decide +kernel, by decide +kernel, by decide +kernel, by rintro v ⟨⟩; decide +kernel,
      .inr (.inr ⟨_, _, rfl, rfl, rfl⟩), by decide +kernel, by decide +kernel⟩
  · exact ⟨by decide +kernel, by decide +kernel, by decide +kernel, by rintro v ⟨⟩; decide +kernel,
      .inl ⟨rfl, rfl⟩, by decide +kernel, by decide +kernel⟩

theorem no_attrs (kind : Option String) : WritableAttrs db.definitions kind [] :=
  ⟨List.nodup_nil, fun _ h => (by cases h), fun _ h => (by cases h)⟩

theorem writableSignal {s : DSignal Int} (hs : s ∈ message.signals) : WritableSignal db s := by
  simp only [message, List.mem_cons, List.not_mem_nil, or_false] at hs
  rcases hs with rfl | rfl | rfl
  all_goals
    constructor
    case name => decide +kernel
    case float => decide +kernel
    case limits => decide +kernel
    case noZeros => decide +kernel
    case unit => exact forall_some (by decide +kernel)
    case receivers => decide +kernel
    case noVector => decide +kernel
    case comment => exact forall_some (by decide +kernel)
    case choices => exact forall_some (by decide +kernel)
    case ids => exact forall_some (by decide +kernel)
    case parent => exact forall_some (by decide +kernel)
    case attributes => exact no_attrs _
    case spn => exact rfl
    case initial =>
      intro n _ d hd
      have : dictGet? db.definitions genSigStartValue = some startDef := by decide +kernel
      rw [this] at hd
      cases hd
      exact .inl rfl

theorem definedAs {n : Chars} {kind : Option String} {types : List String}
    (h : ∀ d ∈ dictGet? db.definitions n, d.kind = kind ∧ ∃ t ∈ types, d.typeName = some t) :
    DefinedAs db.definitions n kind types := h

theorem writableMessage : WritableMessage halves db message := by
  constructor
  case id => exact ⟨by decide, by decide⟩
  case name => decide +kernel
  case kept => decide +kernel
  case senders => decide +kernel
  case distinct => decide +kernel
  case comment => exact forall_some (by decide +kernel)
  case muxed =>
    refine ⟨by decide +kernel, by decide +kernel, by decide +kernel, ?_⟩
    have : ∀ s ∈ message.signals.map (·.core halves), ∀ n ∈ s.multiplexerSignal,
      ∃ p ∈ message.signals.map (·.core halves), p.name = n ∧ p ≠ s ∧ p.isMultiplexer = true := by decide +kernel
    exact this
  case signals => exact fun s hs => writableSignal hs
  case groups => exact forall_some (by decide +kernel)
  case attributes =>
    refine ⟨by decide +kernel, by decide +kernel, ?_⟩
    intro e he
    simp only [message, List.mem_cons, List.not_mem_nil, or_false] at he
    subst he
    exact .inr (.inr rfl)
  case sendType => exact .inl ⟨1, _, rfl, rfl, rfl⟩
  case cycleTime =>
    rintro n ⟨⟩
    exact ⟨by decide +kernel, .inl ⟨_, rfl, by unfold SmallInt; decide⟩⟩
  case format =>
    refine ⟨by decide +kernel, ?_⟩
    have : (if busIsCanFd db then some ((dictGet? db.definitions vFrameFormat).getD vFrameFormatDef)
      else dictGet? db.definitions vFrameFormat) = some frameDef := by decide +kernel
    rw [this]
    exact ⟨by decide +kernel, _, rfl, fun h => absurd h (by decide +kernel)⟩
  case bus => decide +kernel

theorem writable : WritableDatabase halves db := by
  constructor
  case messages =>
    intro m hm
    simp only [db, List.mem_cons, List.not_mem_nil, or_false] at hm
    subst hm
    exact writableMessage
  case ids => decide +kernel
  case names => decide +kernel
  case nodes =>
    intro n hn
    simp only [db, List.mem_cons, List.not_mem_nil, or_false] at hn
    rcases hn with rfl | rfl <;>
      exact ⟨by decide +kernel, forall_some (by decide +kernel), no_attrs _⟩
  case nodeNames => decide +kernel
  case version => decide +kernel
  case buses =>
    refine .inr ⟨_, rfl, .inr ⟨_, rfl, rfl⟩, forall_some (by decide +kernel), by decide +kernel⟩
  case attributes =>
    refine ⟨by decide +kernel, by decide +kernel, ?_⟩
    intro e he
    simp only [db, List.mem_cons, List.not_mem_nil, or_false] at he
    subst he
    exact ⟨rfl, by decide +kernel⟩
  case definitions => exact fun e he => ⟨(by decide +kernel : ∀ e ∈ db.definitions, e.1 = e.2.name) e he, writableDef (List.mem_map_of_mem he)⟩
  case definitionNames => decide +kernel
  case cycleTime => exact definedAs (by decide +kernel)
  case startValue => exact definedAs (by decide +kernel)
  case baudrate => exact definedAs (by decide +kernel)
  case format => exact definedAs (by decide +kernel)
  case envvars =>
    intro e he
    simp only [db, List.mem_cons, List.not_mem_nil, or_false] at he
    subst he
    exact ⟨rfl, by decide +kernel, by decide +kernel, by decide +kernel, forall_some (by decide +kernel), no_attrs _⟩
  case envvarNames => decide +kernel
  case tables => decide +kernel
  case tableNames => decide +kernel

theorem keptNames : KeptNames db where
  node := definedAs (by decide +kernel)
  message := definedAs (by decide +kernel)
  signal := definedAs (by decide +kernel)
  envvar := definedAs (by decide +kernel)
  nodes := by decide +kernel
  senders := by decide +kernel
  receivers := by decide +kernel
  selectors := by
    have : ∀ m ∈ db.messages, ∀ s ∈ m.signals, ∀ n ∈ s.multiplexerSignal, n.length ≤ 32 := by decide +kernel
    exact this

theorem constructible : ∀ m ∈ db.messages, ∃ pattern msg, messageOf halves pattern true m = .ok msg := by
  intro m hm
  simp only [db, List.mem_cons, List.not_mem_nil, or_false] at hm
  subst hm
  have h : (messageOf halves 0 true message).toOption.isSome = true := by decide +kernel
  cases hc : messageOf halves 0 true message with
  | error e => rw [hc] at h; cases h
  | ok msg => exact ⟨0, msg, hc⟩

end DbcExample

example := C45_round_trip halves_laws DbcExample.ascii_laws DbcExample.writable (shorten := true)
  (fun _ => DbcExample.keptNames) DbcExample.constructible (sort := id) (sortAttrs := List.reverse)
  (fun _ => .refl _) List.reverse_perm

example := C45_frames_survive (fo := Example.fo) halves_laws DbcExample.ascii_laws DbcExample.writable (shorten := true)
  (fun _ => DbcExample.keptNames) DbcExample.constructible (by decide +kernel) (sort := id) (sortAttrs := List.reverse)
  (fun _ => .refl _) List.reverse_perm

end Example45

/-! ### What a DBC file does not keep -/

section Witness45
open DbcExample

/-- The database that is read after writing one. -/
def reread (shorten : Bool) (db : DDatabase Int) : Except Err (DDatabase Int) := do
  let text ← dumpString ascii halves id id shorten db
  loadString halves true text

def oneMessage (m : DMessage Int) : DDatabase Int := { messages := [m] }

def sig1 : DSignal Int := { name := "S".toList, start := 0, length := 8 }
def msg1 : DMessage Int := { frameId := 5, name := "M".toList, length := 8, signals := [sig1] }
def small (s : DSignal Int) : DDatabase Int := oneMessage { msg1 with signals := [s] }

/-- What all signals of a database have as some property. -/
def ofSignals {α : Type} (f : DSignal Int → α) (db : DDatabase Int) : List α :=
  db.messages.flatMap fun m => m.signals.map f
def ofMessages {α : Type} (f : DMessage Int → α) (db : DDatabase Int) : List α := db.messages.map f

/-- Limits `[0|0]` mean no limits, and a missing limit becomes 0. -/
theorem C45_limits_not_kept :
    (reread false (small { sig1 with minimum := some (.int 0), maximum := some (.int 0) })).map
      (ofSignals fun s => (s.minimum, s.maximum)) = .ok [(none, none)] ∧
    (reread false (small { sig1 with maximum := some (.int 7) })).map
      (ofSignals fun s => (s.minimum, s.maximum)) = .ok [(some (.int 0), some (.int 7))] := by
  constructor <;> decide +kernel

/-- Empty value tables and units are lost. -/
theorem C45_empty_not_kept :
    (reread false (small { sig1 with choices := some [], unit := some [] })).map
      (ofSignals fun s => (s.choices.isSome, s.unit.isSome)) = .ok [(false, false)] := by decide +kernel

/-- A float signal of 16 bits cannot be written. -/
theorem C45_half_float_fails :
    dumpString ascii halves id id false (small { sig1 with isFloat := true, length := 16 }) = .error .keyError := by
  decide +kernel

/-- Written, but not readable: a quotation mark in a unit, a keyword as a name, a negative multiplexer
id. -/
theorem C45_unreadable :
    reread false (small { sig1 with unit := some "3\"".toList }) = .error .error ∧
    reread false (oneMessage { msg1 with name := "CM_".toList }) = .error .error ∧
    reread false (oneMessage { msg1 with
      signals := [{ sig1 with isMultiplexer := true },
        { sig1 with name := "A".toList, start := 8, multiplexerSignal := some "S".toList,
                    multiplexerIds := some [-1] }] }) = .error .error := by
  refine ⟨?_, ?_, ?_⟩ <;> decide +kernel

/-- CAN FD is lost without a definition of the frame format. -/
theorem C45_fd_not_kept : (reread false (oneMessage { msg1 with isFd := true })).map (ofMessages (·.isFd)) =
    .ok [false] := by decide +kernel

/-- A cycle time of 0 is lost. -/
theorem C45_zero_cycle_time_not_kept :
    (reread false (oneMessage { msg1 with cycleTime := some (.int 0) })).map (ofMessages (·.cycleTime)) =
      .ok [none] := by decide +kernel

/-- A message with a special name is dropped. -/
theorem C45_message_dropped :
    (reread false (oneMessage { msg1 with name := "VECTOR__INDEPENDENT_SIG_MSG".toList })).map (·.messages) =
      .ok [] := by decide +kernel

/-- The long name of a multiplexer selector is restored for the selector, but not where it is referred
to: the signals it selects then belong to no signal of the message. -/
theorem C45_selector_name_not_kept :
    (reread true (oneMessage { msg1 with
      signals := [{ sig1 with isMultiplexer := true, name := longSignal },
        { sig1 with name := "A".toList, start := 8, multiplexerSignal := some longSignal,
                    multiplexerIds := some [1] }] })).map (ofSignals fun s => (s.name, s.multiplexerSignal)) =
      .ok [(longSignal, none), ("A".toList, some (longSignal.take 32))] := by decide +kernel

/-- A sender that is not a node gets the long name of a node, if it is the abbreviation of that name. -/
theorem C45_sender_mistaken :
    (reread true { oneMessage { msg1 with senders := [longNode.take 32] } with
      nodes := [{ name := longNode }] }).map (ofMessages (·.senders)) = .ok [[longNode]] := by decide +kernel

/-- An attribute `VFrameFormat` that was left in a message with the default frame format is written. -/
theorem C45_stale_frame_format :
    (reread false
      { messages := [{ msg1 with attributes := [(vFrameFormat, { value := .num (.int 14), definition := frameDef })] }]
        definitions := [(vFrameFormat, frameDef)] }).map (ofMessages (·.isFd)) = .ok [true] := by decide +kernel

/-- Several buses, and the name of a bus that is not the attribute `DBName`, are lost. -/
theorem C45_buses_not_kept :
    (reread false { oneMessage msg1 with buses := [{ name := "A".toList }, { name := "B".toList }] }).map (·.buses) =
      .ok [] ∧
    (reread false { oneMessage msg1 with buses := [{ name := "A".toList }] }).map (·.buses) = .ok [] := by
  constructor <;> decide +kernel

/-- Messages with the same frame id share comments. -/
theorem C45_same_id_shares_comment :
    (reread false { messages := [msg1, { msg1 with name := "N".toList, comment := some "only N".toList }] }).map
      (ofMessages (·.comment)) = .ok [some "only N".toList, some "only N".toList] := by decide +kernel

end Witness45

end Cantools
