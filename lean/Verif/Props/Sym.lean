import Verif.Lemmas.SymKept
import Verif.Lemmas.SymPlaces
import Verif.Lemmas.DbcHalves
import Verif.Props.DbcFile

/-
C48: a SYM file keeps the database.
-/

namespace Cantools
open Spec Dbc

section
variable {F : Type} {T : FloatText F} {db : DDatabase F}

/-- C48: the text that is written for a database can be read, and gives a database with the same
messages and signals, without what SYM files have no fields for; the signals of a message with a
selector are there once for each multiplexer id. -/
theorem C48_round_trip (L : FloatLaws T) (W : SymDatabase T db)
    (C : ∀ m ∈ db.messages, ∃ pattern msg, messageOf T pattern true m = .ok msg) (strict : Bool)
    {sort : List (DSignal F) → List (DSignal F)} (hs : ∀ l, (sort l).Perm l) :
    ∃ text, Sym.dumpString T sort db = .ok text ∧
      ∃ db', Sym.loadString T strict text = .ok db' ∧ SymKept T db db' := by
  obtain ⟨text, h1, h2⟩ := Sym.load_dump L hs W (strict := strict) fun m hm => by
    obtain ⟨pat, msg, h⟩ := C m hm
    exact Sym.constructible_of (W.messages m hm) h
  refine ⟨text, h1, _, h2, Sym.readOrder db, Sym.readOrder_perm W, ?_⟩
  rw [List.forall₂_map_right_iff]
  exact List.forall₂_same.2 fun m hm => Sym.loaded_kept (W.messages m ((Sym.readOrder_perm W).mem_iff.1 hm))

/-- C48: the messages that are read treat frames as the original ones do: they are accepted by the
strict check, decode every frame that is long enough to the same values and reject the others, and
encode all data to the same frame, without padding or if the original message pads with ones. -/
theorem C48_frames_survive {fo : FloatOps} (L : FloatLaws T) (W : SymDatabase T db)
    (C : ∀ m ∈ db.messages, ∃ pattern msg, messageOf T pattern true m = .ok msg)
    (hpt : ∀ m ∈ db.messages, ∀ s ∈ m.signals, s.isFloat = true → s.choices = none)
    {sort : List (DSignal F) → List (DSignal F)} (hs : ∀ l, (sort l).Perm l) :
    ∃ text db', Sym.dumpString T sort db = .ok text ∧ Sym.loadString T true text = .ok db' ∧
      ∃ l : List (DMessage F), l.Perm db.messages ∧
      List.Forall₂ (fun m m' => SymKeptMessage T m m' ∧ ∀ pattern msg, messageOf T pattern true m = .ok msg →
        ∃ msg', messageOf T 0xff true m' = .ok msg' ∧
          (∀ data scaling padding strict payload, (padding = true → pattern = 0xff) →
            (encode fo msg data scaling padding strict = .ok payload ↔
              encode fo msg' data scaling padding strict = .ok payload)) ∧
          ∀ data decodeChoices scaling excess,
            (decode fo msg data decodeChoices scaling false excess = .error .decodeError ∧
              decode fo msg' data decodeChoices scaling false excess = .error .decodeError) ∨
            ∃ r r', decode fo msg data decodeChoices scaling false excess = .ok r ∧
              decode fo msg' data decodeChoices scaling false excess = .ok r' ∧ r'.Perm r)
        l db'.messages := by
  obtain ⟨text, h1, h2⟩ := Sym.load_dump L hs W (strict := true) fun m hm => by
    obtain ⟨pat, msg, h⟩ := C m hm
    exact Sym.constructible_of (W.messages m hm) h
  refine ⟨text, _, h1, h2, Sym.readOrder db, Sym.readOrder_perm W, ?_⟩
  rw [List.forall₂_map_right_iff]
  refine List.forall₂_same.2 fun m hm => ?_
  have hm := (Sym.readOrder_perm W).mem_iff.1 hm
  refine ⟨Sym.loaded_kept (W.messages m hm), fun pattern msg h => ?_⟩
  obtain ⟨msg', h1, h2⟩ := Sym.loaded_frames (fo := fo) (W.messages m hm) h 0xff true
  exact ⟨msg', h1, h2 rfl (hpt m hm)⟩

/-- C48: what the text says about the places of signals.  Every signal has a line with its first bit; a selector has
lines with its first bit and its length.  Bits are numbered as SYM files number them, so that other programs find the
signals in the same place. -/
theorem C48_bit_numbers {sort : List (DSignal F) → List (DSignal F)} (W : SymDatabase T db) :
    ∃ text, Sym.dumpString T sort db = .ok text ∧ ∀ m ∈ db.messages, ∀ s ∈ m.signals,
      ∃ k, SymBit s.byteOrder s.start k ∧
        (s.isMultiplexer = false → "Sig=\"".toList ++ s.name ++ "\" ".toList ++ decimal k ++ ['\n'] <:+: text) ∧
        (s.isMultiplexer = true →
          "Mux=\"".toList ++ s.name ++ "\" ".toList ++ decimal k ++ [','] ++ decimal s.length ++ [' '] <:+: text) := by
  refine ⟨_, Sym.text_content W, fun m hm s hs => ?_⟩
  obtain ⟨g, hg, e, hl⟩ := Sym.group_of W hm
  obtain ⟨k, hk, ht⟩ := Sym.convertStart_bit s.start s.byteOrder
  obtain ⟨h1, h2⟩ := Sym.lines_of_message hl g.last (s := s) (e ▸ hs)
  have hshort : Sym.signalName s = s.name := List.take_of_length_le ((W.messages m hm).signals s hs).short
  refine ⟨k, hk, fun h => ?_, fun h => ?_⟩
  · obtain ⟨b, hb, hline⟩ := h1 h
    have := Sym.line_infix (sort := sort) hg hb hline
    rw [ht, hshort] at this
    simpa [Sym.linePieces, Sym.textOf_cons, Sym.textOf_nil, Sym.Piece.text] using this
  · have hx : ∃ x ∈ g.lead.signals, ∃ ids, ids ≠ [] ∧ x.multiplexerIds = some ids := by
      rcases hl.mux with hp | ho
      · rw [(hp s (e ▸ hs)).1] at h; cases h
      · obtain ⟨sel, a, b, hM⟩ := Sym.muxed_of hl.nodup ho
        obtain ⟨x, hx, h⟩ := hM.some_
        refine ⟨x, ?_, h⟩
        rw [hM.split]
        simp only [List.mem_append, List.mem_cons] at hx ⊢
        tauto
    obtain ⟨x, hx, ids, hne, hids⟩ := hx
    obtain ⟨i, hi⟩ := List.exists_mem_of_ne_nil _ hne
    obtain ⟨b, hb, hline⟩ := h2 h x hx ids hids i hi
    have := Sym.line_infix (sort := sort) hg hb hline
    refine List.IsInfix.trans ?_ this
    refine List.IsPrefix.isInfix ?_
    simp only [Sym.muxLineOf, ht]
    simp [Sym.linePieces, Sym.textOf_cons, Sym.Piece.text]

end

/-! ### The hypotheses can be met -/

section Example48

instance (t : Chars) : Decidable (LineText t) := by unfold LineText; infer_instance
instance (a b : DSignal Int) : Decidable (SameDefinition a b) := by unfold SameDefinition; infer_instance

namespace SymExample

def selector : DSignal Int := { name := "Mode".toList, start := 0, length := 8, isMultiplexer := true }
def angle : DSignal Int :=
  { name := "Wheel angle".toList, start := 15, length := 11, byteOrder := .big, isSigned := true
    scale := .float 1, offset := .float (-6), minimum := some (.float (-21)), maximum := some (.int 500)
    unit := some "deg".toList, comment := some "The \"raw\" angle".toList, multiplexerIds := some [3, 26]
    multiplexerSignal := some "Mode".toList, spn := some (.num (.int 190)) }
def gear : DSignal Int :=
  { name := "Gear".toList, start := 16, length := 3, multiplexerIds := some [1]
    multiplexerSignal := some "Mode".toList
    choices := some [(0, "neutral".toList), (-1, "reverse gear".toList)] }
def level : DSignal Int := { name := "Level".toList, start := 32, length := 32, isFloat := true }

def steering : DMessage Int :=
  { frameId := 0x18ff, isExtendedFrame := true, name := "Steering".toList, length := 8
    senders := [Sym.ecu], cycleTime := some (.int 100), comment := some "Sent often".toList
    signals := [level, angle, selector, gear] }

def status (i : Int) : DMessage Int :=
  { frameId := i, name := "Status".toList, length := 6, senders := [Sym.ecu, Sym.peripherals]
    signals := [{ gear with start := 40, multiplexerIds := none, multiplexerSignal := none },
      { level with start := 0 }] }

def db : DDatabase Int := { messages := [status 0x101, steering, status 0x100] }

theorem leading_small {n : Nat} (h : n < 10) : leadingHex n < 10 := by
  rw [leadingHex, dif_pos (by omega)]; exact h

theorem symSignal {m : DMessage Int} (hm : m ∈ db.messages) {s : DSignal Int} (hs : s ∈ m.signals) : SymSignal s := by
  simp only [db, List.mem_cons, List.not_mem_nil, or_false] at hm
  have key : s = level ∨ s = angle ∨ s = selector ∨ s = gear ∨
      s = { gear with start := 40, multiplexerIds := none, multiplexerSignal := none } ∨ s = { level with start := 0 } := by
    rcases hm with rfl | rfl | rfl
    all_goals
      simp only [status, steering, List.mem_cons, List.not_mem_nil, or_false] at hs
      tauto
  rcases key with rfl | rfl | rfl | rfl | rfl | rfl
  all_goals
    constructor
    case name => decide +kernel
    case short => decide +kernel
    case float => decide +kernel
    case unit => exact forall_some (by decide +kernel)
    case comment => exact forall_some (by decide +kernel)
    case choices => exact forall_some (by decide +kernel)
    case spn =>
      rintro v ⟨⟩
      try exact ⟨190, by decide, rfl⟩

theorem symMessage {m : DMessage Int} (hm : m ∈ db.messages) : SymMessage halves m := by
  have hsig := fun s => symSignal hm (s := s)
  simp only [db, List.mem_cons, List.not_mem_nil, or_false] at hm
  rcases hm with rfl | rfl | rfl
  all_goals
    constructor
    case id => exact ⟨by decide, by decide⟩
    case name => decide +kernel
    case comment => exact forall_some (by decide +kernel)
    case cycleTime => exact forall_some (by decide +kernel)
    case senders => decide +kernel
    case nodup => decide +kernel
    case signals => exact hsig
  · exact .inl (by unfold Plain; decide +kernel)
  · refine .inr ⟨selector, by decide +kernel, ?_, by decide +kernel, ?_⟩
    · constructor <;> decide +kernel
    · intro s hs hne
      simp only [steering, List.mem_cons, List.not_mem_nil, or_false] at hs
      rcases hs with rfl | rfl | rfl | rfl
      · exact ⟨rfl, .inl ⟨rfl, rfl⟩⟩
      · refine ⟨rfl, .inr ⟨rfl, [3, 26], by decide, rfl, ?_⟩⟩
        intro i hi
        simp only [List.mem_cons, List.not_mem_nil, or_false] at hi
        rcases hi with rfl | rfl
        · exact ⟨by decide, leading_small (by decide)⟩
        · refine ⟨by decide, ?_⟩
          rw [leadingHex, dif_neg (by decide)]
          exact leading_small (by decide)
      · exact absurd rfl hne
      · refine ⟨rfl, .inr ⟨rfl, [1], by decide, rfl, ?_⟩⟩
        intro i hi
        simp only [List.mem_cons, List.not_mem_nil, or_false] at hi
        subst hi
        exact ⟨by decide, leading_small (by decide)⟩
  · exact .inl (by unfold Plain; decide +kernel)

set_option synthInstance.maxSize 1000 in
theorem symDatabase : SymDatabase halves db where
  messages := fun m hm => symMessage hm
  names := by unfold Plain; decide +kernel
  ranges := by
    intro m hm
    simp only [db, List.mem_cons, List.not_mem_nil, or_false] at hm
    rcases hm with rfl | rfl | rfl
    · exact ⟨0x100, 2, by decide +kernel⟩
    · exact ⟨0x18ff, 1, by decide +kernel⟩
    · exact ⟨0x100, 2, by decide +kernel⟩
  signals := by decide +kernel
  enums := by
    intro m hm s hs m' hm' s' hs' cs cs' h h' he
    have key : ∀ s ∈ db.messages.flatMap (·.signals), ∀ s' ∈ db.messages.flatMap (·.signals), s.choices ≠ none →
      s'.choices ≠ none → enumStem s'.name = enumStem s.name → s'.choices = s.choices := by decide +kernel
    have := key s (List.mem_flatMap.2 ⟨m, hm, hs⟩) s' (List.mem_flatMap.2 ⟨m', hm', hs'⟩) (by simp [h]) (by simp [h']) he
    rw [h, h'] at this
    exact Option.some.inj this

theorem constructible : ∀ m ∈ db.messages, ∃ pattern msg, messageOf halves pattern true m = .ok msg := by
  intro m hm
  have h : ∀ m ∈ db.messages, (messageOf halves 0 true m).toOption.isSome = true := by decide +kernel
  have h := h m hm
  cases hc : messageOf halves 0 true m with
  | error e => rw [hc] at h; cases h
  | ok msg => exact ⟨0, msg, hc⟩

end SymExample

example := C48_round_trip halves_laws SymExample.symDatabase SymExample.constructible false (sort := List.reverse)
  List.reverse_perm

example := C48_bit_numbers (sort := id) SymExample.symDatabase

example := C48_frames_survive (fo := Example.fo) halves_laws SymExample.symDatabase SymExample.constructible
  (by decide +kernel) (sort := id) fun _ => .refl _

end Example48

/-! ### What a SYM file does not keep -/

section Witness48
namespace SymWitness

/-- The database that is read after writing one. -/
def symReread (db : DDatabase Int) : Except Err (DDatabase Int) := do
  let text ← Sym.dumpString halves id db
  Sym.loadString halves true text

def msg (signals : List (DSignal Int)) : DMessage Int :=
  { frameId := 5, name := "M".toList, length := 8, senders := [Sym.ecu], signals := signals }
def one (signals : List (DSignal Int)) : DDatabase Int := { messages := [msg signals] }
def sig (name : String) (start : Nat) : DSignal Int := { name := name.toList, start := start, length := 8 }
def sel : DSignal Int := { sig "S" 0 with isMultiplexer := true }
def muxed (name : String) (start : Nat) (ids : List Int) : DSignal Int :=
  { sig name start with multiplexerSignal := some "S".toList, multiplexerIds := some ids }

end SymWitness
open SymWitness

/-- A signal has the definition of the first signal with its name. -/
theorem C48_shared_definition :
    (symReread { messages := [msg [sig "A" 0], { msg [{ sig "A" 0 with length := 16, isSigned := true }] with
      frameId := 6, name := "N".toList }] }).map (ofSignals fun s => (s.length, s.isSigned)) =
    .ok [(8, false), (8, false)] := by decide +kernel

/-- A float signal of 16 bits becomes one of 32 bits, and a signed one loses its sign. -/
theorem C48_half_float_not_kept :
    (symReread (one [{ sig "A" 0 with length := 16, isFloat := true, isSigned := true }])).map
      (ofSignals fun s => (s.length, s.isSigned)) = .ok [(32, false)] := by decide +kernel

/-- Written, but not readable: a multiplexer id with a hexadecimal form that starts with a letter, a
multiplexed message with several ids, a comment of two lines. -/
theorem C48_unreadable :
    symReread (one [sel, muxed "A" 8 [10]]) = .error .error ∧
    symReread { messages := [msg [sel, muxed "A" 8 [1], muxed "B" 8 [2]],
      { msg [sel, muxed "A" 8 [1], muxed "B" 8 [2]] with frameId := 6 }] } = .error .error ∧
    symReread (one [{ sig "A" 0 with comment := some "one\ntwo".toList }]) = .error .error := by
  refine ⟨?_, ?_, ?_⟩ <;> decide +kernel

/-- Not written: a multiplexed selector, ids of one name with gaps. -/
theorem C48_unwritable :
    symReread (one [sel, { muxed "A" 8 [1] with isMultiplexer := true },
      { sig "B" 16 with multiplexerSignal := some "A".toList, multiplexerIds := some [1] }]) = .error .typeError ∧
    symReread { messages := [msg [], { msg [] with frameId := 7 }] } = .error .valueError := by
  refine ⟨?_, ?_⟩ <;> decide +kernel

/-- Several messages with the ids of a range become messages of that range: one of them is another one
then. -/
theorem C48_range_not_kept :
    (symReread { messages := [msg [], msg [], { msg [] with frameId := 7 }] }).map (ofMessages (·.frameId)) =
      .ok [5, 6, 7] := by decide +kernel

/-- Messages of one name become the one with the lowest id. -/
theorem C48_merged :
    (symReread { messages := [{ msg [sig "A" 0] with frameId := 6, length := 4 }, msg [sig "B" 8]] }).map
      (ofMessages fun m => (m.frameId, m.length, m.signals.map (·.name))) =
    .ok [(5, 8, ["B".toList]), (6, 8, ["B".toList])] := by decide +kernel

set_option synthInstance.maxSize 1000 in
/-- A selector keeps no sign, scale, unit and names of values. -/
theorem C48_selector_not_kept :
    (symReread (one [{ sel with isSigned := true, scale := .int 2, unit := some "V".toList, choices := some [(1, "a".toList)] },
      muxed "A" 8 [1]])).map (ofSignals fun s => (s.name, s.isSigned, s.scale, s.unit, s.choices)) =
    .ok [("S".toList, false, .int 1, none, none), ("A".toList, false, .int 1, none, none)] := by decide +kernel

set_option synthInstance.maxSize 1000 in
/-- Cycle times and SPNs of 0, empty units and comments, names over 32 characters, other senders. -/
theorem C48_defaults_not_kept :
    (symReread { messages := [{ msg [{ sig "A" 0 with spn := some (.num (.int 0)), unit := some [], comment := some [] },
        sig "SteeringWheelAngleSensorConfidence" 8] with cycleTime := some (.int 0), senders := ["Gateway".toList] }] }).map
      (fun db => (ofSignals (fun s => (s.name, s.spn, s.unit, s.comment)) db, ofMessages (fun m => (m.cycleTime, m.senders)) db)) =
    .ok ([("A".toList, none, none, none), ("SteeringWheelAngleSensorConfiden".toList, none, none, none)],
      [(none, [Sym.ecu, Sym.peripherals])]) := by decide +kernel

/-- A truncated frame: signals that are in all frames are decoded before the message is written, and
are missing after it is read when the selector was not received. -/
theorem C48_truncated_not_kept :
    let m : DMessage Int := { msg [sig "A" 0, { sel with start := 8 }, muxed "B" 16 [1]] with length := 3 }
    let names (m : DMessage Int) (truncated : Bool) : Except Err (List String) := do
      let m ← messageOf halves 0xff true m
      let r ← decode Example.fo m [7] true true truncated false
      return r.map (·.1)
    names m true = .ok ["A"] ∧
    (symReread { messages := [m] }).map (ofMessages (names · true)) = .ok [.ok []] := by
  refine ⟨?_, ?_⟩ <;> decide +kernel

end Witness48

end Cantools
