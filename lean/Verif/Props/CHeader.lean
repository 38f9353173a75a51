import Verif.Lemmas.CHeader

/-!
C58: the interface of the generated C code.
-/

namespace Cantools
open Spec.CHeader

/-- A signal of eight bits. -/
def CHeaderExample.signal (name : String) (offset : Rat := 0) (choices : Option Choices := none) (float : Bool := false)
    (length : Nat := 8) (receivers : List String := []) (rawInitial : Option Rat := none) : C.GenSignal :=
  { signal := { name := name, start := 0, length := length, conversion := .factory 1 offset choices float },
    receivers := receivers, rawInitial := rawInitial }

/-- A message of a motor. -/
def CHeaderExample.motor : C.GenMessage :=
  { name := "MotorState", frameId := 0x123, length := 8, cycleTime := some 100, senders := ["Motor"],
    signals := [CHeaderExample.signal "Speed" (choices := some [(0, .str "stopped"), (1, .str "slow")]) (receivers := ["Panel"]),
      CHeaderExample.signal "OilTemp" (-40) (rawInitial := some 60)] }

/-- A message of a door. -/
def CHeaderExample.door : C.GenMessage :=
  { name := "Door", frameId := 0x18FEF100, length := 1, isExtended := true, senders := ["Body"],
    signals := [CHeaderExample.signal "Open" (length := 1) (receivers := ["Panel", "Motor"])] }

/-- The declared functions are those of the messages and signals the node sends or receives. -/
theorem C58_declared (o : C.Options) (ms : List C.GenMessage) (p : C.Proto) :
    p ∈ C.declarations o ms ↔ Function o ms p :=
  C.mem_declarations o ms p

example : (C.declarations { database := "car".toList, node := some "Motor" } [CHeaderExample.motor, CHeaderExample.door]).map
      (fun p => String.ofList p.name) =
    ["car_motor_state_pack", "car_motor_state_init", "car_motor_state_speed_encode", "car_motor_state_speed_is_in_range",
      "car_motor_state_speed_is_in_phys_range", "car_motor_state_oil_temp_encode", "car_motor_state_oil_temp_is_in_range",
      "car_motor_state_oil_temp_is_in_phys_range", "car_door_unpack", "car_door_init", "car_door_open_decode",
      "car_door_open_is_in_range", "car_door_open_is_in_phys_range"] := by decide +kernel

/-- Every function that is declared is defined, with the same types, and no others are. Missing: messages without data
and, with single precision, signals of type `double`, for which this is false. -/
theorem C58_defined_partial (o : C.Options) (ms : List C.GenMessage) (hl : ∀ m ∈ ms, 0 < m.length)
    (hd : o.useFloat = true → ∀ m ∈ ms, ∀ s ∈ m.signals, C.typeName s.signal ≠ .double) (p : C.Proto) :
    p ∈ C.definitions o ms ↔ Function o ms p := by
  rw [C.definitions_eq o ms hl hd]
  exact C.mem_declarations o ms p

example : (∀ m ∈ [CHeaderExample.motor, CHeaderExample.door], 0 < m.length) ∧
    ∀ m ∈ [CHeaderExample.motor, CHeaderExample.door], ∀ s ∈ m.signals, C.typeName s.signal ≠ .double := by
  decide +kernel

/-- A message with a signal of type `double`. -/
def CHeaderExample.precise : C.GenMessage :=
  { name := "M", frameId := 1, length := 8, signals := [CHeaderExample.signal "S" (float := true) (length := 64)] }

/-- The types in a declaration may differ from those in the definition of the function: the C code does not compile. -/
theorem CHeaderExample.C58_conflicting_types :
    ∃ p ∈ C.declarations { database := ['d'], useFloat := true } [CHeaderExample.precise],
      ∃ q ∈ C.definitions { database := ['d'], useFloat := true } [CHeaderExample.precise],
        p.name = q.name ∧ p.params = [.value .float] ∧ q.params = [.value .double] :=
  ⟨C.encodeProto { database := ['d'], useFloat := true } CHeaderExample.precise true (CHeaderExample.precise.signals.head (by decide)),
    by decide +kernel,
    C.encodeProto { database := ['d'], useFloat := true } CHeaderExample.precise false (CHeaderExample.precise.signals.head (by decide)),
    by decide +kernel, by decide +kernel⟩

/-- The function `…_init` of a message without data is declared but not defined. -/
theorem CHeaderExample.C58_init_undefined :
    ∃ p ∈ C.declarations { database := ['d'] } [{ name := "M", frameId := 1, length := 0 }], p.name = "d_m_init".toList ∧
      ∀ q ∈ C.definitions { database := ['d'] } [{ name := "M", frameId := 1, length := 0 }], q.name ≠ p.name :=
  ⟨C.initProto { database := ['d'] } { name := "M", frameId := 1, length := 0 }, by decide +kernel, by decide +kernel,
    by decide +kernel⟩

/-- A message without data that a node neither sends nor receives: its functions are defined, but neither they nor the
struct they use are declared. -/
theorem CHeaderExample.C58_undeclared :
    C.declarations { database := ['d'], node := some "N" } [{ name := "M", frameId := 1, length := 0 }] = [] ∧
      C.structs { database := ['d'], node := some "N" } [{ name := "M", frameId := 1, length := 0 }] = [] ∧
      (C.definitions { database := ['d'], node := some "N" } [{ name := "M", frameId := 1, length := 0 }]).map (·.name) =
        ["d_m_pack".toList, "d_m_unpack".toList] := by
  decide +kernel

/-- No two functions have the same name. Missing: names of messages one of which continues another after an underscore,
and names of signals that are equal in snake case; for these it is false. -/
theorem C58_functions_distinct_partial (o : C.Options) (ms : List C.GenMessage) (hm : MessagesApart ms)
    (hs : SignalsDistinct ms) : ((C.definitions o ms).map (·.name)).Nodup :=
  C.functions_distinct o ms hm hs

/-- Nor do two declared functions. -/
theorem C58_declared_distinct_partial (o : C.Options) (ms : List C.GenMessage) (hm : MessagesApart ms)
    (hs : SignalsDistinct ms) : ((C.declarations o ms).map (·.name)).Nodup :=
  C.declared_distinct o ms hm hs

example : MessagesApart [CHeaderExample.motor, CHeaderExample.door] ∧
    SignalsDistinct [CHeaderExample.motor, CHeaderExample.door] := by
  unfold MessagesApart SignalsDistinct Overlap
  decide +kernel

/-- Functions of different messages may have the same name. -/
theorem CHeaderExample.C58_functions_clash :
    ¬ ((C.definitions { database := ['d'] }
      [{ name := "a_b", frameId := 1, length := 8, signals := [CHeaderExample.signal "c"] },
        { name := "a", frameId := 2, length := 8, signals := [CHeaderExample.signal "b_c"] }]).map (·.name)).Nodup := by
  decide +kernel

/-- Names of signals that differ may be equal in the generated code. -/
theorem CHeaderExample.C58_signals_clash :
    ¬ ((C.definitions { database := ['d'] }
      [{ name := "M", frameId := 1, length := 8, signals := [CHeaderExample.signal "SpeedX", CHeaderExample.signal "speed_x"] }]).map
        (·.name)).Nodup := by
  decide +kernel

/-- The macros are those of the messages and signals the node sends or receives, with the values in the database. -/
theorem C58_macros (o : C.Options) (ms : List C.GenMessage) (p : List Char × C.MacroValue) :
    p ∈ C.macros o ms ↔ Macro o ms (List.map Char.toUpper) p :=
  C.mem_macros o ms p

example : (C.macros { database := "car".toList, node := some "Motor" } [CHeaderExample.motor, CHeaderExample.door]).map
      (fun p => (String.ofList p.1, p.2)) =
    [("CAR_MOTOR_STATE_FRAME_ID", .hex 0x123), ("CAR_DOOR_FRAME_ID", .hex 0x18FEF100), ("CAR_MOTOR_STATE_LENGTH", .unsigned 8),
      ("CAR_DOOR_LENGTH", .unsigned 1), ("CAR_MOTOR_STATE_IS_EXTENDED", .plain 0), ("CAR_DOOR_IS_EXTENDED", .plain 1),
      ("CAR_MOTOR_STATE_CYCLE_TIME_MS", .unsigned 100), ("CAR_MOTOR_STATE_SPEED_STOPPED_CHOICE", .unsigned 0),
      ("CAR_MOTOR_STATE_SPEED_SLOW_CHOICE", .unsigned 1), ("CAR_MOTOR_STATE_NAME", .string "MotorState"),
      ("CAR_DOOR_NAME", .string "Door"), ("CAR_MOTOR_STATE_SPEED_NAME", .string "Speed"),
      ("CAR_MOTOR_STATE_OIL_TEMP_NAME", .string "OilTemp"), ("CAR_DOOR_OPEN_NAME", .string "Open")] := by decide +kernel

/-- No two macros have the same name. Missing: names of messages or signals one of which continues another after an
underscore; for these it is false. -/
theorem C58_macros_distinct_partial (o : C.Options) (ms : List C.GenMessage) (hm : MessagesApart ms) (hs : SignalsApart ms)
    (hc : ∀ m ∈ ms, ∀ s ∈ m.signals, ∀ cs, s.signal.conversion.choices = some cs → (cs.map (·.1)).Nodup) :
    ((C.macros o ms).map (·.1)).Nodup :=
  C.macros_distinct o ms hm hs hc

example : MessagesApart [CHeaderExample.motor, CHeaderExample.door] ∧ SignalsApart [CHeaderExample.motor, CHeaderExample.door] ∧
    ∀ m ∈ [CHeaderExample.motor, CHeaderExample.door], ∀ s ∈ m.signals, ∀ cs, s.signal.conversion.choices = some cs →
      (cs.map (·.1)).Nodup := by
  unfold MessagesApart SignalsApart Overlap
  refine ⟨by decide +kernel, by decide +kernel, ?_⟩
  intro m hm s hs cs h
  have : ∀ m ∈ [CHeaderExample.motor, CHeaderExample.door], ∀ s ∈ m.signals, ∀ cs ∈ s.signal.conversion.choices,
      (cs.map (·.1)).Nodup := by decide +kernel
  exact this m hm s hs cs h

/-- Two macros may have the same name and different values. -/
theorem CHeaderExample.C58_macros_clash :
    ∃ ms : List C.GenMessage, ("D_M_A_B_C_CHOICE".toList, C.MacroValue.unsigned 0) ∈ C.macros { database := ['d'] } ms ∧
      ("D_M_A_B_C_CHOICE".toList, C.MacroValue.unsigned 1) ∈ C.macros { database := ['d'] } ms :=
  ⟨[{ name := "M", frameId := 1, length := 8, signals :=
      [CHeaderExample.signal "a" (choices := some [(0, .str "B_C")]),
        CHeaderExample.signal "a_b" (choices := some [(1, .str "C")])] }], by decide +kernel, by decide +kernel⟩

/-- The structs are those of the messages the node sends or receives. -/
theorem C58_structs (o : C.Options) (ms : List C.GenMessage) (name : List Char) (members : List C.Member) :
    (name, members) ∈ C.structs o ms ↔
      ∃ m ∈ ms, HasStruct o m ∧ name = nameOf [o.database, m.snake, "t".toList] ∧ MembersOf o.bitFields m members :=
  C.mem_structs' o ms name members

example : (C.structs { database := "car".toList, bitFields := true, node := some "Motor" } [CHeaderExample.motor, CHeaderExample.door]) =
    [("car_motor_state_t".toList, [⟨.uint 8, "speed".toList, some 8⟩, ⟨.uint 8, "oil_temp".toList, some 8⟩]),
      ("car_door_t".toList, [⟨.uint 8, "open".toList, some 1⟩])] := by decide +kernel

/-- Every struct a declared function uses is declared. -/
theorem C58_structs_used (o : C.Options) (ms : List C.GenMessage) (p : C.Proto) (hp : p ∈ C.declarations o ms)
    (const : Bool) (name : List Char) (h : .struct const name ∈ p.params) : name ∈ (C.structs o ms).map (·.1) :=
  C.structs_used o ms p hp const name h

example : ∃ p ∈ C.declarations { database := ['d'] } [CHeaderExample.motor], .struct true "d_motor_state_t".toList ∈ p.params :=
  ⟨C.packProto { database := ['d'] } CHeaderExample.motor, by decide +kernel, by decide +kernel⟩

/-- After `…_init` each member has the initial value of its signal, or zero if there is none. Missing: initial values
other than zero whose physical value is zero or an empty text; for these it is false. -/
theorem C58_init_partial (m : C.GenMessage) (hn : (m.signals.map (·.snake)).Nodup)
    (hr : ∀ s ∈ m.signals, ∀ r, s.rawInitial = some r → Storable s r)
    (hz : ∀ s ∈ m.signals, ∀ r, s.rawInitial = some r → s.initial = some (.num 0) ∨ s.initial = some (.str "") → r = 0) :
    ∃ st, C.init m = .ok st ∧ ∀ s ∈ m.signals, dictGet? st s.snake = some (initialMember s) :=
  C.init_ok m hn (fun s hs r h => C.storable (hr s hs r h)) hz

example : (CHeaderExample.motor.signals.map (·.snake)).Nodup ∧
    (∀ s ∈ CHeaderExample.motor.signals, ∀ r, s.rawInitial = some r → Storable s r) ∧
    (∀ s ∈ CHeaderExample.motor.signals, ∀ r, s.rawInitial = some r →
      s.initial = some (.num 0) ∨ s.initial = some (.str "") → r = 0) := by
  refine ⟨by decide +kernel, ?_, ?_⟩
  · intro s hs r h
    have : s = CHeaderExample.signal "OilTemp" (-40) (rawInitial := some 60) ∧ r = 60 := by
      simp only [CHeaderExample.motor, List.mem_cons, List.not_mem_nil, or_false] at hs
      rcases hs with rfl | rfl
      · cases h
      · exact ⟨rfl, by injection h with h; exact h.symm⟩
    obtain ⟨rfl, rfl⟩ := this
    unfold Storable
    rw [if_neg (by decide +kernel)]
    exact ⟨by decide, 60, by decide +kernel, by unfold Spec.InRange; decide +kernel⟩
  · intro s hs r h
    have : ∀ s ∈ CHeaderExample.motor.signals, ∀ r ∈ s.rawInitial,
      s.initial = some (.num 0) ∨ s.initial = some (.str "") → r = 0 := by decide +kernel
    exact this s hs r h

/-- An initial temperature of 0 degrees, raw 40, is initialised with the raw value 0, which is -40 degrees. -/
theorem CHeaderExample.C58_init_wrong :
    ∃ m : C.GenMessage, ∃ s ∈ m.signals, Storable s 40 ∧ s.rawInitial = some 40 ∧ s.initial = some (.num 0) ∧
      C.init m = .ok [(s.snake, 0)] ∧ s.signal.conversion.rawToScaled 0 true = .num (-40) := by
  refine ⟨{ name := "M", frameId := 1, length := 8, signals := [CHeaderExample.signal "T" (-40) (rawInitial := some 40)] },
    CHeaderExample.signal "T" (-40) (rawInitial := some 40), by decide +kernel, ?_, by decide +kernel, by decide +kernel,
    by decide +kernel, by decide +kernel⟩
  unfold Storable
  rw [if_neg (by decide +kernel)]
  exact ⟨by decide, 40, by decide +kernel, by unfold Spec.InRange; decide +kernel⟩

end Cantools
