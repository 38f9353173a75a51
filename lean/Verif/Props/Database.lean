import Verif.Lemmas.Database
import Verif.Props.Example

/-
Properties of databases: C19, C20, C21.
-/

namespace Cantools
open Spec

theorem current_tables {db0 db : Db} (h : db0.refresh = (db, none)) :
    db.messages = db0.messages ∧ Tables db db.messages := by
  obtain ⟨h1, h2⟩ := refresh_spec db0
  rw [h] at h1 h2
  refine ⟨h1.messages, ?_⟩
  rcases h2 with ⟨_, _, h4⟩ | ⟨_, _, _, _, _, _, h5, _⟩
  · rw [h1.messages]; exact h4
  · cases h5

/-- C19: after `refresh` (with which construction and every `add_*` end) `get_message_by_frame_id`
returns the most recently added message that answers to the frame id. -/
theorem C19_get_by_frame_id {db0 db : Db} (h : db0.refresh = (db, none)) (hv : ValidIds db.messages)
    (id : Nat) (force : Bool) (m : DbMessage) :
    db.getByFrameId id force = .ok m ↔ LastWith (Answers db.mask id force) db.messages m := by
  obtain ⟨-, ht⟩ := current_tables h
  unfold Db.getByFrameId
  simp only
  rw [dictGet_eq_ok, ht.byId, foldl_dictSet]
  unfold LastWith
  constructor
  all_goals
    rintro ⟨a, b, h1, h2, h3⟩
    refine ⟨a, b, h1, ?_, ?_⟩
    · have := key_iff db.mask id force m (hv m (by rw [h1]; simp))
      first | exact this.1 h2 | exact this.2 h2
    · intro x hx hn
      have := key_iff db.mask id force x (hv x (by rw [h1]; simp [hx]))
      first | exact h3 x hx (this.1 hn) | exact h3 x hx (this.2 hn)

/-- C19: `get_message_by_frame_id` raises an exception, always a `KeyError`, exactly if no message
answers to the frame id. -/
theorem C19_key_error_iff {db0 db : Db} (h : db0.refresh = (db, none)) (hv : ValidIds db.messages)
    (id : Nat) (force : Bool) (e : Err) :
    db.getByFrameId id force = .error e ↔ e = .keyError ∧ ∀ m ∈ db.messages, ¬ Answers db.mask id force m := by
  rw [← lastWith_none]
  have hk := C19_get_by_frame_id h hv id force
  constructor
  · intro he
    refine ⟨dictGet_eq_keyError he, ?_⟩
    rintro ⟨m, hm⟩
    rw [(hk m).2 hm] at he
    cases he
  · rintro ⟨rfl, hn⟩
    cases hr : db.getByFrameId id force with
    | ok m => exact absurd ⟨m, (hk m).1 hr⟩ hn
    | error e => rw [dictGet_eq_keyError hr]

/-- `get_message_by_name` returns the most recently added message with that name, and raises
`KeyError` exactly if there is none. -/
theorem C21_get_by_name {db0 db : Db} (h : db0.refresh = (db, none)) (name : String) :
    (∀ m, db.getByName name = .ok m ↔ LastWith (fun m => m.name = name) db.messages m) ∧
    ∀ e, db.getByName name = .error e ↔ e = .keyError ∧ ∀ m ∈ db.messages, m.name ≠ name := by
  obtain ⟨-, ht⟩ := current_tables h
  have hk : ∀ m, db.getByName name = .ok m ↔ LastWith (fun m => m.name = name) db.messages m := by
    intro m
    unfold Db.getByName
    rw [dictGet_eq_ok, ht.byName, foldl_dictSet]
  refine ⟨hk, fun e => ?_⟩
  have hn := lastWith_none (P := fun m : DbMessage => m.name = name) (l := db.messages)
  rw [show (∀ m ∈ db.messages, m.name ≠ name) ↔ _ from hn.symm]
  constructor
  · intro he
    refine ⟨dictGet_eq_keyError he, ?_⟩
    rintro ⟨m, hm⟩
    rw [(hk m).2 hm] at he
    cases he
  · rintro ⟨rfl, hn⟩
    cases hr : db.getByName name with
    | ok m => exact absurd ⟨m, (hk m).1 hr⟩ hn
    | error e => rw [dictGet_eq_keyError hr]

/-! A database with two messages with the same name, one standard and one extended, and a mask. -/

def exDb0 : Db :=
  { messages := [⟨"M", 0x123, false, .inl Example.msg, true⟩, ⟨"M", 0x12345600, true, .inl Example.msg, true⟩,
      ⟨"N", 0x12345601, true, .inl Example.msg, true⟩], mask := 0x1fffff00 }

def exDb : Db := exDb0.refresh.1

theorem exDb_current : exDb0.refresh = (exDb, none) := rfl

theorem exDb_valid : ValidIds exDb.messages := by
  intro m hm
  have : m ∈ [(⟨"M", 0x123, false, .inl Example.msg, true⟩ : DbMessage), ⟨"M", 0x12345600, true, .inl Example.msg, true⟩,
      ⟨"N", 0x12345601, true, .inl Example.msg, true⟩] := hm
  simp only [List.mem_cons, List.not_mem_nil, or_false] at this
  rcases this with rfl | rfl | rfl <;> decide

/-- The mask makes the last message shadow the second. -/
example : LastWith (Answers exDb.mask 0x12345678 false) exDb.messages ⟨"N", 0x12345601, true, .inl Example.msg, true⟩ :=
  (C19_get_by_frame_id exDb_current exDb_valid 0x12345678 false _).1 rfl

open Classical in
/-- What stands between a frame id and the messages: `get_message_by_frame_id` applies the mask to the
requested id, `encode_message` and `decode_message` do not. -/
theorem find_id {db0 db : Db} (h : db0.refresh = (db, none)) (n : Nat) (force : Bool) :
    db.find (.id n) force =
      if ∀ i, i ≠ 31 → n.testBit i = true → db.mask.testBit i = true then db.getByFrameId n force
      else .error .keyError := by
  obtain ⟨-, ht⟩ := current_tables h
  have hb : ∀ i, (0x80000000 : Nat).testBit i = decide (i = 31) := by
    intro i
    have := Nat.testBit_two_pow (n := 31) (m := i)
    rw [show (0x80000000 : Nat) = 2 ^ 31 from rfl, this]
    simp [eq_comm]
  split
  · rename_i hc
    unfold Db.find Db.getByFrameId
    simp only
    congr 1
    apply Nat.eq_of_testBit_eq
    intro i
    by_cases hi : i = 31
    · subst hi; simp [hb]
    · split <;> simp only [Nat.testBit_and, Nat.testBit_or, hb, hi, decide_false, Bool.or_false, Bool.false_or]
      all_goals
        cases hn : n.testBit i
        · rfl
        · rw [hc i hi hn]; rfl
  · rename_i hc
    unfold Db.find
    simp only
    rw [dictGet_eq_error]
    have hne : ∀ m, ¬ LastWith (fun m => m.key db.mask = if force || decide (n > 0x7ff) then n ||| 0x80000000 else n)
        db.messages m := by
      rintro m ⟨a, b, -, h2, -⟩
      apply hc
      intro i hi hn
      have := congrArg (Nat.testBit · i) h2
      beta_reduce at this
      have h4 : (if force || decide (n > 0x7ff) then n ||| 0x80000000 else n).testBit i = true := by
        split <;> simp [hn]
      rw [h4] at this
      unfold DbMessage.key at this
      split at this <;> simp [hb, hi] at this <;> exact this.2
    cases hr : dictGet? db.byId (if force || decide (n > 0x7ff) then n ||| 0x80000000 else n) with
    | none => rfl
    | some m =>
      rw [ht.byId, foldl_dictSet] at hr
      exact absurd hr (hne m)

/-- C20: `encode_message` and `decode_message` with a name use the message `get_message_by_name`
returns, and raise `KeyError` if it does. -/
theorem C20_by_name (fo : FloatOps) (db : Db) (name : String) (d : EncodeInput) (data : Bytes)
    (scaling padding strict force choices containers truncated : Bool) :
    db.encodeMessage fo (.name name) d scaling padding strict force =
      (db.getByName name >>= fun m => m.encode fo d scaling padding strict) ∧
    db.decodeMessage fo (.name name) data choices scaling containers truncated force =
      (db.getByName name >>= fun m => match m.body with
        | .inl msg => (decode fo msg data choices scaling truncated true).map .values
        | .inr c => if containers then (decodeContainer fo c data choices scaling truncated true).map .entries
          else .error .decodeError) := by
  unfold Db.encodeMessage Db.decodeMessage Db.find
  simp only
  rw [show dictGet db.byName name = db.getByName name from rfl]
  cases db.getByName name <;> exact ⟨rfl, rfl⟩

/-- C20: with a frame id all bits of which are in the mask (any id below 2^32 for the default mask),
`encode_message` and `decode_message` use the message `get_message_by_frame_id` returns.  Missing:
frame ids with bits outside the mask, see `C20_outside_mask`. -/
theorem C20_by_frame_id_partial (fo : FloatOps) {db0 db : Db} (h : db0.refresh = (db, none)) (id : Nat)
    (d : EncodeInput) (data : Bytes) (scaling padding strict force choices containers truncated : Bool)
    (hm : ∀ i, i ≠ 31 → id.testBit i = true → db.mask.testBit i = true) :
    db.encodeMessage fo (.id id) d scaling padding strict force =
      (db.getByFrameId id force >>= fun m => m.encode fo d scaling padding strict) ∧
    db.decodeMessage fo (.id id) data choices scaling containers truncated force =
      (db.getByFrameId id force >>= fun m => match m.body with
        | .inl msg => (decode fo msg data choices scaling truncated true).map .values
        | .inr c => if containers then (decodeContainer fo c data choices scaling truncated true).map .entries
          else .error .decodeError) := by
  unfold Db.encodeMessage Db.decodeMessage
  rw [find_id h, if_pos hm]
  cases db.getByFrameId id force <;> exact ⟨rfl, rfl⟩

/-- The default mask covers all frame ids. -/
theorem C20_default_mask {db : Db} (h : db.mask = 0xffffffff) (id : Nat) (hid : id < 2 ^ 32) (i : Nat) (_ : i ≠ 31)
    (hb : id.testBit i = true) : db.mask.testBit i = true := by
  have hi : i < 32 := by
    by_contra hc
    rw [Nat.testBit_lt_two_pow (lt_of_lt_of_le hid (Nat.pow_le_pow_right (by omega) (by omega)))] at hb
    cases hb
  have : db.mask = 2 ^ 32 - 1 := h
  rw [this, Nat.testBit_two_pow_sub_one]
  simpa using hi

/-- C20, the rest: with any other frame id they raise `KeyError`, whatever
`get_message_by_frame_id` returns; in particular they never use another message. -/
theorem C20_outside_mask (fo : FloatOps) {db0 db : Db} (h : db0.refresh = (db, none)) (id : Nat)
    (d : EncodeInput) (data : Bytes) (scaling padding strict force choices containers truncated : Bool)
    (hm : ¬ ∀ i, i ≠ 31 → id.testBit i = true → db.mask.testBit i = true) :
    db.encodeMessage fo (.id id) d scaling padding strict force = .error .keyError ∧
    db.decodeMessage fo (.id id) data choices scaling containers truncated force = .error .keyError := by
  unfold Db.encodeMessage Db.decodeMessage
  rw [find_id h, if_neg hm]
  exact ⟨rfl, rfl⟩

/-- C20 fails for a mask: `get_message_by_frame_id(0x12345678)` finds the message, `decode_message`
raises `KeyError`. -/
theorem C20_mask_ignored (fo : FloatOps) :
    exDb.getByFrameId 0x12345678 false = .ok ⟨"N", 0x12345601, true, .inl Example.msg, true⟩ ∧
    exDb.decodeMessage fo (.id 0x12345678) [0, 0, 0, 0, 0, 0, 0, 0] true true false false false = .error .keyError := by
  refine ⟨rfl, ?_⟩
  refine (C20_outside_mask fo exDb_current _ (.values []) _ true false false _ _ _ _ ?_).2
  intro h
  exact absurd (h 3 (by decide) (by decide)) (by decide)

/-- The messages an operation adds. -/
def DbOp.added : DbOp → List DbMessage
  | .addArxml l => l.messages
  | .addOther l => l.messages
  | _ => []

/-- Operations that do not change messages behind the database's back. -/
def DbOp.IsAddition : DbOp → Prop
  | .addArxml _ => True
  | .addOther _ => True
  | _ => False

theorem step_messages (db : Db) (op : DbOp) (h : op.IsAddition) :
    (db.step op).1.messages = db.messages ++ op.added ∧ (db.step op).1.mask = db.mask := by
  cases op with
  | addArxml l => exact ⟨(refresh_spec _).1.messages, (refresh_spec _).1.mask⟩
  | addOther l => exact ⟨(refresh_spec _).1.messages, (refresh_spec _).1.mask⟩
  | modify f => exact h.elim
  | refresh => exact h.elim

/-- C21: after any sequence of additions the messages are those at the start followed by all added
ones, in order. -/
theorem C21_messages (db : Db) (ops : List DbOp) (h : ∀ op ∈ ops, op.IsAddition) :
    (db.run ops).messages = db.messages ++ ops.flatMap DbOp.added ∧ (db.run ops).mask = db.mask := by
  unfold Db.run
  induction ops generalizing db with
  | nil => simp
  | cons op r ih =>
    rw [List.foldl_cons]
    obtain ⟨h1, h2⟩ := ih (db.step op).1 (fun o ho => h o (List.mem_cons_of_mem _ ho))
    obtain ⟨h3, h4⟩ := step_messages db op (h op (by simp))
    rw [h1, h2, h3, h4]
    simp

/-- C21: nodes, buses, version and DBC specific data are those of the last addition; the AUTOSAR
specific data those of the last ARXML addition. -/
theorem C21_last_addition (db : Db) (ops : List DbOp) (l : Loaded) :
    (∀ op, op = .addArxml l ∨ op = .addOther l →
      (db.run (ops ++ [op])).nodes = l.nodes ∧ (db.run (ops ++ [op])).buses = l.buses ∧
      (db.run (ops ++ [op])).version = l.version ∧ (db.run (ops ++ [op])).dbc = l.dbc) ∧
    (∀ more : List DbOp, (∀ op ∈ more, ∀ l', op ≠ .addArxml l') →
      (db.run (ops ++ [.addArxml l] ++ more)).autosar = l.autosar) := by
  constructor
  · rintro op (rfl | rfl) <;> simp only [Db.run, List.foldl_append, List.foldl_cons, List.foldl_nil, Db.step]
    all_goals
      obtain ⟨h, -⟩ := refresh_spec { (List.foldl (fun d o => (d.step o).1) db ops) with messages := (List.foldl (fun d o => (d.step o).1) db ops).messages ++ l.messages, nodes := l.nodes, buses := l.buses, version := l.version, dbc := l.dbc }
      obtain ⟨h', -⟩ := refresh_spec { (List.foldl (fun d o => (d.step o).1) db ops) with messages := (List.foldl (fun d o => (d.step o).1) db ops).messages ++ l.messages, nodes := l.nodes, buses := l.buses, version := l.version, dbc := l.dbc, autosar := l.autosar }
      first
        | exact ⟨h.nodes, h.buses, h.version, h.dbc⟩
        | exact ⟨h'.nodes, h'.buses, h'.version, h'.dbc⟩
  · intro more hm
    have h1 : (db.run (ops ++ [.addArxml l])).autosar = l.autosar := by
      simp only [Db.run, List.foldl_append, List.foldl_cons, List.foldl_nil, Db.step]
      exact (refresh_spec _).1.autosar
    have h2 : ∀ (d : Db) (ms : List DbOp), (∀ op ∈ ms, ∀ l', op ≠ .addArxml l') → (d.run ms).autosar = d.autosar := by
      intro d ms hms
      induction ms generalizing d with
      | nil => rfl
      | cons o r ih =>
        rw [Db.run, List.foldl_cons]
        have := ih (d.step o).1 (fun x hx => hms x (List.mem_cons_of_mem _ hx))
        rw [Db.run] at this
        rw [this]
        cases o with
        | addArxml l' => exact absurd rfl (hms _ (by simp) l')
        | addOther l' => exact (refresh_spec _).1.autosar
        | modify f => rfl
        | refresh => exact (refresh_spec _).1.autosar
    have h3 := h2 (db.run (ops ++ [.addArxml l])) more hm
    rw [h1] at h3
    rw [← h3]
    simp only [Db.run, List.foldl_append]

/-- C21, lookups: whatever happened before, an addition or `refresh` that does not raise leaves a
database in which frame ids and names are found as C19 and `C21_get_by_name` say; it raises nothing
if all messages can be refreshed. -/
theorem C21_lookups (db : Db) (ops : List DbOp) (op : DbOp) (hop : ∀ f, op ≠ .modify f) :
    ∃ db0 : Db, (db.run ops).step op = db0.refresh ∧
      (((db.run ops).step op).2 = none ↔ ∀ m ∈ ((db.run ops).step op).1.messages, m.refreshes = true) := by
  have key : ∀ db0 : Db, db0.refresh.2 = none ↔ ∀ m ∈ db0.refresh.1.messages, m.refreshes = true := by
    intro db0
    obtain ⟨h1, h2⟩ := refresh_spec db0
    rw [h1.messages]
    rcases h2 with ⟨h3, h4, -⟩ | ⟨a, m, b, h3, -, h4, h5, -⟩
    · exact ⟨fun _ => h3, fun _ => h4⟩
    · rw [h5, h3]
      constructor
      · intro h; cases h
      · intro h; rw [h m (by simp)] at h4; cases h4
  cases op with
  | addArxml l => exact ⟨_, rfl, key _⟩
  | addOther l => exact ⟨_, rfl, key _⟩
  | modify f => exact absurd rfl (hop f)
  | refresh => exact ⟨_, rfl, key _⟩

/-- C21, failure: when a message cannot be refreshed, `Error` is raised, the messages stay in the
database, but only those before the failing one can be found by name (the same holds for frame ids). -/
theorem C21_failed_refresh (db0 : Db) (h : db0.refresh.2 ≠ none) :
    db0.refresh.2 = some .error ∧ db0.refresh.1.messages = db0.messages ∧
    ∃ a m b, db0.messages = a ++ m :: b ∧ (∀ x ∈ a, x.refreshes = true) ∧ m.refreshes = false ∧
      ∀ name x, db0.refresh.1.getByName name = .ok x ↔ LastWith (fun m => m.name = name) a x := by
  obtain ⟨h1, h2⟩ := refresh_spec db0
  rcases h2 with ⟨-, h4, -⟩ | ⟨a, m, b, h3, h6, h4, h5, h7⟩
  · exact absurd h4 h
  · refine ⟨h5, h1.messages, a, m, b, h3, h6, h4, ?_⟩
    intro name x
    unfold Db.getByName
    rw [dictGet_eq_ok, h7.byName, foldl_dictSet]

example : ({ messages := [⟨"A", 1, false, .inl Example.msg, true⟩, ⟨"B", 2, false, .inl Example.msg, false⟩] } : Db).refresh.2 ≠ none := by
  decide +kernel

/-- Modifying a message without `refresh` leaves the old name in the table. -/
theorem C21_stale_without_refresh :
    ((exDb.run [.modify fun l => l.map fun m => { m with name := "X" }]).getByName "X") = .error .keyError := rfl

/-- A history: two files and a `refresh`. -/
example : (({} : Db).run [.addOther ⟨[⟨"A", 1, false, .inl Example.msg, true⟩], ["n"], [], none, none, none⟩,
    .addArxml ⟨[⟨"A", 2, false, .inl Example.msg, true⟩], [], ["b"], some "2", none, some "x"⟩]).getByName "A"
      = .ok ⟨"A", 2, false, .inl Example.msg, true⟩ := rfl

/-- Nodes and buses are found by the first entry with the name; `KeyError` exactly if there is none. -/
theorem C21_get_first (names : List String) (name : String) :
    getFirst names name = if name ∈ names then .ok name else .error .keyError := by
  unfold getFirst
  cases h : names.find? (· == name) with
  | none =>
    rw [if_neg]
    intro hm
    have := List.find?_eq_none.1 h name hm
    simp at this
  | some n =>
    have h1 := List.find?_some h
    have h2 := List.mem_of_find?_eq_some h
    have : n = name := by simpa using h1
    subst this
    rw [if_pos h2]

end Cantools
