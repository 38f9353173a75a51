import Verif.Spec.Tester
import Verif.Lemmas.Basic
import Verif.Props.Example

/-
Properties of the frames a tester sends: C35.
-/

namespace Cantools
open Spec Tester

section
variable {fo : FloatOps} {t t' : TMessage}

namespace Tester

theorem newFrame_ok {f : Bytes} : newFrame fo t = .ok f ↔
    ∃ g, gatherSignals t.database t.data = .ok g ∧
      encode fo t.database g t.scaling t.padding t.strict = .ok f := by
  unfold newFrame
  exact Except.bind_eq_ok

theorem afterChange_ok (h : afterChange fo t = (.ok (), t')) :
    t'.data = t.data ∧ t'.database = t.database ∧ SendsEncodingOf fo t' t.data ∧
      t'.periodicFrame.isSome = t.periodicFrame.isSome := by
  unfold afterChange updateCanMessage at h
  cases hf : newFrame fo t with
  | error e => simp [hf, bind, Except.bind] at h
  | ok f =>
    simp only [hf, bind, Except.bind, pure, Except.pure, Prod.mk.injEq, true_and] at h
    subst h
    obtain ⟨g, h1, h2⟩ := newFrame_ok.1 hf
    refine ⟨rfl, rfl, ⟨g, f, h1, h2, rfl, ?_⟩, ?_⟩
    · cases t.periodicFrame <;> simp
    · cases t.periodicFrame <;> simp

theorem afterChange_error {e : Err} (h : afterChange fo t = (.error e, t')) : t' = t := by
  unfold afterChange at h
  split at h
  · cases h
  · cases h; rfl

theorem setItem_error {n : String} {v : Value} {e : Err} (h : setItem fo t n v = (.error e, t')) :
    t' = t ∨ t' = { t with data := dictSet t.data n v } := by
  unfold setItem at h
  split at h
  · exact Or.inr (afterChange_error h)
  · cases h; exact Or.inl rfl

theorem update_error {s : List (String × Value)} {e : Err}
    (h : Tester.update fo t s = (.error e, t')) :
    t' = t ∨ t' = { t with data := dictUpdate t.data s } := by
  unfold Tester.update at h
  split at h
  · exact Or.inr (afterChange_error h)
  · cases h; exact Or.inl rfl

end Tester

/-- C35, the part that holds, one assignment: after `message[name] = value` succeeded the frame, and the
frame of the periodic task, is the encoding of all current values, among them the new one. -/
theorem C35_set_partial {n : String} {v : Value} (h : setItem fo t n v = (.ok (), t')) :
    t'.data = dictSet t.data n v ∧ SendsEncodingOf fo t' t'.data ∧
      t'.periodicFrame.isSome = t.periodicFrame.isSome := by
  unfold setItem at h
  split at h
  · obtain ⟨h1, _, h2, h3⟩ := afterChange_ok h
    rw [h1]
    exact ⟨rfl, h2, h3⟩
  · cases h

/-- C35, the part that holds, `update`. -/
theorem C35_update_partial {s : List (String × Value)} (h : Tester.update fo t s = (.ok (), t')) :
    t'.data = dictUpdate t.data s ∧ SendsEncodingOf fo t' t'.data ∧
      t'.periodicFrame.isSome = t.periodicFrame.isSome := by
  unfold Tester.update at h
  split at h
  · obtain ⟨h1, _, h2, h3⟩ := afterChange_ok h
    rw [h1]
    exact ⟨rfl, h2, h3⟩
  · cases h

/-- `update` and assignment reject names that are not signals of the message and then change nothing. -/
theorem C35_unknown_signal {s : List (String × Value)} {n : String} {v : Value} (hn : (n, v) ∈ s)
    (hu : ∀ x ∈ t.database.signals, x.name ≠ n) :
    Tester.update fo t s = (.error .keyError, t) ∧ setItem fo t n v = (.error .keyError, t) := by
  have h1 : (t.database.signals.any fun s => s.name == n) = false := by
    rw [List.any_eq_false]; intro x hx; simpa using hu x hx
  constructor
  · unfold Tester.update
    rw [if_neg]
    intro h
    rw [List.all_eq_true] at h
    have := h _ hn
    simp only at this
    rw [h1] at this; cases this
  · unfold setItem
    rw [if_neg (by rw [h1]; simp)]

/-- What holds after every history. -/
theorem C35_history {data : List (String × Value)} {failed : Bool} (h : TReached fo t data failed) :
    SendsEncodingOf fo t data ∧ (failed = false → t.data = data) := by
  induction h with
  | new _ _ _ hu => exact ⟨(C35_update_partial hu).2.1, fun _ => rfl⟩
  | @call t data failed c _ ih =>
    obtain ⟨ih, ihd⟩ := ih
    have hkeep : ∀ d, SendsEncodingOf fo { t with data := d } data := fun _ => ih
    have hupd : ∀ s, (Tester.update fo t s).1.isOk = false →
        SendsEncodingOf fo (Tester.update fo t s).2 data := by
      intro s hf
      cases hr : Tester.update fo t s with
      | mk r t2 =>
        cases r with
        | ok u => simp [hr, Except.isOk, Except.toBool] at hf
        | error e =>
          rcases update_error hr with rfl | rfl
          · exact ih
          · exact hkeep _
    cases c with
    | set n v =>
      simp only [callFails, afterCall]
      obtain ⟨r, t2, hr⟩ : ∃ r t2, setItem fo t n v = (r, t2) := ⟨_, _, rfl⟩
      simp only [hr]
      · cases r with
        | ok u =>
          have := C35_set_partial hr
          simp only [Except.isOk, Except.toBool, Bool.not_true, Bool.false_eq_true, if_false]
          exact ⟨this.2.1, fun _ => trivial⟩
        | error e =>
          simp only [Except.isOk, Except.toBool, Bool.not_false, if_true, Bool.or_true]
          refine ⟨?_, fun h => by cases h⟩
          rcases setItem_error hr with rfl | rfl
          · exact ih
          · exact hkeep _
    | update s =>
      simp only [callFails, afterCall]
      obtain ⟨r, t2, hr⟩ : ∃ r t2, Tester.update fo t s = (r, t2) := ⟨_, _, rfl⟩
      simp only [hr]
      · cases r with
        | ok u =>
          have := C35_update_partial hr
          simp only [Except.isOk, Except.toBool, Bool.not_true, Bool.false_eq_true, if_false]
          exact ⟨this.2.1, fun _ => trivial⟩
        | error e =>
          simp only [Except.isOk, Except.toBool, Bool.not_false, if_true, Bool.or_true]
          have := hupd s (by rw [hr]; rfl)
          rw [hr] at this
          exact ⟨this, fun h => by cases h⟩
    | send s =>
      simp only [callFails, afterCall]
      cases s with
      | none =>
        have hf : t.frame ≠ none := by
          obtain ⟨_, f, _, _, h3, _⟩ := ih
          rw [h3]; simp
        obtain ⟨f, hf⟩ := Option.ne_none_iff_exists'.1 hf
        simp only [Tester.send, hf, Except.isOk, Except.toBool, Bool.not_true, Bool.false_eq_true,
          if_false, Bool.or_false]
        exact ⟨ih, ihd⟩
      | some s =>
        simp only [Tester.send]
        obtain ⟨r, t2, hr⟩ : ∃ r t2, Tester.update fo t s = (r, t2) := ⟨_, _, rfl⟩
        simp only [hr]
        · cases r with
          | ok u =>
            have := C35_update_partial hr
            obtain ⟨g, f, h1, h2, h3, h4⟩ := this.2.1
            simp only [h3, Except.isOk, Except.toBool, Bool.not_true, Bool.false_eq_true, if_false]
            exact ⟨⟨g, f, h1, h2, h3, h4⟩, fun _ => trivial⟩
          | error e =>
            simp only [Except.isOk, Except.toBool, Bool.not_false, if_true, Bool.or_true]
            have := hupd s (by rw [hr]; rfl)
            rw [hr] at this
            exact ⟨this, fun h => by cases h⟩
    | start =>
      simp only [callFails, afterCall, Bool.false_eq_true, if_false, Bool.or_false]
      obtain ⟨g, f, h1, h2, h3, _⟩ := ih
      exact ⟨⟨g, f, h1, h2, h3, Or.inr h3⟩, ihd⟩
    | stop =>
      simp only [callFails, afterCall, Bool.false_eq_true, if_false, Bool.or_false]
      obtain ⟨g, f, h1, h2, h3, _⟩ := ih
      exact ⟨⟨g, f, h1, h2, h3, Or.inl rfl⟩, ihd⟩

/-- C35, the part that holds: as long as no call failed, `send()` puts the encoding of the current
values on the bus, and so does the periodic task. -/
theorem C35_send_partial {data : List (String × Value)} (h : TReached fo t data false) :
    ∃ gathered f, gatherSignals t.database t.data = .ok gathered ∧
      encode fo t.database gathered t.scaling t.padding t.strict = .ok f ∧
      Tester.send fo t none = (.ok f, t) ∧
      (t.periodicFrame = none ∨ t.periodicFrame = some f) := by
  obtain ⟨⟨g, f, h1, h2, h3, h4⟩, hd⟩ := C35_history h
  rw [← hd rfl] at h1
  exact ⟨g, f, h1, h2, by simp [Tester.send, h3], h4⟩

/-- In general the frame is the encoding of the values at the time of the last call that set values
and succeeded. -/
theorem C35_send_last_success {data : List (String × Value)} {failed : Bool}
    (h : TReached fo t data failed) :
    ∃ gathered f, gatherSignals t.database data = .ok gathered ∧
      encode fo t.database gathered t.scaling t.padding t.strict = .ok f ∧
      Tester.send fo t none = (.ok f, t) := by
  obtain ⟨⟨g, f, h1, h2, h3, _⟩, _⟩ := C35_history h
  exact ⟨g, f, h1, h2, by simp [Tester.send, h3]⟩

end

/-! ### After a failing assignment -/

namespace Example

def tnew : TMessage := { database := msg, scaling := true, padding := true, strict := true }

def initial : List (String × Value) :=
  [("Mux", .num 0), ("A", .num 3), ("B", .num 0), ("P", .num 0)]

def tm : TMessage := (Tester.update fo tnew initial).2

theorem tm_ok : Tester.update fo tnew initial = (.ok (), tm) := by
  have h : (Tester.update fo tnew initial).1.isOk = true := by decide +kernel
  unfold tm
  cases hr : Tester.update fo tnew initial with
  | mk r t2 =>
    cases r with
    | ok u => rfl
    | error e => rw [hr] at h; cases h

theorem tm_reached : TReached fo tm tm.data false := .new rfl rfl rfl tm_ok

/-- `A` is at most 500. -/
def tbad : TMessage := (setItem fo tm "A" (.num 600)).2

theorem tbad_fails : (setItem fo tm "A" (.num 600)).1 = .error .encodeError := by
  have h : (match (setItem fo tm "A" (.num 600)).1 with
    | .error .encodeError => true | _ => false) = true := by decide +kernel
  revert h
  cases (setItem fo tm "A" (.num 600)).1 with
  | ok u => intro h; cases h
  | error e => cases e <;> simp

theorem tbad_reached : TReached fo tbad tm.data true := by
  have := TReached.call (.set "A" (.num 600)) tm_reached
  have hf : callFails fo tm (.set "A" (.num 600)) = true := by
    simp only [callFails, tbad_fails]; rfl
  rw [hf] at this
  exact this

/-- Assignments succeed in the example. -/
example : (setItem fo tm "A" (.num 100)).1.isOk = true := by decide +kernel

end Example

open Example in
/-- C35 is false after a failing assignment: the new value can be read back, but `send()` succeeds and
sends the frame with the old one. -/
theorem C35_failed_assignment_stale_frame :
    ∃ (t : TMessage) (data : List (String × Value)), TReached fo t data true ∧
      dictGet? t.data "A" = some (.num 600) ∧
      (Tester.send fo t none).1 = .ok [0x00, 0xa5, 0xa0, 0x01] ∧
      (gatherSignals t.database t.data >>= fun g =>
        encode fo t.database g t.scaling t.padding t.strict) = .error .encodeError := by
  refine ⟨tbad, tm.data, tbad_reached, by decide +kernel, by decide +kernel, by decide +kernel⟩

open Example in
/-- After it, setting another signal to a valid value fails as well. -/
theorem C35_failed_assignment_sticks :
    (setItem fo tm "P" (.num 5)).1.isOk = true ∧ (setItem fo tbad "P" (.num 5)).1.isOk = false := by
  constructor <;> decide +kernel

end Cantools
