import Verif.Lemmas.PlotLines
import Mathlib.Tactic.NormNum

/-!
Lemmas about the loop over the lines of the `plot` command.
-/

namespace Cantools.Plot
open Regex Spec.Plot
open LogReader (stripNewlines)

variable {fo : FloatOps} {o : Options} {db : Db} {clock : Clock} {sgs : List Sg}

/-! ### Steps -/

theorem step_empty {st : State} {line : Chars} (h : stripNewlines line = []) :
    lineStep fo o db clock sgs st line = .ok (st, true) := by
  unfold lineStep
  dsimp only
  rw [if_pos h]

theorem step_output {st : State} {line : Chars} (h : stripNewlines line ≠ [])
    (hm : matchLine st.format (stripNewlines line) = (st.format, none))
    (hd : (reDecode.match? (stripNewlines line)).isSome = true) : lineStep fo o db clock sgs st line = .ok (st, true) := by
  unfold lineStep
  dsimp only
  rw [if_neg h, hm]
  dsimp only
  rw [if_pos hd]

theorem step_junk {st : State} {line : Chars} (h : stripNewlines line ≠ [])
    (hm : matchLine st.format (stripNewlines line) = (st.format, none))
    (hd : (reDecode.match? (stripNewlines line)).isSome = false) :
    lineStep fo o db clock sgs st line =
      .ok ({ st with plotter := failedLine o st.plotter st.line (stripNewlines line), line := st.line + 1 }, true) := by
  unfold lineStep
  dsimp only
  rw [if_neg h, hm]
  dsimp only
  rw [if_neg (by rw [hd]; simp)]

theorem step_frame {st : State} {line : Chars} {f : Format} {g : Groups} (h : stripNewlines line ≠ [])
    (hm : matchLine st.format (stripNewlines line) = (some f, some g)) :
    lineStep fo o db clock sgs st line = frameStep fo o db clock sgs { st with format := some f } g := by
  unfold lineStep
  dsimp only
  rw [if_neg h, hm]

/-- Lines without frames before the first frame. -/
theorem loop_prefix {f : Format} {l1 l2 : List Chars} {items : List Spec.Plot.Item} (hr : List.Forall₂ (Reads f) l1 items)
    (hnf : ∀ i ∈ items, i.isFrame = false) (x : Axis) :
    ∀ {st : State} {es : List Entry}, st.format = none ∨ st.format = some f → Holds fo o db sgs es st.plotter →
      ∃ p n, loop fo o db clock sgs st (l1 ++ l2) = loop fo o db clock sgs { st with plotter := p, line := n } l2 ∧
        Holds fo o db sgs (es ++ placed clock x st.line items) p ∧
        (∀ r, placed clock x st.line (items ++ r) = placed clock x st.line items ++ placed clock x n r) ∧
        ∀ e ∈ placed clock x st.line items, ∃ n t, e = .junk n t := by
  induction hr with
  | nil =>
    intro st es _ h
    exact ⟨st.plotter, st.line, rfl, by simpa [placed] using h, fun r => rfl, by simp [placed]⟩
  | @cons line item l1 items hl _ ih =>
    intro st es hf h
    have hnf' : ∀ i ∈ items, i.isFrame = false := fun i hi => hnf i (by simp [hi])
    have ih := @ih hnf'
    have hskip : lineStep fo o db clock sgs st line = .ok (st, true) → item = .skip →
        ∃ p n, loop fo o db clock sgs st (line :: l1 ++ l2) = loop fo o db clock sgs { st with plotter := p, line := n } l2 ∧
        Holds fo o db sgs (es ++ placed clock x st.line (item :: items)) p ∧
        (∀ r, placed clock x st.line (item :: items ++ r) = placed clock x st.line (item :: items) ++ placed clock x n r) ∧
        ∀ e ∈ placed clock x st.line (item :: items), ∃ n t, e = .junk n t := by
      intro hs hi
      subst hi
      obtain ⟨p, n, h1, h2, h3, h4⟩ := ih hf h
      refine ⟨p, n, ?_, h2, h3, h4⟩
      rw [← h1, List.cons_append, loop]
      exact (Cdd.bind_of_ok hs).trans rfl
    cases reads_handled hf hl with
    | empty h1 => exact hskip (step_empty h1) rfl
    | output h1 h2 h3 => exact hskip (step_output h1 h2 h3) rfl
    | junk h1 h2 h3 =>
      have hs := step_junk (fo := fo) (o := o) (db := db) (clock := clock) (sgs := sgs) h1 h2 h3
      obtain ⟨p, n, g1, g2, g3, g4⟩ := ih (st := { st with plotter := failedLine o st.plotter st.line (stripNewlines line), line := st.line + 1 })
        hf (holds_add h (.junk st.line (stripNewlines line)))
      refine ⟨p, n, ?_, ?_, ?_, ?_⟩
      · rw [List.cons_append, loop]
        exact (Cdd.bind_of_ok hs).trans g1
      · rw [List.append_assoc] at g2
        exact g2
      · intro r
        rw [List.cons_append, placed, placed, List.cons_append]
        exact congrArg _ (g3 r)
      · intro e he
        rw [placed] at he
        rcases List.mem_cons.1 he with rfl | he
        · exact ⟨_, _, rfl⟩
        · exact g4 e he
    | frame h1 h2 h3 =>
      have := hnf _ (List.mem_cons_self ..)
      cases this

/-! ### Places -/

/-- The stamps are settled for the axis. -/
structure Settled (st : Stamps) (x : Axis) (a b : Option Rat) : Prop where
  start : st.start = a.map .at
  stop : st.stop = b.map .at
  use : match x with
    | .lines => st.use = some false
    | .dates => st.use = some true ∧ st.kind = some .date
    | .epoch => st.use = some true ∧ st.kind = some .absoluteSeconds
    | .seconds => st.use = some true ∧ st.kind = some .seconds

theorem require_ok {q : Option Rat} {v : Rat} : require q = .ok v ↔ q = some v := by
  cases q with
  | none => exact ⟨nofun, nofun⟩
  | some w =>
    constructor
    · intro h; injection h with h; rw [h]
    · intro h; injection h with h; rw [h]; rfl

theorem settled_parse {st : Stamps} {x : Axis} {a b : Option Rat} (h : Settled st x a b) (t : Option Chars) (n : Nat) :
    (∀ r, parseStamp clock st t n = .ok r ↔ ∃ q, x.at clock n t = some q ∧ r = (q, st)) := by
  intro r
  unfold parseStamp
  have hu := h.use
  have key : ∀ {k : Kind} {q : Option Rat}, st.use = some true → st.kind = some k →
      (∀ v, k.parse clock t = .ok v ↔ q = some v) →
      ((match st.use with
        | none => do
          let (x, st) := firstStamp clock st t n
          let st ← initStartStop clock st x
          pure (x, st)
        | some true =>
          match st.kind with
          | some k => do pure (← k.parse clock t, st)
          | none => .error .typeError
        | some false => .ok (n, st) : Except Err (Rat × Stamps)) = .ok r ↔ ∃ v, q = some v ∧ r = (v, st)) := by
    intro k q h1 h2 h3
    rw [h1, h2]
    dsimp only
    rw [bind_ok_iff]
    constructor
    · rintro ⟨v, hv, e⟩
      injection e with e
      exact ⟨v, (h3 v).1 hv, e.symm⟩
    · rintro ⟨v, hv, rfl⟩
      exact ⟨v, (h3 v).2 hv, rfl⟩
  cases x with
  | lines =>
    dsimp only at hu
    rw [hu]
    constructor
    · intro e; injection e with e; exact ⟨n, rfl, e.symm⟩
    · rintro ⟨q, hq, rfl⟩
      injection hq with hq
      rw [← hq]
  | dates =>
    refine key hu.1 hu.2 fun v => ?_
    cases t with
    | none => exact ⟨nofun, nofun⟩
    | some t => exact require_ok
  | epoch =>
    refine key hu.1 hu.2 fun v => ?_
    cases t with
    | none => exact ⟨nofun, nofun⟩
    | some t => exact require_ok
  | seconds =>
    refine key hu.1 hu.2 fun v => ?_
    cases t with
    | none => exact ⟨nofun, nofun⟩
    | some t => exact require_ok

theorem compare_at {lt : Rat → Rat → Bool} {x : Rat} {a : Option Rat} :
    compare lt x (a.map .at) = .ok (a.any fun y => lt x y) := by
  cases a <;> rfl

theorem early_iff {a : Option Rat} {q : Rat} {id : Nat} {data : Bytes} :
    Early a (.frame q id data) ↔ (a.any fun y => decide (q < y)) = true := by
  cases a with
  | none => simp [Early]
  | some y => simp [Early]

theorem late_iff {b : Option Rat} {q : Rat} {id : Nat} {data : Bytes} :
    Late b (.frame q id data) ↔ (b.any fun y => decide (y < q)) = true := by
  cases b with
  | none => simp [Late]
  | some y => simp [Late]

theorem window_junk {a b : Option Rat} {n : Nat} {t : Chars} {es : List Entry} :
    window a b (.junk n t :: es) = .junk n t :: window a b es := by
  unfold window
  rw [List.takeWhile_cons_of_pos (by simp [Early, Late]), List.filter_cons_of_pos (by simp [Early])]

theorem window_early {a b : Option Rat} {e : Entry} {es : List Entry} (h : Early a e) : window a b (e :: es) = window a b es := by
  unfold window
  rw [List.takeWhile_cons_of_pos (by simp [h]), List.filter_cons_of_neg (by simp [h])]

theorem window_late {a b : Option Rat} {e : Entry} {es : List Entry} (h : ¬ Early a e) (h' : Late b e) : window a b (e :: es) = [] := by
  unfold window
  rw [List.takeWhile_cons_of_neg (by simp [h, h'])]
  rfl

theorem window_in {a b : Option Rat} {e : Entry} {es : List Entry} (h : ¬ Early a e) (h' : ¬ Late b e) :
    window a b (e :: es) = e :: window a b es := by
  unfold window
  rw [List.takeWhile_cons_of_pos (by simp [h']), List.filter_cons_of_pos (by simp [h])]

theorem window_append {a b : Option Rat} {js es : List Entry} (h : ∀ e ∈ js, ∃ n t, e = .junk n t) :
    window a b (js ++ es) = js ++ window a b es := by
  induction js with
  | nil => rfl
  | cons e js ih =>
    obtain ⟨n, t, rfl⟩ := h e (by simp)
    rw [List.cons_append, window_junk, ih fun x hx => h x (by simp [hx])]
    rfl

theorem frameStep_settled {st : State} {x : Axis} {a b : Option Rat} (h : Settled st.stamps x a b) {g : Groups} {t : Option Chars}
    {id : Nat} {data : Bytes} (hg : moUnpack g = .ok (t, id, data)) :
    frameStep fo o db clock sgs st g =
      match x.at clock st.line t with
      | none => frameStep fo o db clock sgs st g
      | some q =>
        if (a.any fun y => decide (q < y)) = true then .ok ({ st with line := st.line + 1 }, true)
        else if (b.any fun y => decide (y < q)) = true then .ok (st, false)
        else .ok ({ st with plotter := addMsg fo o db sgs st.plotter q id data, line := st.line + 1 }, true) := by
  cases hx : x.at clock st.line t with
  | none => rfl
  | some q =>
    have hp := (settled_parse h t st.line (q, st.stamps) (clock := clock)).2 ⟨q, hx, rfl⟩
    unfold frameStep
    refine (Cdd.bind_of_ok hg).trans ?_
    dsimp only
    refine (Cdd.bind_of_ok hp).trans ?_
    dsimp only
    rw [h.start, h.stop, compare_at, compare_at]
    refine (Cdd.bind_of_ok rfl).trans ?_
    split
    · rfl
    · refine (Cdd.bind_of_ok rfl).trans ?_
      split <;> rfl

theorem frameStep_place {st : State} {x : Axis} {a b : Option Rat} (h : Settled st.stamps x a b) {g : Groups} {t : Option Chars}
    {id : Nat} {data : Bytes} (hg : moUnpack g = .ok (t, id, data)) {r : State × Bool}
    (hr : frameStep fo o db clock sgs st g = .ok r) : ∃ q, x.at clock st.line t = some q := by
  unfold frameStep at hr
  obtain ⟨v, h1, hr⟩ := bind_ok_iff.1 hr
  rw [hg] at h1
  injection h1 with h1
  subst h1
  dsimp only at hr
  obtain ⟨v, h1, hr⟩ := bind_ok_iff.1 hr
  obtain ⟨q, hq, _⟩ := (settled_parse h t st.line v).1 h1
  exact ⟨q, hq⟩

/-- The loop once the stamps are settled. -/
theorem loop_settled {f : Format} {lines : List Chars} {items : List Spec.Plot.Item} (hr : List.Forall₂ (Reads f) lines items)
    {x : Axis} {a b : Option Rat} :
    ∀ {st : State} {es : List Entry}, st.format = none ∨ st.format = some f → Settled st.stamps x a b →
      Holds fo o db sgs es st.plotter →
      (∀ st', loop fo o db clock sgs st lines = .ok st' →
        Holds fo o db sgs (es ++ window a b (placed clock x st.line items)) st'.plotter) ∧
      (Timed clock x items → ∃ st', loop fo o db clock sgs st lines = .ok st') := by
  induction hr with
  | nil =>
    intro st es _ _ h
    refine ⟨fun st' e => ?_, fun _ => ⟨st, rfl⟩⟩
    unfold loop at e
    injection e with e
    subst e
    simpa [placed, window] using h
  | @cons line item lines items hl _ ih =>
    intro st es hf hst h
    have htimed : Timed clock x (item :: items) → Timed clock x items := fun ht t id data hm => ht t id data (by simp [hm])
    have hskip : lineStep fo o db clock sgs st line = .ok (st, true) → item = .skip →
        (∀ st', loop fo o db clock sgs st (line :: lines) = .ok st' →
          Holds fo o db sgs (es ++ window a b (placed clock x st.line (item :: items))) st'.plotter) ∧
        (Timed clock x (item :: items) → ∃ st', loop fo o db clock sgs st (line :: lines) = .ok st') := by
      intro hs hi
      subst hi
      have e : loop fo o db clock sgs st (line :: lines) = loop fo o db clock sgs st lines := by
        rw [loop]; exact (Cdd.bind_of_ok hs).trans rfl
      rw [e]
      obtain ⟨i1, i2⟩ := ih hf hst h
      exact ⟨i1, fun ht => i2 (htimed ht)⟩
    cases reads_handled hf hl with
    | empty h1 => exact hskip (step_empty h1) rfl
    | output h1 h2 h3 => exact hskip (step_output h1 h2 h3) rfl
    | junk h1 h2 h3 =>
      have hs := step_junk (fo := fo) (o := o) (db := db) (clock := clock) (sgs := sgs) h1 h2 h3
      obtain ⟨i1, i2⟩ := ih (st := { st with plotter := failedLine o st.plotter st.line (stripNewlines line), line := st.line + 1 })
        hf hst (holds_add h (.junk st.line (stripNewlines line)))
      have e : loop fo o db clock sgs st (line :: lines) = loop fo o db clock sgs
          { st with plotter := failedLine o st.plotter st.line (stripNewlines line), line := st.line + 1 } lines := by
        rw [loop]; exact (Cdd.bind_of_ok hs).trans rfl
      rw [e]
      refine ⟨fun st' he => ?_, fun ht => i2 (htimed ht)⟩
      rw [placed, window_junk]
      have := i1 st' he
      rw [List.append_assoc] at this
      exact this
    | @frame g t id data h1 h2 h3 =>
      have hs := step_frame (fo := fo) (o := o) (db := db) (clock := clock) (sgs := sgs) h1 h2
      have hset : Settled { st with format := some f }.stamps x a b := hst
      have hfs := frameStep_settled (fo := fo) (o := o) (db := db) (clock := clock) (sgs := sgs)
        (st := { st with format := some f }) hset h3
      dsimp only at hfs
      cases hx : x.at clock st.line t with
      | none =>
        refine ⟨fun st' he => ?_, fun ht => ?_⟩
        · unfold loop at he
          obtain ⟨r, hr, _⟩ := bind_ok_iff.1 he
          rw [hs] at hr
          obtain ⟨q, hq⟩ := frameStep_place hset h3 hr
          rw [hx] at hq; cases hq
        · have := ht t id data (by simp) st.line
          rw [hx] at this; cases this
      | some q =>
        rw [hx] at hfs
        dsimp only at hfs
        rw [placed, hx]
        dsimp only
        by_cases hea : (a.any fun y => decide (q < y)) = true
        · rw [if_pos hea] at hfs
          obtain ⟨i1, i2⟩ := ih (st := { st with format := some f, line := st.line + 1 }) (.inr rfl) hst h
          have e : loop fo o db clock sgs st (line :: lines) =
              loop fo o db clock sgs { st with format := some f, line := st.line + 1 } lines := by
            rw [loop]; exact (Cdd.bind_of_ok (hs.trans hfs)).trans rfl
          rw [e, window_early (early_iff.2 hea)]
          exact ⟨i1, fun ht => i2 (htimed ht)⟩
        · rw [if_neg hea] at hfs
          by_cases hla : (b.any fun y => decide (y < q)) = true
          · rw [if_pos hla] at hfs
            have e : loop fo o db clock sgs st (line :: lines) = .ok { st with format := some f } := by
              rw [loop]; exact (Cdd.bind_of_ok (hs.trans hfs)).trans rfl
            rw [e, window_late (fun hh => hea (early_iff.1 hh)) (late_iff.2 hla)]
            refine ⟨fun st' he => ?_, fun _ => ⟨_, rfl⟩⟩
            injection he with he
            subst he
            rw [List.append_nil]
            exact h
          · rw [if_neg hla] at hfs
            obtain ⟨i1, i2⟩ := ih (st := { st with format := some f, plotter := addMsg fo o db sgs st.plotter q id data, line := st.line + 1 })
              (.inr rfl) hst (holds_add h (.frame q id data))
            have e : loop fo o db clock sgs st (line :: lines) = loop fo o db clock sgs
                { st with format := some f, plotter := addMsg fo o db sgs st.plotter q id data, line := st.line + 1 } lines := by
              rw [loop]; exact (Cdd.bind_of_ok (hs.trans hfs)).trans rfl
            rw [e, window_in (fun hh => hea (early_iff.1 hh)) (fun hh => hla (late_iff.1 hh))]
            refine ⟨fun st' he => ?_, fun ht => i2 (htimed ht)⟩
            have := i1 st' he
            rw [List.append_assoc] at this
            exact this

/-! ### The first frame -/

/-- The stamps with their method. -/
def withAxis (st : Stamps) : Axis → Stamps
  | .lines => { st with use := some false }
  | .dates => { st with use := some true, kind := some .date }
  | .epoch => { st with use := some true, kind := some .absoluteSeconds }
  | .seconds => { st with use := some true, kind := some .seconds }

theorem first_stamp (clock : Clock) (st : Stamps) (t : Option Chars) (n : Nat) :
    ∃ q, Plot.firstStamp clock st t n = (q, withAxis st (axisOf clock t)) ∧ (axisOf clock t).at clock n t = some q := by
  cases t with
  | none => exact ⟨n, rfl, rfl⟩
  | some t =>
    unfold Plot.firstStamp axisOf
    dsimp only
    cases hd : clock.date t with
    | some q => exact ⟨q, rfl, hd⟩
    | none =>
      simp only [Option.isSome_none, Bool.false_eq_true, if_false]
      cases hq : clock.float t with
      | none => exact ⟨n, rfl, rfl⟩
      | some q =>
        dsimp only
        by_cases hw : q > 60 * 60 * 24 * 7
        · rw [if_pos hw, if_neg (by norm_num at hw ⊢; exact hw)]
          cases hs : clock.fromSeconds q with
          | none => exact ⟨n, by simp [withAxis], by simp [Axis.at]⟩
          | some v => exact ⟨v, by simp [withAxis], by simp [Axis.at, hq, hs]⟩
        · rw [if_neg hw, if_pos (by norm_num at hw ⊢; exact hw)]
          exact ⟨q, rfl, hq⟩

theorem read_bound (clock : Clock) (st : Stamps) (x : Axis) (base : Rat) (t : Chars) (v : Rat) :
    readBound clock (withAxis st x) base (.text t) = .ok v ↔ x.bound clock base t = some v := by
  unfold readBound
  cases x <;> simp [withAxis, Axis.bound, require_ok]

theorem init_bounds (clock : Clock) (st : Stamps) (x : Axis) (base : Rat) {start stop : Option Chars}
    (hs : st.start = start.map .text) (he : st.stop = stop.map .text) (r : Stamps) :
    initStartStop clock (withAxis st x) base = .ok r ↔
      ∃ a b, Limits clock x base start stop a b ∧ r = { withAxis st x with start := a.map .at, stop := b.map .at } := by
  have h1 : (withAxis st x).start = start.map .text := by cases x <;> exact hs
  have h2 : (withAxis st x).stop = stop.map .text := by cases x <;> exact he
  unfold initStartStop Limits
  cases start with
  | none =>
    rw [Option.map_none] at h1
    cases stop with
    | none =>
      rw [Option.map_none] at h2
      rw [h1, h2]
      have e : ({ withAxis st x with start := (none : Option Rat).map Bound.at, stop := (none : Option Rat).map Bound.at } : Stamps) = withAxis st x := by
        cases hw : withAxis st x
        rw [hw] at h1 h2
        simp only at h1 h2
        simp [h1, h2]
      constructor
      · intro h
        injection h with h
        exact ⟨none, none, ⟨rfl, rfl⟩, by rw [e, h]⟩
      · rintro ⟨a, b, ⟨rfl, rfl⟩, rfl⟩
        rw [e]
        rfl
    | some u =>
      rw [Option.map_some] at h2
      rw [h1, h2]
      dsimp only
      rw [bind_ok_iff]
      constructor
      · rintro ⟨v, hv, h⟩
        injection h with h
        exact ⟨none, some v, ⟨rfl, v, rfl, (read_bound ..).1 hv⟩, by rw [← h]; rfl⟩
      · rintro ⟨a, b, ⟨rfl, v, rfl, hv⟩, rfl⟩
        exact ⟨v, (read_bound ..).2 hv, rfl⟩
  | some t =>
    rw [Option.map_some] at h1
    cases stop with
    | none =>
      rw [Option.map_none] at h2
      rw [h1, h2]
      dsimp only
      rw [bind_ok_iff]
      constructor
      · rintro ⟨v, hv, h⟩
        injection h with h
        exact ⟨some v, none, ⟨⟨v, rfl, (read_bound ..).1 hv⟩, rfl⟩, by rw [← h]; rfl⟩
      · rintro ⟨a, b, ⟨⟨v, rfl, hv⟩, rfl⟩, rfl⟩
        exact ⟨v, (read_bound ..).2 hv, rfl⟩
    | some u =>
      rw [Option.map_some] at h2
      rw [h1, h2]
      dsimp only
      rw [bind_ok_iff]
      constructor
      · rintro ⟨v, hv, h⟩
        obtain ⟨w, hw, h⟩ := bind_ok_iff.1 h
        injection h with h
        exact ⟨some v, some w, ⟨⟨v, rfl, (read_bound ..).1 hv⟩, w, rfl, (read_bound ..).1 hw⟩, h.symm⟩
      · rintro ⟨a, b, ⟨⟨v, rfl, hv⟩, w, rfl, hw⟩, rfl⟩
        exact ⟨v, (read_bound ..).2 hv, bind_ok_iff.2 ⟨w, (read_bound ..).2 hw, rfl⟩⟩

theorem settled_with (st : Stamps) (x : Axis) (a b : Option Rat) :
    Settled { withAxis st x with start := a.map .at, stop := b.map .at } x a b :=
  ⟨rfl, rfl, by cases x <;> simp [withAxis]⟩

/-! ### The log -/

theorem split_first (items : List Spec.Plot.Item) :
    (∀ i ∈ items, i.isFrame = false) ∨
      ∃ i1 t id data i2, items = i1 ++ .frame t id data :: i2 ∧ ∀ i ∈ i1, i.isFrame = false := by
  induction items with
  | nil => exact .inl (by simp)
  | cons i items ih =>
    cases i with
    | frame t id data => exact .inr ⟨[], t, id, data, items, rfl, by simp⟩
    | skip =>
      rcases ih with h | ⟨i1, t, id, data, i2, rfl, h⟩
      · exact .inl fun j hj => by rcases List.mem_cons.1 hj with rfl | hj; rfl; exact h j hj
      · exact .inr ⟨.skip :: i1, t, id, data, i2, rfl, fun j hj => by rcases List.mem_cons.1 hj with rfl | hj; rfl; exact h j hj⟩
    | junk u =>
      rcases ih with h | ⟨i1, t, id, data, i2, rfl, h⟩
      · exact .inl fun j hj => by rcases List.mem_cons.1 hj with rfl | hj; rfl; exact h j hj
      · exact .inr ⟨.junk u :: i1, t, id, data, i2, rfl, fun j hj => by rcases List.mem_cons.1 hj with rfl | hj; rfl; exact h j hj⟩

theorem firstStamp_prefix {i1 r : List Spec.Plot.Item} (h : ∀ i ∈ i1, i.isFrame = false) :
    Spec.Plot.firstStamp (i1 ++ r) = Spec.Plot.firstStamp r := by
  induction i1 with
  | nil => rfl
  | cons i i1 ih =>
    have ih := ih fun j hj => h j (by simp [hj])
    cases i with
    | frame t id data => have := h _ (List.mem_cons_self ..); cases this
    | skip => exact ih
    | junk u => exact ih

theorem firstPlace_prefix {js es : List Entry} (h : ∀ e ∈ js, ∃ n t, e = .junk n t) : firstPlace (js ++ es) = firstPlace es := by
  induction js with
  | nil => rfl
  | cons e js ih =>
    obtain ⟨n, t, rfl⟩ := h e (by simp)
    exact ih fun x hx => h x (by simp [hx])

theorem window_none (es : List Entry) : window none none es = es := by
  induction es with
  | nil => rfl
  | cons e es ih =>
    rw [window_in, ih]
    · cases e <;> simp [Early]
    · cases e <;> simp [Late]

/-- The state at the beginning. -/
def initial (o : Options) : State :=
  { stamps := { use := if o.showSyntax ∨ o.lineNumbers then some false else none
                start := o.start.map .text, stop := o.stop.map .text } }

theorem loop_log {f : Format} {lines : List Chars} {items : List Spec.Plot.Item} (hr : List.Forall₂ (Reads f) lines items) :
    (∀ st, loop fo o db clock sgs (initial o) lines = .ok st →
      ∃ entries, LogEntries o clock items entries ∧ Holds fo o db sgs entries st.plotter) ∧
    (Timed clock (axisFor o clock items) items → Bounded o clock items →
      ∃ st, loop fo o db clock sgs (initial o) lines = .ok st) := by
  rcases split_first items with hnf | ⟨i1, t, id, data, i2, rfl, hnf⟩
  · -- no frames
    obtain ⟨p, n, h1, h2, _, h4⟩ := loop_prefix (fo := fo) (o := o) (db := db) (clock := clock) (sgs := sgs) (l2 := [])
      hr hnf (axisFor o clock items) (st := initial o) (es := []) (.inl rfl) (holds_nil fo o db sgs)
    rw [List.append_nil] at h1
    refine ⟨fun st e => ?_, fun _ _ => ⟨_, h1⟩⟩
    rw [h1] at e
    injection e with e
    subst e
    refine ⟨placed clock (axisFor o clock items) 1 items, ?_, h2⟩
    unfold LogEntries
    have := firstPlace_prefix (es := []) h4
    rw [List.append_nil] at this
    dsimp only
    rw [show (initial o).line = 1 from rfl] at this
    rw [this]
    rfl
  · -- the first frame
    obtain ⟨l1, l2', hr1, hr2, rfl⟩ : ∃ l1 l2, List.Forall₂ (Reads f) l1 i1 ∧
        List.Forall₂ (Reads f) l2 (.frame t id data :: i2) ∧ lines = l1 ++ l2 := by
      have hlen := hr.length_eq
      refine ⟨lines.take i1.length, lines.drop i1.length, ?_, ?_, (List.take_append_drop _ _).symm⟩
      · have := List.forall₂_take i1.length hr
        rwa [List.take_left'] at this
        rfl
      · have := List.forall₂_drop i1.length hr
        rwa [List.drop_left'] at this
        rfl
    obtain ⟨p, n, h1, h2, h3, h4⟩ := loop_prefix (fo := fo) (o := o) (db := db) (clock := clock) (sgs := sgs) (l2 := l2')
      hr1 hnf (axisFor o clock (i1 ++ .frame t id data :: i2)) (st := initial o) (es := []) (.inl rfl) (holds_nil fo o db sgs)
    rw [show (initial o).line = 1 from rfl] at h2 h3 h4
    rw [List.nil_append] at h2
    rw [h1]
    generalize hx : axisFor o clock (i1 ++ .frame t id data :: i2) = x at *
    have hall := h3 (.frame t id data :: i2)
    -- once the stamps are settled
    have fin : ∀ {stamps : Stamps} {a b : Option Rat}, Settled stamps x a b →
        (∀ q, firstPlace (placed clock x 1 (i1 ++ .frame t id data :: i2)) = some q → Limits clock x q o.start o.stop a b) →
        (∃ q, x.at clock n t = some q) →
        (∀ st, loop fo o db clock sgs { initial o with stamps := stamps, plotter := p, line := n } l2' = .ok st →
          ∃ entries, LogEntries o clock (i1 ++ .frame t id data :: i2) entries ∧ Holds fo o db sgs entries st.plotter) ∧
        (Timed clock x (i1 ++ .frame t id data :: i2) →
          ∃ st, loop fo o db clock sgs { initial o with stamps := stamps, plotter := p, line := n } l2' = .ok st) := by
      intro stamps a b hset hlim ⟨q, hq⟩
      obtain ⟨s1, s2⟩ := loop_settled (fo := fo) (o := o) (db := db) (clock := clock) (sgs := sgs) hr2
        (st := { initial o with stamps := stamps, plotter := p, line := n }) (.inl rfl) hset h2
      refine ⟨fun st e => ⟨_, ?_, s1 st e⟩, fun ht => s2 fun t' id' data' hm => ht t' id' data' (by simp only [List.mem_append]; exact .inr hm)⟩
      unfold LogEntries
      dsimp only
      rw [hx]
      have hfp : firstPlace (placed clock x 1 (i1 ++ .frame t id data :: i2)) = some q := by
        rw [hall, firstPlace_prefix h4, placed, hq]
        rfl
      rw [hfp]
      refine ⟨a, b, hlim q hfp, ?_⟩
      rw [hall, window_append h4]
    obtain ⟨line, l2, hl, hr2', rfl⟩ : ∃ line l2, Reads f line (.frame t id data) ∧ List.Forall₂ (Reads f) l2 i2 ∧ l2' = line :: l2 := by
      cases hr2 with
      | cons hl h => exact ⟨_, _, hl, h, rfl⟩
    by_cases hforce : o.showSyntax = true ∨ o.lineNumbers = true
    · have hxl : x = .lines := by
        rw [← hx]; unfold axisFor; rw [if_pos hforce]
      subst hxl
      have huse : (initial o).stamps.use = some false := by
        unfold initial; simp only; rw [if_pos hforce]
      by_cases hb : o.start = none ∧ o.stop = none
      · have hset : Settled (initial o).stamps .lines none none := ⟨by simp [initial, hb.1], by simp [initial, hb.2], huse⟩
        obtain ⟨f1, f2⟩ := fin hset (fun q _ => by rw [hb.1, hb.2]; exact ⟨rfl, rfl⟩) ⟨n, rfl⟩
        exact ⟨f1, fun ht _ => f2 ht⟩
      · refine ⟨fun st e => ?_, fun _ hbd => absurd (hbd.1 hforce) hb⟩
        exfalso
        unfold loop at e
        obtain ⟨r, hs, _⟩ := bind_ok_iff.1 e
        cases reads_handled (fmt := none) (.inl rfl) hl with
        | @frame g _ _ _ g1 g2 g3 =>
          rw [step_frame g1 g2] at hs
          unfold frameStep at hs
          obtain ⟨v, hv, hs⟩ := bind_ok_iff.1 hs
          rw [g3] at hv
          injection hv with hv
          subst hv
          dsimp only at hs
          obtain ⟨v, hv, hs⟩ := bind_ok_iff.1 hs
          unfold parseStamp at hv
          rw [huse] at hv
          injection hv with hv
          subst hv
          dsimp only at hs
          obtain ⟨v, hv, hs⟩ := bind_ok_iff.1 hs
          cases hstart : o.start with
          | some u =>
            have : (initial o).stamps.start = some (.text u) := by simp [initial, hstart]
            rw [this] at hv
            cases hv
          | none =>
            have : (initial o).stamps.start = none := by simp [initial, hstart]
            rw [this] at hv
            injection hv with hv
            subst hv
            rw [if_neg (by simp)] at hs
            obtain ⟨v, hv, hs⟩ := bind_ok_iff.1 hs
            cases hstop : o.stop with
            | some u =>
              have : (initial o).stamps.stop = some (.text u) := by simp [initial, hstop]
              rw [this] at hv
              cases hv
            | none => exact hb ⟨hstart, hstop⟩
    · have hxa : x = axisOf clock t := by
        rw [← hx]; unfold axisFor; rw [if_neg hforce, firstStamp_prefix hnf]
        rfl
      have huse : (initial o).stamps.use = none := by
        unfold initial; simp only; rw [if_neg hforce]
      obtain ⟨q, hq1, hq2⟩ := first_stamp clock (initial o).stamps t n
      rw [← hxa] at hq1 hq2
      have hinit := init_bounds clock (initial o).stamps x q (start := o.start) (stop := o.stop) rfl rfl
      have hfp : firstPlace (placed clock x 1 (i1 ++ .frame t id data :: i2)) = some q := by
        rw [hall, firstPlace_prefix h4, placed, hq2]
        rfl
      cases reads_handled (fmt := none) (.inl rfl) hl with
      | @frame g _ _ _ g1 g2 g3 =>
        cases hi : initStartStop clock (withAxis (initial o).stamps x) q with
        | error err =>
          refine ⟨fun st e => ?_, fun _ hbd => ?_⟩
          · exfalso
            unfold loop at e
            obtain ⟨r, hs, _⟩ := bind_ok_iff.1 e
            rw [step_frame g1 g2] at hs
            unfold frameStep at hs
            obtain ⟨v, hv, hs⟩ := bind_ok_iff.1 hs
            rw [g3] at hv
            injection hv with hv
            subst hv
            dsimp only at hs
            obtain ⟨v, hv, hs⟩ := bind_ok_iff.1 hs
            unfold parseStamp at hv
            rw [huse] at hv
            dsimp only at hv
            rw [hq1] at hv
            dsimp only at hv
            rw [hi] at hv
            cases hv
          · exfalso
            have h := hbd.2
            rw [hx] at h
            obtain ⟨a, b, hlim⟩ := h q hfp
            rw [(hinit _).2 ⟨a, b, hlim, rfl⟩] at hi
            cases hi
        | ok st2 =>
          obtain ⟨a, b, hlim, hst2⟩ := (hinit st2).1 hi
          have hset : Settled st2 x a b := by rw [hst2]; exact settled_with _ _ _ _
          obtain ⟨f1, f2⟩ := fin hset (fun q' hq' => by rw [hfp] at hq'; injection hq' with hq'; subst hq'; exact hlim) ⟨q, hq2⟩
          have e : loop fo o db clock sgs { initial o with plotter := p, line := n } (line :: l2) =
              loop fo o db clock sgs { initial o with stamps := st2, plotter := p, line := n } (line :: l2) := by
            rw [loop, loop, step_frame (st := { initial o with plotter := p, line := n }) g1 g2,
              step_frame (st := { initial o with stamps := st2, plotter := p, line := n }) g1 g2]
            congr 1
            unfold frameStep
            rw [g3]
            show (parseStamp clock (initial o).stamps t n >>= _) = (parseStamp clock st2 t n >>= _)
            have e1 : parseStamp clock (initial o).stamps t n = .ok (q, st2) := by
              unfold parseStamp
              rw [huse]
              dsimp only
              rw [hq1]
              dsimp only
              rw [hi]
              rfl
            have e2 : parseStamp clock st2 t n = .ok (q, st2) := (settled_parse hset t n _).2 ⟨q, hq2, rfl⟩
            rw [e1, e2]
          rw [e]
          exact ⟨f1, fun ht _ => f2 ht⟩

end Cantools.Plot
