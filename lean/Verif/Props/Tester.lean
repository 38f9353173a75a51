import Verif.Spec.Tester
import Verif.Lemmas.Basic
import Verif.Props.Example
import Mathlib.Data.List.Basic
import Mathlib.Data.List.Perm.Basic

/-
Properties of the tester: C33.
-/

namespace Cantools
open Spec Tester

namespace Tester

theorem allEqual_true {got : List (String × Value)} : ∀ {signals : List (String × Value)},
    allEqual got signals = .ok true ↔
      ∀ n v, (n, v) ∈ signals → ∃ g, dictGet? got n = some g ∧ valueEq g v = true := by
  intro signals
  induction signals with
  | nil => simp [allEqual]
  | cons x r ih =>
    obtain ⟨n, v⟩ := x
    unfold allEqual
    cases hg : dictGet? got n with
    | none =>
      simp only [dictGet, hg, bind, Except.bind, reduceCtorEq, false_iff]
      intro h
      obtain ⟨g, h1, _⟩ := h n v (by simp)
      rw [hg] at h1; cases h1
    | some g =>
      simp only [dictGet, hg, bind, Except.bind]
      by_cases he : valueEq g v = true
      · rw [if_pos he, ih]
        constructor
        · intro h n' v' hm
          rcases List.mem_cons.1 hm with hm | hm
          · cases hm; exact ⟨g, hg, he⟩
          · exact h n' v' hm
        · intro h n' v' hm; exact h n' v' (by simp [hm])
      · rw [if_neg he]
        simp only [pure, Except.pure, Except.ok.injEq, Bool.false_eq_true, false_iff]
        intro h
        obtain ⟨g', h1, h2⟩ := h n v (by simp)
        rw [hg] at h1; cases h1
        exact he h2

theorem allEqual_error {got : List (String × Value)} : ∀ {signals : List (String × Value)} {e : Err},
    allEqual got signals = .error e → ∃ n v, (n, v) ∈ signals ∧ dictGet? got n = none := by
  intro signals
  induction signals with
  | nil => intro e h; simp [allEqual] at h
  | cons x r ih =>
    obtain ⟨n, v⟩ := x
    intro e h
    unfold allEqual at h
    cases hg : dictGet? got n with
    | none => exact ⟨n, v, by simp, hg⟩
    | some g =>
      simp only [dictGet, hg, bind, Except.bind] at h
      split at h
      · obtain ⟨n', v', h1, h2⟩ := ih h
        exact ⟨n', v', by simp [h1], h2⟩
      · cases h

theorem matches_true {name : String} {signals : List (String × Value)} {m : Decoded} :
    matchesMsg name signals m = .ok true ↔ Expected name signals m := by
  unfold matchesMsg Expected
  split
  · rename_i h
    rw [allEqual_true]
    exact ⟨fun h' => ⟨h, h'⟩, fun h' => h'.2⟩
  · rename_i h
    simp [h]

theorem matches_cases {name : String} {signals : List (String × Value)} {m : Decoded}
    (h : HasSignals name signals m) :
    matchesMsg name signals m = .ok true ∨ matchesMsg name signals m = .ok false := by
  cases hm : matchesMsg name signals m with
  | ok b => cases b <;> simp
  | error e =>
    unfold matchesMsg at hm
    split at hm
    · rename_i hn
      obtain ⟨n, v, h1, h2⟩ := allEqual_error hm
      have := h hn n v h1
      rw [h2] at this
      cases this
    · cases hm

/-- What a call did: `seen` are the messages that did not match, `rest` what is left. -/
def Did (p : Decoded → Except Err Bool) (discard : Bool) (inp : List Decoded) :
    Outcome × Input → Prop
  | (.found m, i) => ∃ pre post, inp = pre ++ m :: post ∧ p m = .ok true ∧
      (∀ x ∈ pre, p x = .ok false) ∧ kept i = if discard then post else pre ++ post
  | (.nothing, i) => ∃ pre post, inp = pre ++ post ∧ (∀ x ∈ pre, p x = .ok false) ∧
      i = { list := if discard then [] else pre, queue := post }
  | (.waiting, i) => ∃ pre post, inp = pre ++ post ∧ (∀ x ∈ pre, p x = .ok false) ∧
      i = { list := if discard then [] else pre, queue := post }
  | (.raised e, i) => ∃ pre m post, inp = pre ++ m :: post ∧ p m = .error e ∧
      (∀ x ∈ pre, p x = .ok false) ∧ (kept i).Sublist (pre ++ post)

theorem expectList_spec (p : Decoded → Except Err Bool) (discard : Bool) :
    ∀ (l other : List Decoded), (∀ x ∈ other, p x = .ok false) →
      match expectList p discard other l with
      | (.nothing, l') => (∀ x ∈ other ++ l, p x = .ok false) ∧
          l' = if discard then [] else other ++ l
      | (.found m, l') => ∃ pre post, other ++ l = pre ++ m :: post ∧ p m = .ok true ∧
          (∀ x ∈ pre, p x = .ok false) ∧ l' = if discard then post else pre ++ post
      | (.raised e, l') => ∃ pre m post, other ++ l = pre ++ m :: post ∧ p m = .error e ∧
          (∀ x ∈ pre, p x = .ok false) ∧ l' = post
      | (.waiting, _) => False := by
  intro l
  induction l with
  | nil => intro other h; simp only [expectList, List.append_nil]; exact ⟨h, by cases discard <;> simp⟩
  | cons m r ih =>
    intro other h
    unfold expectList
    cases hp : p m with
    | error e => exact ⟨other, m, r, rfl, hp, h, rfl⟩
    | ok b =>
      cases b with
      | true => exact ⟨other, r, rfl, hp, h, by cases discard <;> rfl⟩
      | false =>
        have := ih (other ++ [m]) (by
          intro x hx
          rcases List.mem_append.1 hx with hx | hx
          · exact h x hx
          · rw [List.mem_singleton] at hx; rw [hx]; exact hp)
        simpa using this

theorem expectQueue_spec (p : Decoded → Except Err Bool) (discard timeout : Bool) :
    ∀ (rs : List Round) (seen : List Decoded) (i : Input), (∀ x ∈ seen, p x = .ok false) →
      i.list = (if discard then [] else seen) →
      ∃ k, k ≤ rs.length ∧ Did p discard (seen ++ i.queue ++ arrived (rs.take k))
        (expectQueue p discard timeout rs i) ∧
        ((expectQueue p discard timeout rs i).1 = .waiting → k = rs.length) ∧
        ((expectQueue p discard timeout rs i).1 = .nothing → timeout = true) ∧
        expectQueue p discard timeout (rs.take k) i = expectQueue p discard timeout rs i := by
  intro rs
  induction rs with
  | nil =>
    intro seen i h hl
    refine ⟨0, by simp, ⟨seen, i.queue, by simp [arrived], h, ?_⟩, fun _ => rfl, ?_, rfl⟩
    · cases i; simp only at hl; rw [hl]
    · intro h'; simp [expectQueue] at h'
  | cons ro rs ih =>
    intro seen i h hl
    have harr : ∀ k, arrived ((ro :: rs).take (k + 1)) = ro.arrivals ++ arrived (rs.take k) := by
      intro k; simp [arrived]
    have hcut : ∀ k, (ro :: rs).take (k + 1) = ro :: rs.take k := fun _ => rfl
    unfold expectQueue
    cases hq : i.queue ++ ro.arrivals with
    | nil =>
      obtain ⟨h1, h2⟩ := List.append_eq_nil_iff.1 hq
      simp only
      cases timeout with
      | true =>
        refine ⟨1, by simp, ⟨seen, [], by simp [arrived, h1, h2], h, ?_⟩, ?_, fun _ => rfl, ?_⟩
        · cases i; simp only at hl ⊢; rw [hl]
        · intro h'; simp at h'
        · rw [hcut]; simp [hq]
      | false =>
        obtain ⟨k, hk, hd, hw, hn, hc⟩ := ih seen { i with queue := [] } h hl
        refine ⟨k + 1, by simp [hk], ?_, fun h' => by simp [hw h'], hn,
          by rw [hcut]; simp only [hq]; simpa using hc⟩
        simp only [Bool.false_eq_true, if_false]
        rw [harr, h1, h2]
        simpa using hd
    | cons m q =>
      simp only
      have hinp : ∀ k, seen ++ i.queue ++ arrived ((ro :: rs).take (k + 1)) =
          seen ++ m :: (q ++ arrived (rs.take k)) := by
        intro k
        rw [harr, List.append_assoc, ← List.append_assoc i.queue, hq]
        simp
      cases hp : p m with
      | error e =>
        refine ⟨1, by simp, ?_, fun h' => by simp at h', fun h' => by simp at h',
          by rw [hcut]; simp only [hq, hp]⟩
        rw [hinp 0]
        refine ⟨seen, m, q, by simp [arrived], hp, h, ?_⟩
        simp only [kept, hl]
        cases discard with
        | true => simp
        | false => simp
      | ok b =>
        cases b with
        | true =>
          refine ⟨1, by simp, ?_, fun h' => by simp at h', fun h' => by simp at h',
            by rw [hcut]; simp only [hq, hp]⟩
          rw [hinp 0]
          refine ⟨seen, q, by simp [arrived], hp, h, ?_⟩
          simp only [kept, hl]
          cases discard <;> simp
        | false =>
          have hseen : ∀ x ∈ seen ++ [m], p x = .ok false := by
            intro x hx
            rcases List.mem_append.1 hx with hx | hx
            · exact h x hx
            · rw [List.mem_singleton] at hx; rw [hx]; exact hp
          simp only
          by_cases ht : (timeout && ro.timeUp) = true
          · rw [if_pos ht]
            rw [Bool.and_eq_true] at ht
            refine ⟨1, by simp, ?_, fun h' => by simp at h', fun _ => ht.1,
              by rw [hcut]; simp only [hq, hp, ht.1, ht.2]; simp⟩
            rw [hinp 0]
            refine ⟨seen ++ [m], q, by simp [arrived], hseen, ?_⟩
            rw [hl]
            cases discard <;> simp
          · rw [if_neg ht]
            obtain ⟨k, hk, hd, hw, hn, hc⟩ := ih (seen ++ [m])
              { list := if discard then i.list else i.list ++ [m], queue := q } hseen
              (by rw [hl]; cases discard <;> simp)
            refine ⟨k + 1, by simp [hk], ?_, fun h' => by simp [hw h'], hn,
              by rw [hcut]; simp only [hq, hp]; rw [if_neg ht]; simpa using hc⟩
            rw [hinp k]
            simpa using hd

theorem expect_spec (p : Decoded → Except Err Bool) (discard timeout : Bool) (rs : List Round)
    (i : Input) : ∃ k, k ≤ rs.length ∧ Did p discard (kept i ++ arrived (rs.take k))
      (expect p discard timeout rs i) ∧
      ((expect p discard timeout rs i).1 = .waiting → k = rs.length) ∧
      ((expect p discard timeout rs i).1 = .nothing → timeout = true) ∧
      expect p discard timeout (rs.take k) i = expect p discard timeout rs i := by
  have hl := expectList_spec p discard i.list [] (by simp)
  unfold expect
  split at hl
  · rename_i l' he
    obtain ⟨h1, h2⟩ := hl
    simp only [he]
    simp only [List.nil_append] at h1 h2
    exact expectQueue_spec p discard timeout rs i.list { i with list := l' } h1 h2
  · rename_i m l' he
    obtain ⟨pre, post, h1, h2, h3, h4⟩ := hl
    rw [he]
    refine ⟨0, by simp, ?_, fun h => by simp at h, fun h => by simp at h, rfl⟩
    refine ⟨pre, post ++ i.queue, ?_, h2, h3, ?_⟩
    · simp only [List.nil_append] at h1
      simp [kept, h1, arrived]
    · simp only [kept, h4]
      cases discard <;> simp
  · rename_i e l' he
    obtain ⟨pre, m, post, h1, h2, h3, h4⟩ := hl
    rw [he]
    refine ⟨0, by simp, ?_, fun h => by simp at h, fun h => by simp at h, rfl⟩
    refine ⟨pre, m, post ++ i.queue, ?_, h2, h3, ?_⟩
    · simp only [List.nil_append] at h1
      simp [kept, h1, arrived]
    · simp only [kept, h4]
      simp
  · exact hl.elim

end Tester

/-- The rounds of a call that was waiting until its last round are all part of it. -/
theorem Tester.did_of_waiting {p : Decoded → Except Err Bool} {discard timeout : Bool}
    {rs : List Round} {i : Input}
    (hw : ∀ k, k < rs.length → (expect p discard timeout (rs.take k) i).1 = .waiting) :
    Did p discard (kept i ++ arrived rs) (expect p discard timeout rs i) := by
  obtain ⟨k, hk, hd, h1, _, hc⟩ := expect_spec p discard timeout rs i
  have : k = rs.length := by
    rcases Nat.lt_or_ge k rs.length with h | h
    · have := hw k h
      rw [hc] at this
      exact h1 this
    · exact Nat.le_antisymm hk h
  rw [this, List.take_of_length_le (Nat.le_refl _)] at hd
  exact hd

section
variable {name : String} {signals : List (String × Value)} {timeout : Bool} {rs : List Round}
  {i i' : Input}

/-- C33: `expect(…, discard_other_messages=False)` returns the first matching message in the order of
reception and keeps all others, in order.  The messages are those received before the call and those
that arrived while it waited. -/
theorem C33_found {m : Decoded}
    (h : expect (matchesMsg name signals) false timeout rs i = (.found m, i')) :
    ∃ k pre post, kept i ++ arrived (rs.take k) = pre ++ m :: post ∧ Expected name signals m ∧
      (∀ x ∈ pre, ¬ Expected name signals x) ∧ kept i' = pre ++ post := by
  obtain ⟨k, _, hd, _⟩ := expect_spec (matchesMsg name signals) false timeout rs i
  rw [h] at hd
  obtain ⟨pre, post, h1, h2, h3, h4⟩ := hd
  refine ⟨k, pre, post, h1, matches_true.1 h2, fun x hx he => ?_, h4⟩
  rw [← matches_true, h3 x hx] at he
  cases he

/-- C33: with `discard_other_messages=True` exactly the messages received before the match are
dropped. -/
theorem C33_found_discard {m : Decoded}
    (h : expect (matchesMsg name signals) true timeout rs i = (.found m, i')) :
    ∃ k pre post, kept i ++ arrived (rs.take k) = pre ++ m :: post ∧ Expected name signals m ∧
      (∀ x ∈ pre, ¬ Expected name signals x) ∧ kept i' = post := by
  obtain ⟨k, _, hd, _⟩ := expect_spec (matchesMsg name signals) true timeout rs i
  rw [h] at hd
  obtain ⟨pre, post, h1, h2, h3, h4⟩ := hd
  refine ⟨k, pre, post, h1, matches_true.1 h2, fun x hx he => ?_, h4⟩
  rw [← matches_true, h3 x hx] at he
  cases he

/-- C33: `None` is only returned if a timeout was given.  Then no message looked at matches; with
`discard_other_messages=False` everything received is kept in order, otherwise exactly the messages
looked at are dropped. -/
theorem C33_timeout {discard : Bool}
    (h : expect (matchesMsg name signals) discard timeout rs i = (.nothing, i')) :
    timeout = true ∧ ∃ k pre, kept i ++ arrived (rs.take k) = pre ++ i'.queue ∧
      (∀ x ∈ pre, ¬ Expected name signals x) ∧
      i'.list = if discard then [] else pre := by
  obtain ⟨k, _, hd, _, ht, _⟩ := expect_spec (matchesMsg name signals) discard timeout rs i
  rw [h] at hd ht
  obtain ⟨pre, post, h1, h2, rfl⟩ := hd
  refine ⟨ht rfl, k, pre, h1, fun x hx he => ?_, rfl⟩
  rw [← matches_true, h2 x hx] at he
  cases he

/-- C33: a call that waits has looked at everything that arrived without finding a match, except what
is still in the queue. -/
theorem C33_waiting {discard : Bool}
    (h : expect (matchesMsg name signals) discard timeout rs i = (.waiting, i')) :
    ∃ pre, kept i ++ arrived rs = pre ++ i'.queue ∧ (∀ x ∈ pre, ¬ Expected name signals x) ∧
      i'.list = if discard then [] else pre := by
  obtain ⟨k, _, hd, hw, _⟩ := expect_spec (matchesMsg name signals) discard timeout rs i
  rw [h] at hd hw
  have := hw rfl
  subst this
  obtain ⟨pre, post, h1, h2, rfl⟩ := hd
  rw [List.take_of_length_le (Nat.le_refl _)] at h1
  refine ⟨pre, h1, fun x hx he => ?_, rfl⟩
  rw [← matches_true, h2 x hx] at he
  cases he

/-- C33: no exception is raised if all messages of that name have the given signals. -/
theorem C33_no_exception {discard : Bool} {e : Err}
    (hs : ∀ m ∈ kept i ++ arrived rs, HasSignals name signals m) :
    expect (matchesMsg name signals) discard timeout rs i ≠ (.raised e, i') := by
  intro h
  obtain ⟨k, _, hd, _⟩ := expect_spec (matchesMsg name signals) discard timeout rs i
  rw [h] at hd
  obtain ⟨pre, m, post, h1, h2, _⟩ := hd
  have hm : m ∈ kept i ++ arrived rs := by
    have : m ∈ kept i ++ arrived (rs.take k) := by rw [h1]; simp
    rcases List.mem_append.1 this with h | h
    · exact List.mem_append_left _ h
    · obtain ⟨r, hr, hmr⟩ := List.mem_flatMap.1 h
      exact List.mem_append_right _ (List.mem_flatMap.2 ⟨r, List.mem_of_mem_take hr, hmr⟩)
  rcases matches_cases (hs m hm) with h' | h' <;> rw [h'] at h2 <;> cases h2

/-- A message received while the tester is idle comes last. -/
theorem C33_receive (m : Decoded) : kept (receive m i) = kept i ++ [m] := by
  simp [kept, receive]

/-- `flush_input` drops everything received so far. -/
theorem C33_flush (a : List Decoded) : kept (flushInput a i) = [] := rfl

end

/-! ### Histories -/

/-- C33, over whole histories: what the tester keeps is always part of what it received, in the order
of reception, whatever was called. -/
theorem C33_kept_in_order {h : History} (hr : Reached h) :
    (kept h.input).Sublist h.received := by
  induction hr with
  | start => exact List.Sublist.refl _
  | @receive h m _ ih => rw [C33_receive]; exact ih.append (List.Sublist.refl _)
  | flush _ _ => exact List.nil_sublist _
  | @expect h name signals discard timeout rs o i' _ hw he ih =>
    have hd := did_of_waiting hw
    rw [he] at hd
    have hsub : (kept i').Sublist (kept h.input ++ arrived rs) := by
      cases o with
      | found m =>
        obtain ⟨pre, post, h1, _, _, h4⟩ := hd
        rw [h1, h4]
        cases discard with
        | true =>
          exact ((List.sublist_cons_self m post).trans (List.sublist_append_right pre _))
        | false => exact (List.Sublist.refl pre).append (List.sublist_cons_self m post)
      | nothing =>
        obtain ⟨pre, post, h1, _, h4⟩ := hd
        rw [h1, h4]
        cases discard <;> simp [kept]
      | waiting =>
        obtain ⟨pre, post, h1, _, h4⟩ := hd
        rw [h1, h4]
        cases discard <;> simp [kept]
      | raised e =>
        obtain ⟨pre, m, post, h1, _, _, h4⟩ := hd
        rw [h1]
        exact h4.trans ((List.Sublist.refl pre).append (List.sublist_cons_self m post))
    exact hsub.trans (ih.append (List.Sublist.refl _))

/-- C33, over whole histories: as long as nothing was flushed, all calls were made with
`discard_other_messages=False` and no call raised an exception, every message received was returned
exactly once or is still kept. -/
theorem C33_nothing_lost {h : History} (hr : Reached h) (hl : h.lossy = false) :
    h.received.Perm (h.returned ++ kept h.input) := by
  induction hr with
  | start => exact List.Perm.refl _
  | @receive h m _ ih =>
    rw [C33_receive, ← List.append_assoc]
    exact (ih hl).append_right [m]
  | flush _ _ => cases hl
  | @expect h name signals discard timeout rs o i' _ hw he ih =>
    have hd := did_of_waiting hw
    rw [he] at hd
    simp only [Bool.or_eq_false_iff] at hl
    obtain ⟨⟨hl1, hl2⟩, hl3⟩ := hl
    subst hl2
    have ih := (ih hl1).append_right (arrived rs)
    rw [List.append_assoc] at ih
    refine ih.trans ?_
    cases o with
    | found m =>
      obtain ⟨pre, post, h1, _, _, h4⟩ := hd
      rw [h1, h4]
      simp only [Bool.false_eq_true, if_false, Outcome.result, List.append_assoc,
        List.singleton_append]
      exact List.Perm.append_left _ List.perm_middle
    | nothing =>
      obtain ⟨pre, post, h1, _, h4⟩ := hd
      rw [h1, h4]
      simp [kept, Outcome.result]
    | waiting =>
      obtain ⟨pre, post, h1, _, h4⟩ := hd
      rw [h1, h4]
      simp [kept, Outcome.result]
    | raised e => cases hl3

/-! ### Examples, and where messages are lost -/

namespace Example

def dm (n : String) (v : Rat) : Decoded := ⟨n, [("S", .num v)]⟩

/-- Two messages are kept, a third one arrives while `expect` waits. -/
def waiting : Input := { list := [dm "B" 1], queue := [dm "A" 1] }

example : expect (matchesMsg "A" [("S", .num 2)]) false true
    [{}, { arrivals := [dm "A" 2, dm "C" 0] }] waiting =
    (.found (dm "A" 2), { list := [dm "B" 1, dm "A" 1], queue := [dm "C" 0] }) := by decide +kernel

example : expect (matchesMsg "A" [("S", .num 2)]) true true
    [{}, { arrivals := [dm "A" 2, dm "C" 0] }] waiting =
    (.found (dm "A" 2), { list := [], queue := [dm "C" 0] }) := by decide +kernel

example : expect (matchesMsg "A" [("S", .num 2)]) false true [{}, {}] waiting =
    (.nothing, { list := [dm "B" 1, dm "A" 1], queue := [] }) := by decide +kernel

example : expect (matchesMsg "A" [("S", .num 2)]) false false [{}, {}] waiting =
    (.waiting, { list := [dm "B" 1, dm "A" 1], queue := [] }) := by decide +kernel

example : ∀ m ∈ kept waiting ++ arrived [], HasSignals "A" [("S", .num 2)] m := by
  intro m hm _ n v h
  simp only [waiting, kept, arrived, List.flatMap_nil, List.append_nil, List.cons_append,
    List.nil_append, List.mem_cons, List.not_mem_nil, or_false, Prod.mk.injEq] at hm h
  rcases hm with rfl | rfl <;> rw [h.1] <;> decide +kernel

/-- A history with two messages of which the second was returned. -/
example : Reached { input := { list := [dm "B" 1], queue := [] }, received := [dm "B" 1, dm "A" 2],
                    returned := [dm "A" 2], lossy := false } := by
  have h2 : Reached { input := { list := [], queue := [dm "B" 1, dm "A" 2] },
                      received := [dm "B" 1, dm "A" 2] } :=
    .receive (dm "A" 2) (.receive (dm "B" 1) .start)
  exact .expect (name := "A") (signals := []) (discard := false) (timeout := true) (rs := [{}, {}])
    (o := .found (dm "A" 2)) (i' := { list := [dm "B" 1], queue := [] }) h2
    (by
      intro k hk
      match k, hk with
      | 0, _ => decide +kernel
      | 1, _ => decide +kernel)
    (by decide +kernel)

end Example

open Example in
/-- C33 is false when an exception is raised: expecting a signal that a received message of that name
does not have (a multiplexed one) raises `KeyError`, and the messages looked at before are lost although
`discard_other_messages=False`. -/
theorem C33_key_error_loses_messages :
    ∃ (i : Input) (name : String) (signals : List (String × Value)),
      (expect (matchesMsg name signals) false true [] i).1 = .raised .keyError ∧
      kept i = [dm "B" 1, dm "A" 1, dm "A" 2] ∧
      kept (expect (matchesMsg name signals) false true [] i).2 = [dm "A" 2] :=
  ⟨{ list := [dm "B" 1, dm "A" 1, dm "A" 2] }, "A", [("T", .num 0)], by decide +kernel⟩

end Cantools
