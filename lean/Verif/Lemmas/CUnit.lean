import Mathlib.Data.List.Nodup
import Verif.Spec.CUnit

/-
What is collected while a body is written, against what the body refers to.
-/

namespace Cantools.C

theorem mem_setAdd {α : Type} [DecidableEq α] {s : List α} {a b : α} : b ∈ setAdd s a ↔ b ∈ s ∨ b = a := by
  unfold setAdd
  split
  · constructor
    · exact .inl
    · rintro (h | rfl)
      · exact h
      · assumption
  · simp

theorem nodup_setAdd {α : Type} [DecidableEq α] {s : List α} {a : α} (h : s.Nodup) : (setAdd s a).Nodup := by
  unfold setAdd
  split
  · exact h
  · rw [List.nodup_append]
    refine ⟨h, by simp, ?_⟩
    intro b hb c hc
    rw [List.mem_singleton.1 hc]
    rintro rfl
    contradiction

theorem mem_foldl_setAdd {α β : Type} [DecidableEq α] (f : β → α) (l : List β) (s : List α) (b : α) :
    b ∈ l.foldl (fun ks g => setAdd ks (f g)) s ↔ b ∈ s ∨ ∃ g ∈ l, b = f g := by
  induction l generalizing s with
  | nil => simp
  | cons x l ih => simp [ih, mem_setAdd, or_assoc]

theorem nodup_foldl_setAdd {α β : Type} [DecidableEq α] (f : β → α) (l : List β) {s : List α} (h : s.Nodup) :
    (l.foldl (fun ks g => setAdd ks (f g)) s).Nodup := by
  induction l generalizing s with
  | nil => exact h
  | cons x l ih => exact ih (nodup_setAdd h)

/-- What was collected when code with these calls and places was written. -/
structure Wrote (sigs : List Signal) (st : Collected) (calls : List (Bool × Nat)) (places : List Place)
    (st' : Collected) : Prop where
  kinds : ∀ k, k ∈ st'.kinds ↔ k ∈ st.kinds ∨ k ∈ calls
  widths : ∀ k ∈ calls, ∃ s ∈ sigs, k.2 = typeLength s
  nodup : st.kinds.Nodup → st'.kinds.Nodup
  mono : ∀ v ∈ st.vars, v ∈ st'.vars
  origin : ∀ v ∈ st'.vars, v ∈ st.vars ∨ ∃ s ∈ sigs, v = (typeLength s, snakeOf s)
  declared : ∀ x, .var x ∈ places → ∃ w, (w, x) ∈ st'.vars
  members : ∀ x, .member x ∈ places → ∃ s ∈ sigs, snakeOf s = x

theorem Wrote.refl {sigs : List Signal} {st : Collected} : Wrote sigs st [] [] st :=
  ⟨by simp, by simp, id, fun _ h => h, fun _ h => .inl h, by simp, by simp⟩

theorem Wrote.trans {sigs : List Signal} {a b c : Collected} {k1 k2 : List (Bool × Nat)} {p1 p2 : List Place}
    (h1 : Wrote sigs a k1 p1 b) (h2 : Wrote sigs b k2 p2 c) : Wrote sigs a (k1 ++ k2) (p1 ++ p2) c where
  kinds k := by rw [h2.kinds, h1.kinds, List.mem_append, or_assoc]
  widths k hk := (List.mem_append.1 hk).elim (h1.widths k) (h2.widths k)
  nodup h := h2.nodup (h1.nodup h)
  mono v hv := h2.mono v (h1.mono v hv)
  origin v hv := (h2.origin v hv).elim (h1.origin v) .inr
  declared x hx := (List.mem_append.1 hx).elim (fun h => (h1.declared x h).imp fun _ h => h2.mono _ h) (h2.declared x)
  members x hx := (List.mem_append.1 hx).elim (h1.members x) (h2.members x)

theorem Wrote.congr {sigs : List Signal} {a b : Collected} {k1 k2 : List (Bool × Nat)} {p1 p2 : List Place}
    (h : Wrote sigs a k1 p1 b) (hk : ∀ k, k ∈ k2 ↔ k ∈ k1) (hp : ∀ p, p ∈ p2 → p ∈ p1) : Wrote sigs a k2 p2 b where
  kinds k := by rw [h.kinds, hk]
  widths k hk' := h.widths k ((hk k).1 hk')
  nodup := h.nodup
  mono := h.mono
  origin := h.origin
  declared x hx := h.declared x (hp _ hx)
  members x hx := h.members x (hp _ hx)

theorem getSignal_ok {sigs : List Signal} {n : String} {s : Signal} (h : getSignal sigs n = .ok s) :
    s ∈ sigs ∧ s.name = n := by
  unfold getSignal at h
  split at h
  · rename_i s' hs
    injection h with h
    subst h
    exact ⟨List.mem_of_find?_eq_some hs, by simpa using List.find?_some hs⟩
  · cases h

/-- Lines of one signal. -/
theorem wrote_signal {sigs : List Signal} {s : Signal} (hs : s ∈ sigs) {segs : List Segment} {st : Collected}
    {ls : List Stmt} (hc : ∀ k, k ∈ ls.flatMap Stmt.calls ↔ ∃ g ∈ segs, k = (g.left, typeLength s))
    (hp : ∀ p ∈ ls.flatMap Stmt.places, p = .member (snakeOf s) ∨ (hasVariable s = true ∧ p = .var (snakeOf s))) :
    Wrote sigs st (ls.flatMap Stmt.calls) (ls.flatMap Stmt.places) (addKinds s segs (addVariable s st)) where
  kinds k := by
    unfold addKinds
    rw [mem_foldl_setAdd (fun g : Segment => (g.left, typeLength s)), hc]
    unfold addVariable
    split <;> rfl
  widths k hk := by
    obtain ⟨g, _, rfl⟩ := (hc k).1 hk
    exact ⟨s, hs, rfl⟩
  nodup h := by
    unfold addKinds
    refine nodup_foldl_setAdd (fun g : Segment => (g.left, typeLength s)) _ ?_
    unfold addVariable
    split <;> exact h
  mono v hv := by
    unfold addKinds addVariable
    split
    · exact List.mem_append_left _ hv
    · exact hv
  origin v hv := by
    unfold addKinds addVariable at hv
    split at hv
    · exact (List.mem_append.1 hv).imp id fun h => ⟨s, hs, List.mem_singleton.1 h⟩
    · exact .inl hv
  declared x hx := by
    rcases hp _ hx with h | ⟨hv, h⟩
    · cases h
    · injection h with h
      subst h
      refine ⟨typeLength s, ?_⟩
      unfold addKinds addVariable
      rw [if_pos hv]
      exact List.mem_append_right _ (List.mem_singleton.2 rfl)
  members x hx := by
    rcases hp _ hx with h | ⟨_, h⟩
    · injection h with h
      exact ⟨s, hs, h.symm⟩
    · cases h

theorem placeOf_cases (s : Signal) :
    placeOf s = .member (snakeOf s) ∨ (hasVariable s = true ∧ placeOf s = .var (snakeOf s)) := by
  unfold placeOf
  split
  · rename_i h; exact .inr ⟨h, rfl⟩
  · exact .inl rfl

/-- Generators of lines that keep track of what they write. -/
def Tracks (sigs : List Signal) (gen : String → Collected → Except Err (List Stmt × Collected)) : Prop :=
  ∀ n st ls st', gen n st = .ok (ls, st') →
    (∃ s ∈ sigs, s.name = n) ∧ Wrote sigs st (ls.flatMap Stmt.calls) (ls.flatMap Stmt.places) st'

theorem packText_tracks (sigs : List Signal) : Tracks sigs (packText sigs) := by
  intro n st ls st' h
  unfold packText at h
  cases hg : getSignal sigs n with
  | error e => rw [hg] at h; cases h
  | ok s =>
    rw [hg] at h
    obtain ⟨hs, hn⟩ := getSignal_ok hg
    injection h with h
    injection h with h1 h2
    subst h2
    refine ⟨⟨s, hs, hn⟩, wrote_signal hs ?_ ?_⟩
    · intro k
      subst h1
      simp only [List.flatMap_append, List.mem_append, List.flatMap_map, Stmt.calls]
      have : ∀ k, k ∉ (if s.conversion.isFloat then [Stmt.memcpy (.var (snakeOf s)) (.member (snakeOf s))]
          else if s.isSigned then [Stmt.assign (.var (snakeOf s)) (.member (snakeOf s))] else []).flatMap Stmt.calls := by
        intro k
        split
        · simp [Stmt.calls]
        · split <;> simp [Stmt.calls]
      constructor
      · rintro (h | h)
        · exact absurd h (this k)
        · simpa using h
      · intro h
        exact .inr (by simpa using h)
    · intro p hp
      subst h1
      simp only [List.flatMap_append, List.mem_append, List.flatMap_map, Stmt.places] at hp
      rcases hp with hp | hp
      · split at hp
        · rename_i hf
          simp only [List.flatMap_cons, List.flatMap_nil, List.append_nil, Stmt.places, List.mem_cons,
            List.not_mem_nil, or_false] at hp
          rcases hp with rfl | rfl
          · exact .inr ⟨by simp [hasVariable, hf], rfl⟩
          · exact .inl rfl
        · split at hp
          · rename_i hf
            simp only [List.flatMap_cons, List.flatMap_nil, List.append_nil, Stmt.places, List.mem_cons,
              List.not_mem_nil, or_false] at hp
            rcases hp with rfl | rfl
            · exact .inr ⟨by simp [hasVariable, hf], rfl⟩
            · exact .inl rfl
          · simp at hp
      · obtain ⟨_, _, hp⟩ := List.mem_flatMap.1 hp
        rw [List.mem_singleton.1 hp]
        exact placeOf_cases s

theorem unpackCalls_calls (s : Signal) (b : Bool) (segs : List Segment) (k : Bool × Nat) :
    k ∈ (unpackCalls s b segs).flatMap Stmt.calls ↔ ∃ g ∈ segs, k = (g.left, typeLength s) := by
  induction segs generalizing b with
  | nil => simp [unpackCalls]
  | cons g r ih =>
    simp only [unpackCalls, List.flatMap_cons, List.mem_append, ih, Stmt.calls]
    simp

theorem unpackCalls_places (s : Signal) (b : Bool) (segs : List Segment) (p : Place)
    (h : p ∈ (unpackCalls s b segs).flatMap Stmt.places) : p = placeOf s := by
  induction segs generalizing b with
  | nil => simp [unpackCalls] at h
  | cons g r ih =>
    simp only [unpackCalls, List.flatMap_cons, List.mem_append, Stmt.places, List.mem_singleton] at h
    exact h.elim id (ih false)

theorem unpackText_tracks (sigs : List Signal) : Tracks sigs (unpackText sigs) := by
  intro n st ls st' h
  unfold unpackText at h
  cases hg : getSignal sigs n with
  | error e => rw [hg] at h; cases h
  | ok s =>
    rw [hg] at h
    obtain ⟨hs, hn⟩ := getSignal_ok hg
    cases he : signExtension s with
    | error e => simp only [he, bind, Except.bind] at h; cases h
    | ok ext =>
      simp only [he, bind, Except.bind, pure, Except.pure] at h
      injection h with h
      injection h with h1 h2
      subst h2
      refine ⟨⟨s, hs, hn⟩, wrote_signal hs ?_ ?_⟩
      · intro k
        subst h1
        simp only [List.flatMap_append, List.mem_append, unpackCalls_calls]
        constructor
        · rintro (h | h)
          · exact h
          · exfalso
            split at h
            · simp [Stmt.calls] at h
            · split at h
              · split at h <;> simp [Stmt.calls] at h
              · simp at h
        · exact .inl
      · intro p hp
        subst h1
        simp only [List.flatMap_append, List.mem_append] at hp
        rcases hp with hp | hp
        · rw [unpackCalls_places s _ _ p hp]
          exact placeOf_cases s
        · split at hp
          · rename_i hf
            have hv : hasVariable s = true := by simp [hasVariable, hf]
            simp only [List.flatMap_cons, List.flatMap_nil, List.append_nil, Stmt.places, List.mem_cons,
              List.not_mem_nil, or_false] at hp
            exact hp.imp id fun h => ⟨hv, h⟩
          · split at hp
            · rename_i hf
              have hv : hasVariable s = true := by simp [hasVariable, hf]
              split at hp
              · simp only [List.cons_append, List.nil_append, List.flatMap_cons, List.flatMap_nil, List.append_nil,
                  Stmt.places, List.mem_cons, List.not_mem_nil, or_false] at hp
                rcases hp with h | h | h
                · exact .inr ⟨hv, h⟩
                · exact .inl h
                · exact .inr ⟨hv, h⟩
              · simp only [List.nil_append, List.flatMap_cons, List.flatMap_nil, List.append_nil,
                  Stmt.places, List.mem_cons, List.not_mem_nil, or_false] at hp
                exact hp.imp id fun h => ⟨hv, h⟩
            · simp at hp

theorem ops_calls (l : List Stmt) (c : Code Stmt) : (Code.ops l c).calls = l.flatMap Stmt.calls ++ c.calls := by
  induction l with
  | nil => rfl
  | cons a l ih =>
    show (Code.op a (Code.ops l c)).calls = _
    rw [Code.calls, ih, List.flatMap_cons, List.append_assoc]

theorem ops_places (l : List Stmt) (c : Code Stmt) : (Code.ops l c).places = l.flatMap Stmt.places ++ c.places := by
  induction l with
  | nil => rfl
  | cons a l ih =>
    show (Code.op a (Code.ops l c)).places = _
    rw [Code.places, ih, List.flatMap_cons, List.append_assoc]

section
variable {sigs : List Signal} {gen : String → Collected → Except Err (List Stmt × Collected)}
  {skip : String → Except Err Bool}

mutual
theorem linesLevel_wrote (hg : Tracks sigs gen) :
    ∀ (t : SigTree) (st : Collected) (r : (List Stmt × Code Stmt) × Collected), linesLevel gen skip t st = .ok r →
      Wrote sigs st ((Code.ops r.1.1 r.1.2).calls) ((Code.ops r.1.1 r.1.2).places) r.2
  | .nil, st, r, h => by
    rw [linesLevel] at h
    injection h with h
    subst h
    exact .refl
  | .leaf n rest, st, r, h => by
    rw [linesLevel] at h
    cases hk : skip n with
    | error e => simp only [hk, bind, Except.bind] at h; cases h
    | ok sk =>
      simp only [hk, bind, Except.bind, pure, Except.pure] at h
      cases hh : (if sk then .ok ([], st) else gen n st : Except Err (List Stmt × Collected)) with
      | error e => rw [hh] at h; cases h
      | ok here =>
        rw [hh] at h
        dsimp only at h
        cases hr : linesLevel gen skip rest here.2 with
        | error e => rw [hr] at h; cases h
        | ok r' =>
          rw [hr] at h
          injection h with h
          subst h
          have h1 : Wrote sigs st (here.1.flatMap Stmt.calls) (here.1.flatMap Stmt.places) here.2 := by
            split at hh
            · injection hh with hh
              subst hh
              exact .refl
            · exact (hg n st here.1 here.2 hh).2
          have h2 := h1.trans (linesLevel_wrote hg rest _ _ hr)
          simp only [ops_calls, ops_places, List.flatMap_append, List.append_assoc] at h2 ⊢
          exact h2
  | .mux n branches rest, st, r, h => by
    rw [linesLevel] at h
    cases ha : gen n st with
    | error e => simp only [ha, bind, Except.bind] at h; cases h
    | ok a =>
      simp only [ha, bind, Except.bind, pure, Except.pure] at h
      cases hc : linesCases gen skip branches a.2 with
      | error e => rw [hc] at h; cases h
      | ok c =>
        rw [hc] at h
        dsimp only at h
        cases hr : linesLevel gen skip rest c.2 with
        | error e => rw [hr] at h; cases h
        | ok r' =>
          rw [hr] at h
          injection h with h
          subst h
          obtain ⟨⟨s, hs, hn⟩, h1⟩ := hg n st a.1 a.2 ha
          have h2 := (h1.trans (linesCases_wrote hg branches _ _ hc)).trans (linesLevel_wrote hg rest _ _ hr)
          have h3 : Wrote sigs r'.2 [] [.member (camelToSnake n.toList)] r'.2 :=
            { (Wrote.refl : Wrote sigs r'.2 [] [] r'.2) with
              declared := by simp
              members := by
                intro x hx
                injection List.mem_singleton.1 hx with hx
                subst hx
                exact ⟨s, hs, by rw [snakeOf, hn]⟩ }
          refine (h2.trans h3).congr ?_ ?_
          · intro k
            simp only [ops_calls, Code.calls, List.flatMap_append, List.mem_append, List.not_mem_nil]
            tauto
          · intro p
            simp only [ops_places, Code.places, List.flatMap_append, List.mem_append, List.mem_cons, List.not_mem_nil]
            tauto
theorem linesCases_wrote (hg : Tracks sigs gen) :
    ∀ (t : TreeBranches) (st : Collected) (r : Cases Stmt × Collected), linesCases gen skip t st = .ok r →
      Wrote sigs st r.1.calls r.1.places r.2
  | .nil, st, r, h => by
    rw [linesCases] at h
    injection h with h
    subst h
    exact .refl
  | .cons i tree rest, st, r, h => by
    rw [linesCases] at h
    cases hb : linesLevel gen skip tree st with
    | error e => simp only [hb, bind, Except.bind] at h; cases h
    | ok b =>
      simp only [hb, bind, Except.bind, pure, Except.pure] at h
      cases hr : linesCases gen skip rest b.2 with
      | error e => rw [hr] at h; cases h
      | ok r' =>
        rw [hr] at h
        injection h with h
        subst h
        rw [Cases.calls, Cases.places]
        exact (linesLevel_wrote hg tree _ _ hb).trans (linesCases_wrote hg rest _ _ hr)
end

/-- A function that was written. -/
structure Written (sigs : List Signal) (kinds : List (Bool × Nat)) (locals : List (Nat × Chars)) (body : Code Stmt)
    (kinds' : List (Bool × Nat)) : Prop where
  kept : ∀ k, k ∈ kinds' ↔ k ∈ kinds ∨ k ∈ body.calls
  widths : ∀ k ∈ body.calls, ∃ s ∈ sigs, k.2 = typeLength s
  nodup : kinds.Nodup → kinds'.Nodup
  distinct : locals.Nodup
  origin : ∀ v ∈ locals, ∃ s ∈ sigs, v = (typeLength s, snakeOf s)
  declared : ∀ x, .var x ∈ body.places → ∃ w, (w, x) ∈ locals
  members : ∀ x, .member x ∈ body.places → ∃ s ∈ sigs, snakeOf s = x

theorem formatCode_written (hg : Tracks sigs gen) {t : SigTree} {kinds : List (Bool × Nat)}
    {r : (List (Nat × Chars) × Code Stmt) × List (Bool × Nat)} (h : formatCode gen skip t kinds = .ok r) :
    Written sigs kinds r.1.1 r.1.2 r.2 := by
  unfold formatCode at h
  cases hl : linesLevel gen skip t { kinds } with
  | error e => simp only [hl, bind, Except.bind] at h; cases h
  | ok l =>
    simp only [hl, bind, Except.bind, pure, Except.pure] at h
    injection h with h
    subst h
    have w := linesLevel_wrote hg t _ _ hl
    have mem : ∀ v, v ∈ l.2.vars.foldl setAdd [] ↔ v ∈ l.2.vars := by
      intro v
      have := mem_foldl_setAdd (fun v : Nat × Chars => v) l.2.vars [] v
      simpa using this
    exact {
      kept := w.kinds
      widths := w.widths
      nodup := w.nodup
      distinct := nodup_foldl_setAdd (fun v : Nat × Chars => v) _ List.nodup_nil
      origin := fun v hv => (w.origin v ((mem v).1 hv)).elim (by simp) id
      declared := fun x hx => (w.declared x hx).imp fun _ h => (mem _).2 h
      members := w.members }

end

end Cantools.C
