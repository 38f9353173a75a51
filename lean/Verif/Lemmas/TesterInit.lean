import Verif.Model.TesterInit
import Verif.Lemmas.SignalTree
import Verif.Lemmas.Assert

/-
Initial values of the messages of a tester.
-/

namespace Cantools.Tester
open Cantools Spec

/-- The initial value of every signal. -/
theorem dictGet?_initialValues {m : Message} (hnd : (m.signals.map (·.name)).Nodup)
    (raw : Signal → Option Rat) {s : Signal} (hs : s ∈ m.signals) :
    dictGet? (initialValues m raw) s.name = some (initialValue (mplexSettings m) (raw s) s) := by
  unfold initialValues
  generalize mplexSettings m = st
  generalize m.signals = l at hnd hs
  have key : ∀ (l : List Signal) (d : List (String × Value)), (l.map (·.name)).Nodup → ∀ n,
      (n ∉ l.map (·.name) → dictGet? (l.foldl (fun d s => dictSet d s.name (initialValue st (raw s) s)) d) n =
        dictGet? d n) ∧ ∀ s ∈ l, s.name = n →
        dictGet? (l.foldl (fun d s => dictSet d s.name (initialValue st (raw s) s)) d) n =
          some (initialValue st (raw s) s) := by
    intro l
    induction l with
    | nil => intro d _ n; exact ⟨fun _ => rfl, fun _ h => nomatch h⟩
    | cons a r ih =>
      intro d hn n
      rw [List.map_cons, List.nodup_cons] at hn
      obtain ⟨i1, i2⟩ := ih (dictSet d a.name (initialValue st (raw a) a)) hn.2 n
      rw [List.foldl_cons]
      refine ⟨fun hx => ?_, fun s hs he => ?_⟩
      · rw [List.map_cons, List.mem_cons, not_or] at hx
        rw [i1 hx.2, dictGet?_set, if_neg (Ne.symm hx.1)]
      · rcases List.mem_cons.1 hs with rfl | hs
        · rw [i1 (he ▸ hn.1), dictGet?_set, if_pos he]
        · exact i2 s hs he
  exact (key l [] hnd s.name).2 s hs rfl

/-- Only signals have initial values. -/
theorem initialValues_known (m : Message) (raw : Signal → Option Rat) {n : String} {v : Value}
    (h : (n, v) ∈ initialValues m raw) : ∃ s ∈ m.signals, s.name = n := by
  unfold initialValues at h
  generalize mplexSettings m = st at h
  have key : ∀ (l : List Signal) (d : List (String × Value)),
      (n, v) ∈ l.foldl (fun d s => dictSet d s.name (initialValue st (raw s) s)) d →
      (∃ w, (n, w) ∈ d) ∨ ∃ s ∈ l, s.name = n := by
    intro l
    induction l with
    | nil => intro d h; exact .inl ⟨v, h⟩
    | cons a r ih =>
      intro d h
      rcases ih _ h with ⟨w, hw⟩ | ⟨s, hs, he⟩
      · have hk : n ∈ (dictSet d a.name (initialValue st (raw a) a)).map (·.1) := List.mem_map_of_mem hw
        by_cases hna : a.name = n
        · exact .inr ⟨a, List.mem_cons_self .., hna⟩
        · have : dictGet? (dictSet d a.name (initialValue st (raw a) a)) n ≠ none := fun hx =>
            (dictGet?_eq_none_iff _ _).1 hx hk
          rw [dictGet?_set, if_neg hna] at this
          obtain ⟨w', hw'⟩ := Option.ne_none_iff_exists'.1 this
          exact .inl ⟨w', dictGet?_mem hw'⟩
      · exact .inr ⟨s, List.mem_cons_of_mem _ hs, he⟩
  rcases key _ _ h with ⟨w, hw⟩ | h
  · cases hw
  · exact h

/-! ### Multiplexer settings -/

theorem dictGet?_some_of_mem {κ α : Type} [DecidableEq κ] {d : List (κ × α)} {k : κ} {v : α}
    (h : (k, v) ∈ d) : ∃ w, dictGet? d k = some w := by
  cases hx : dictGet? d k with
  | some w => exact ⟨w, rfl⟩
  | none => exact absurd (List.mem_map_of_mem h) ((dictGet?_eq_none_iff _ _).1 hx)

theorem foldUpdate_some (l : List Setting) (d : Setting) (n : String) :
    (∀ i, dictGet? (l.foldl dictUpdate d) n = some i → dictGet? d n = some i ∨ ∃ σ ∈ l, (n, i) ∈ σ) ∧
    ((∃ i, dictGet? d n = some i) ∨ (∃ σ ∈ l, ∃ i, (n, i) ∈ σ) →
      ∃ i, dictGet? (l.foldl dictUpdate d) n = some i) := by
  induction l generalizing d with
  | nil => exact ⟨fun i h => .inl h, fun h => h.elim id (fun ⟨_, h, _⟩ => nomatch h)⟩
  | cons σ r ih =>
    obtain ⟨i1, i2⟩ := ih (dictUpdate d σ)
    rw [List.foldl_cons]
    constructor
    · intro i hi
      rcases i1 i hi with h | ⟨τ, h, h'⟩
      · rw [dictGet?_update] at h
        cases hr : dictGet? σ.reverse n with
        | some j =>
          rw [hr] at h
          cases h
          exact .inr ⟨σ, List.mem_cons_self .., List.mem_reverse.1 (dictGet?_mem hr)⟩
        | none => rw [hr] at h; exact .inl h
      · exact .inr ⟨τ, List.mem_cons_of_mem _ h, h'⟩
    · intro h
      apply i2
      rcases h with ⟨i, hi⟩ | ⟨τ, hτ, i, hi⟩
      · left
        rw [dictGet?_update]
        split
        · exact ⟨_, rfl⟩
        · exact ⟨i, hi⟩
      · rcases List.mem_cons.1 hτ with rfl | hτ
        · left
          obtain ⟨w, hw⟩ := dictGet?_some_of_mem (List.mem_reverse.2 hi)
          exact ⟨w, by rw [dictGet?_update, hw]⟩
        · exact .inr ⟨τ, hτ, i, hi⟩

/-- The settings in the inverted tree. -/
theorem mem_inverted {m : Message} (hnd : (m.signals.map (·.name)).Nodup) {fuel : Nat}
    (hc : createCodec m.signals fuel none none = some m.codec) (σ : Setting) :
    (∃ e ∈ invertSignalTree m.signalTree, σ ∈ e.2) ↔
      ∃ s ρ, σ = ρ.reverse ∧ IsPath m.signals ρ ∧ s ∈ nodeAt m.signals ρ ∧
        ¬ (s.isMultiplexer = true ∧ childrenIds m.signals s ≠ []) := by
  have he := fun n => mem_emit hnd (π := []) .nil hc n σ
  simp only [List.reverse_nil, List.append_nil] at he
  constructor
  · rintro ⟨⟨n, l⟩, h1, h2⟩
    have hk : n ∈ (invertSignalTree m.signalTree).map (·.1) := List.mem_map_of_mem h1
    have hg : dictGet? (invertSignalTree m.signalTree) n = some l := by
      refine dictGet?_of_mem ?_ h1
      unfold invertSignalTree
      rw [invertTree_eq]
      generalize emitTree [] m.signalTree = em
      have : ∀ (em : List (String × Setting)) (d : List (String × List Setting)), (d.map (·.1)).Nodup →
          ((em.foldl (fun ret x => appendSetting ret x.1 x.2) d).map (·.1)).Nodup := by
        intro em
        induction em with
        | nil => intro d hd; exact hd
        | cons x r ih => intro d hd; exact ih _ (dictSet_nodup _ _ hd)
      exact this em [] List.nodup_nil
    rw [invert_get] at hg
    split at hg
    · cases hg
      obtain ⟨x, hx, rfl⟩ := List.mem_map.1 h2
      obtain ⟨hx1, hx2⟩ := List.mem_filter.1 hx
      obtain ⟨x1, x2⟩ := x
      obtain ⟨s, ρ, -, e2, e3, e4, e5⟩ := (he x1).1 hx1
      exact ⟨s, ρ, e2, e3, e4, e5⟩
    · cases hg
  · rintro ⟨s, ρ, e2, e3, e4, e5⟩
    have hm := (he s.name).2 ⟨s, ρ, rfl, e2, e3, e4, e5⟩
    have hg := invert_get (m.signalTree) s.name
    rw [if_pos (List.mem_map_of_mem (show (s.name, σ) ∈ emitTree [] m.signalTree from hm))] at hg
    refine ⟨_, dictGet?_mem hg, ?_⟩
    exact List.mem_map.2 ⟨_, List.mem_filter.2 ⟨hm, by simp⟩, rfl⟩

/-- Every step of a path that leads somewhere has a signal under it. -/
theorem path_child {sigs : List Signal} {ρ : MuxPath} (h : IsPath sigs ρ) {s : Signal}
    (hs : s ∈ nodeAt sigs ρ) {n : String} {j : Int} (hn : (n, j) ∈ ρ) :
    ∃ c ∈ sigs, c.multiplexerSignal = some n ∧ j ∈ c.multiplexerIds.getD [] := by
  induction h generalizing s with
  | nil => cases hn
  | cons p i hp hm h ih =>
    rcases List.mem_cons.1 hn with he | hn
    · cases he
      obtain ⟨h1, h2, h3⟩ := mem_hereOf.1 hs
      exact ⟨s, h1, h2, h3 _ rfl⟩
    · exact ih hp hn

/-- Below every selector of which each has a multiplexed signal there is a signal that selects
nothing. -/
theorem leaf_below {sigs : List Signal} (hnd : (sigs.map (·.name)).Nodup)
    (hch : ∀ p ∈ sigs, SelectsSome sigs p →
      ∃ c ∈ sigs, c.multiplexerSignal = some p.name ∧ c.multiplexerIds.getD [] ≠ [])
    (k : Nat) {π : MuxPath} (hk : sigs.length ≤ π.length + k) (hπ : IsPath sigs π) {p : Signal}
    (hp : p ∈ nodeAt sigs π) (hsel : SelectsSome sigs p) :
    ∃ ρ i s, IsPath sigs ρ ∧ (p.name, i) ∈ ρ ∧ s ∈ nodeAt sigs ρ ∧ ¬ SelectsSome sigs s := by
  induction k generalizing π p with
  | zero =>
    have := (IsPath.cons p 0 hp hsel.1 hπ).length_le hnd
    simp at this
    omega
  | succ k ih =>
    obtain ⟨c, hc1, hc2, hc3⟩ := hch p (mem_hereOf.1 hp).1 hsel
    obtain ⟨i, hi⟩ := List.exists_mem_of_ne_nil _ hc3
    have hπ' : IsPath sigs ((p.name, i) :: π) := .cons p i hp hsel.1 hπ
    have hc : c ∈ nodeAt sigs ((p.name, i) :: π) :=
      mem_hereOf.2 ⟨hc1, hc2, fun j hj => by cases hj; exact hi⟩
    by_cases hcs : SelectsSome sigs c
    · -- the path below the child is longer; it still contains the step at `p`
      obtain ⟨ρ, j, s, h1, h2, h3, h4⟩ := ih (π := (p.name, i) :: π) (by simp; omega) hπ' hc hcs
      have hsuf : ∃ i', (p.name, i') ∈ ρ := by
        obtain ⟨a, b, rfl⟩ := List.append_of_mem h2
        have hb : IsPath sigs ((c.name, j) :: b) := h1.suffix ⟨a, rfl⟩
        obtain ⟨c', hc', he, -⟩ := hb.head
        have : c' = c := by
          have h5 := (mem_hereOf.1 hc').1
          exact name_inj hnd h5 hc1 he
        subst this
        have h6 := (mem_hereOf.1 hc').2.1
        cases b with
        | nil => rw [hc2] at h6; cases h6
        | cons x b' =>
          obtain ⟨n, i'⟩ := x
          rw [hc2] at h6
          cases h6
          exact ⟨i', by simp⟩
      obtain ⟨i', hi'⟩ := hsuf
      exact ⟨ρ, i', s, h1, hi', h3, h4⟩
    · exact ⟨_, i, c, hπ', List.mem_cons_self .., hc, hcs⟩

theorem selectsSome_iff {sigs : List Signal} {s : Signal} :
    SelectsSome sigs s ↔ s.isMultiplexer = true ∧ childrenIds sigs s ≠ [] := by
  rw [ne_nil_iff_mem]
  simp only [SelectsSome, mem_childrenIds, HasBranch, table]

/-- The chosen multiplexer settings have branches, and every selector that can be in a frame and
selects something gets one. -/
theorem mplexSettings_spec {m : Message} (hnd : (m.signals.map (·.name)).Nodup) {fuel : Nat}
    (hc : createCodec m.signals fuel none none = some m.codec) :
    (∀ n i, dictGet? (mplexSettings m) n = some i →
      ∃ c ∈ m.signals, c.multiplexerSignal = some n ∧ i ∈ c.multiplexerIds.getD []) ∧
    ((∀ p ∈ m.signals, SelectsSome m.signals p →
        ∃ c ∈ m.signals, c.multiplexerSignal = some p.name ∧ c.multiplexerIds.getD [] ≠ []) →
      ∀ p sel, Present m.signals sel p → SelectsSome m.signals p →
        ∃ i, dictGet? (mplexSettings m) p.name = some i) := by
  have hmem : ∀ σ, σ ∈ ((invertSignalTree m.signalTree).map (·.2)).reverse.flatten ↔
      ∃ e ∈ invertSignalTree m.signalTree, σ ∈ e.2 := by
    intro σ
    simp only [List.mem_flatten, List.mem_reverse, List.mem_map]
    constructor
    · rintro ⟨l, ⟨e, he, rfl⟩, h⟩; exact ⟨e, he, h⟩
    · rintro ⟨e, he, h⟩; exact ⟨_, ⟨e, he, rfl⟩, h⟩
  constructor
  · intro n i h
    obtain h | ⟨σ, h1, h2⟩ := (foldUpdate_some _ _ n).1 i h
    · cases h
    · obtain ⟨s, ρ, rfl, h3, h4, -⟩ := (mem_inverted hnd hc σ).1 ((hmem σ).1 h1)
      exact path_child h3 h4 (List.mem_reverse.1 h2)
  · intro hch p sel hp hsel
    obtain ⟨π, h1, h2, -⟩ := present_path hp
    obtain ⟨ρ, i, s, h3, h4, h5, h6⟩ := leaf_below hnd hch m.signals.length (by omega) h1 h2 hsel
    refine (foldUpdate_some _ _ p.name).2 (.inr ⟨ρ.reverse, (hmem _).2 ?_, i, List.mem_reverse.2 h4⟩)
    exact (mem_inverted hnd hc _).2 ⟨s, ρ, rfl, h3, h5, fun h => h6 (selectsSome_iff.2 h)⟩

end Cantools.Tester
