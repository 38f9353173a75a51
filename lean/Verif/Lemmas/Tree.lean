import Verif.Lemmas.Node
import Mathlib.Data.List.Forall2

namespace Cantools
open Spec

/-! ### Signals selected by selector values -/

mutual
/-- The signals of the nodes visited when selectors have the values `sel`; `skip` says whether a
selector without value is skipped or a failure. -/
def selNode (skip : String → Bool) (sel : String → Option Int) : Codec → Option (List Signal)
  | .mk signals muxes => (selMuxes skip sel muxes).map (signals ++ ·)
def selMuxes (skip : String → Bool) (sel : String → Option Int) : Muxes → Option (List Signal)
  | .nil => some []
  | .cons name branches rest =>
    match sel name with
    | none => if skip name then selMuxes skip sel rest else none
    | some i =>
      match selBranch skip sel i branches with
      | none => none
      | some a => (selMuxes skip sel rest).map (a ++ ·)
def selBranch (skip : String → Bool) (sel : String → Option Int) (i : Int) :
    Branches → Option (List Signal)
  | .nil => none
  | .cons id c rest => if id = i then selNode skip sel c else selBranch skip sel i rest
end

mutual
/-- Shape of the codecs built by `_create_codec`. -/
def Codec.WF (sigs : List Signal) : Codec → Prop
  | .mk signals muxes => signals.Sublist sigs ∧ Muxes.WF sigs signals muxes
def Muxes.WF (sigs here : List Signal) : Muxes → Prop
  | .nil => True
  | .cons name branches rest =>
    (∃ s ∈ here, s.name = name) ∧ Branches.WF sigs branches ∧ Muxes.WF sigs here rest
def Branches.WF (sigs : List Signal) : Branches → Prop
  | .nil => True
  | .cons _ c rest => Codec.WF sigs c ∧ Branches.WF sigs rest
end

theorem mapM_option_forall₂ {α β : Type} {f : α → Option β} {l : List α} {r : List β}
    (h : l.mapM f = some r) : List.Forall₂ (fun a b => f a = some b) l r := by
  induction l generalizing r with
  | nil => simp at h; subst h; exact .nil
  | cons a t ih =>
    rw [List.mapM_cons] at h
    cases hf : f a with
    | none => rw [hf] at h; cases h
    | some b =>
      rw [hf] at h
      cases ht : t.mapM f with
      | none => rw [ht] at h; cases h
      | some r' =>
        rw [ht] at h
        cases h
        exact .cons hf (ih ht)

theorem mapM_option_isSome {α β : Type} {f : α → Option β} {l : List α}
    (h : ∀ a ∈ l, (f a).isSome) : (l.mapM f).isSome := by
  induction l with
  | nil => simp
  | cons a t ih =>
    rw [List.mapM_cons]
    obtain ⟨b, hb⟩ := Option.isSome_iff_exists.1 (h a (by simp))
    obtain ⟨r, hr⟩ := Option.isSome_iff_exists.1 (ih fun x hx => h x (by simp [hx]))
    simp [hb, hr]

/-- The signals of a node. -/
def hereOf (sigs : List Signal) (parent : Option String) (id : Option Int) : List Signal :=
  sigs.filter (atNode parent id)

/-- The selectors of a node that have children. -/
def selectorsOf (sigs : List Signal) (parent : Option String) (id : Option Int) : List Signal :=
  (hereOf sigs parent id).filter fun s => s.isMultiplexer && !(childrenIds sigs s).isEmpty

theorem createCodec_cases {sigs : List Signal} {fuel : Nat} {parent : Option String}
    {id : Option Int} {c : Codec} (h : createCodec sigs fuel parent id = some c) :
    ∃ fuel' ms, fuel = fuel' + 1 ∧ c = .mk (hereOf sigs parent id) (Muxes.ofList ms) ∧
      List.Forall₂ (fun s m => m.1 = s.name ∧ ∃ brs, m.2 = Branches.ofList brs ∧
        List.Forall₂ (fun i ic => ic.1 = i ∧
          createCodec sigs fuel' (some s.name) (some i) = some ic.2) (childrenIds sigs s) brs)
        (selectorsOf sigs parent id) ms := by
  cases fuel with
  | zero => simp [createCodec] at h
  | succ fuel =>
    simp only [createCodec, Option.map_eq_some_iff] at h
    obtain ⟨ms, hms, rfl⟩ := h
    refine ⟨fuel, ms, rfl, rfl, ?_⟩
    have := mapM_option_forall₂ hms
    refine this.imp ?_
    intro s m hm
    simp only [Option.bind_eq_bind, Option.bind_eq_some_iff, Option.pure_def,
      Option.some.injEq] at hm
    obtain ⟨brs, hbrs, rfl⟩ := hm
    refine ⟨rfl, brs, rfl, ?_⟩
    refine (mapM_option_forall₂ hbrs).imp ?_
    intro i ic hic
    simp only [Option.bind_eq_some_iff, Option.some.injEq] at hic
    obtain ⟨c, hc, rfl⟩ := hic
    exact ⟨rfl, hc⟩

theorem createCodec_WF {sigs : List Signal} {fuel : Nat} {parent : Option String}
    {id : Option Int} {c : Codec} (h : createCodec sigs fuel parent id = some c) :
    Codec.WF sigs c := by
  induction fuel generalizing parent id c with
  | zero => simp [createCodec] at h
  | succ fuel ih =>
    obtain ⟨fuel', ms, hf, rfl, hms⟩ := createCodec_cases h
    cases hf
    refine ⟨List.filter_sublist, ?_⟩
    have hsub : ∀ s ∈ selectorsOf sigs parent id, s ∈ hereOf sigs parent id :=
      fun s hs => (List.mem_filter.1 hs).1
    generalize selectorsOf sigs parent id = sl at hms hsub
    clear h
    induction hms with
    | nil => trivial
    | @cons s m l1 l2 hsm _ ihl =>
      obtain ⟨n, b⟩ := m
      obtain ⟨rfl, brs, rfl, hbrs⟩ := hsm
      refine ⟨⟨s, hsub s (by simp), rfl⟩, ?_, ihl fun t ht => hsub t (by simp [ht])⟩
      clear ihl hsub
      generalize childrenIds sigs s = ids at hbrs
      induction hbrs with
      | nil => trivial
      | @cons i ic _ _ hic _ ihb =>
        obtain ⟨j, c⟩ := ic
        exact ⟨ih hic.2, ihb⟩

/-! ### Reachability -/

/-- Signals reached from a node, top down. -/
inductive Reach (sigs : List Signal) (sel : String → Option Int) :
    Option String → Option Int → Signal → Prop where
  | here {parent id s} (hs : s ∈ hereOf sigs parent id) : Reach sigs sel parent id s
  | down {parent id s} (p : Signal) (i : Int) (hp : p ∈ hereOf sigs parent id)
      (hm : p.isMultiplexer = true) (hsel : sel p.name = some i)
      (hr : Reach sigs sel (some p.name) (some i) s) : Reach sigs sel parent id s

theorem mem_hereOf {sigs : List Signal} {parent : Option String} {id : Option Int} {s : Signal} :
    s ∈ hereOf sigs parent id ↔ s ∈ sigs ∧ s.multiplexerSignal = parent ∧
      ∀ i, id = some i → i ∈ s.multiplexerIds.getD [] := by
  unfold hereOf atNode
  simp only [List.mem_filter, Bool.and_eq_true, beq_iff_eq]
  cases id with
  | none => simp
  | some i => simp

theorem Reach.snoc {sigs : List Signal} {sel : String → Option Int} {parent : Option String}
    {id : Option Int} {p s : Signal} {i : Int} (h : Reach sigs sel parent id p)
    (hm : p.isMultiplexer = true) (hsel : sel p.name = some i)
    (hs : s ∈ hereOf sigs (some p.name) (some i)) : Reach sigs sel parent id s := by
  induction h with
  | here hp => exact .down _ i hp hm hsel (.here hs)
  | down q k hq hqm hqs _ ih => exact .down q k hq hqm hqs (ih hm hsel hs)

theorem Reach.mem {sigs : List Signal} {sel : String → Option Int} {parent : Option String}
    {id : Option Int} {s : Signal} (h : Reach sigs sel parent id s) : s ∈ sigs := by
  induction h with
  | here hs => exact (mem_hereOf.1 hs).1
  | down _ _ _ _ _ _ ih => exact ih

theorem present_iff_reach {sigs : List Signal} {sel : String → Option Int} {s : Signal} :
    Present sigs sel s ↔ Reach sigs sel none none s := by
  constructor
  · intro h
    induction h with
    | root s hs hp => exact .here (mem_hereOf.2 ⟨hs, hp, by simp⟩)
    | child s p i ids hs hp hm _ hsel hids hi ih =>
      refine ih.snoc hm hsel (mem_hereOf.2 ⟨hs, hp, ?_⟩)
      intro j hj; cases hj; simpa [hids] using hi
  · intro h
    have gen : ∀ parent id, Reach sigs sel parent id s →
        ((parent = none ∧ id = none) ∨ ∃ p i, parent = some p.name ∧ id = some i ∧
          p.isMultiplexer = true ∧ Present sigs sel p ∧ sel p.name = some i) →
        Present sigs sel s := by
      intro parent id h
      clear * - h
      have key : ∀ {parent id} {t : Signal}, t ∈ hereOf sigs parent id →
          ((parent = none ∧ id = none) ∨ ∃ p i, parent = some p.name ∧ id = some i ∧
            p.isMultiplexer = true ∧ Present sigs sel p ∧ sel p.name = some i) →
          Present sigs sel t := by
        intro parent id t ht hor
        rw [mem_hereOf] at ht
        rcases hor with ⟨rfl, rfl⟩ | ⟨p, i, rfl, rfl, hm, hp, hsel⟩
        · exact .root t ht.1 ht.2.1
        · have hi := ht.2.2 i rfl
          cases hids : t.multiplexerIds with
          | none => rw [hids] at hi; simp at hi
          | some ids =>
            rw [hids] at hi
            exact .child t p i ids ht.1 ht.2.1 hm hp hsel hids (by simpa using hi)
      induction h with
      | here hs => exact key hs
      | down p i hp hm hsel _ ih =>
        intro hor
        exact ih (Or.inr ⟨p, i, rfl, rfl, hm, key hp hor, hsel⟩)
    exact gen none none h (.inl ⟨rfl, rfl⟩)

theorem mem_dedupInt {l : List Int} {i : Int} : i ∈ dedupInt l ↔ i ∈ l := by
  induction l with
  | nil => simp [dedupInt]
  | cons x r ih =>
    simp only [dedupInt, List.mem_cons, List.mem_filter, ih, decide_eq_true_eq]
    constructor
    · rintro (h | h) <;> simp_all
    · rintro (h | h)
      · exact .inl h
      · by_cases hx : i = x
        · exact .inl hx
        · exact .inr ⟨h, by simpa using hx⟩

theorem nodup_dedupInt (l : List Int) : (dedupInt l).Nodup := by
  induction l with
  | nil => simp [dedupInt]
  | cons x r ih =>
    simp only [dedupInt, List.nodup_cons]
    refine ⟨?_, ih.filter _⟩
    simp [List.mem_filter]

theorem mem_childrenIds {sigs : List Signal} {p : Signal} {i : Int} :
    i ∈ childrenIds sigs p ↔
      (∃ s ∈ sigs, s.multiplexerSignal = some p.name ∧ i ∈ s.multiplexerIds.getD []) ∨
      i ∈ (p.conversion.choices.getD []).map (·.1) := by
  unfold childrenIds
  rw [mem_dedupInt, List.mem_append, List.mem_flatMap]
  constructor
  · rintro (⟨s, hs, hi⟩ | h)
    · simp only [List.mem_filter, beq_iff_eq] at hs
      exact .inl ⟨s, hs.1, hs.2, hi⟩
    · exact .inr h
  · rintro (⟨s, hs, hp, hi⟩ | h)
    · exact .inl ⟨s, by simp [hs, hp], hi⟩
    · exact .inr h

/-- Every reached selector with children has a value for which there is a child (or, with `skip`, no
value). -/
def SelectorsOk (sigs : List Signal) (skip : String → Bool) (sel : String → Option Int)
    (parent : Option String) (id : Option Int) : Prop :=
  ∀ p, Reach sigs sel parent id p → p.isMultiplexer = true → childrenIds sigs p ≠ [] →
    match sel p.name with
    | none => skip p.name = true
    | some i => i ∈ childrenIds sigs p

theorem selBranch_ofList {skip : String → Bool} {sel : String → Option Int} {i : Int}
    {brs : List (Int × Codec)} {a : List Signal}
    (h : selBranch skip sel i (Branches.ofList brs) = some a) :
    ∃ c, (i, c) ∈ brs ∧ selNode skip sel c = some a := by
  induction brs with
  | nil => simp [Branches.ofList, selBranch] at h
  | cons x r ih =>
    obtain ⟨j, c⟩ := x
    simp only [Branches.ofList, selBranch] at h
    split at h
    · rename_i hj; subst hj; exact ⟨c, by simp, h⟩
    · obtain ⟨c', h1, h2⟩ := ih h
      exact ⟨c', by simp [h1], h2⟩

theorem selBranch_exists {skip : String → Bool} {sel : String → Option Int} {i : Int}
    {brs : List (Int × Codec)} (h : i ∈ brs.map (·.1))
    (hc : ∀ c, (i, c) ∈ brs → (selNode skip sel c).isSome) :
    (selBranch skip sel i (Branches.ofList brs)).isSome := by
  induction brs with
  | nil => cases h
  | cons x r ih =>
    obtain ⟨j, c⟩ := x
    simp only [Branches.ofList, selBranch]
    split
    · rename_i hj; subst hj; exact hc c (by simp)
    · rename_i hj
      apply ih
      · simp only [List.map_cons, List.mem_cons] at h
        rcases h with h | h
        · exact absurd h.symm hj
        · exact h
      · intro c' hc'; exact hc c' (by simp [hc'])

theorem forall₂_mem_right {α β : Type} {R : α → β → Prop} {l : List α} {r : List β}
    (h : List.Forall₂ R l r) {b : β} (hb : b ∈ r) : ∃ a ∈ l, R a b := by
  induction h with
  | nil => cases hb
  | cons h1 _ ih =>
    rcases List.mem_cons.1 hb with rfl | hb
    · exact ⟨_, by simp, h1⟩
    · obtain ⟨a, ha, hr⟩ := ih hb
      exact ⟨a, by simp [ha], hr⟩

theorem mem_selectorsOf {sigs : List Signal} {parent : Option String} {id : Option Int}
    {s : Signal} : s ∈ selectorsOf sigs parent id ↔
      s ∈ hereOf sigs parent id ∧ s.isMultiplexer = true ∧ childrenIds sigs s ≠ [] := by
  unfold selectorsOf
  simp [List.mem_filter]

theorem selMuxes_mem {skip : String → Bool} {sel : String → Option Int}
    {ms : List (String × Branches)} {a : List Signal}
    (h : selMuxes skip sel (Muxes.ofList ms) = some a) :
    (∀ s, s ∈ a ↔ ∃ n b i l, (n, b) ∈ ms ∧ sel n = some i ∧ selBranch skip sel i b = some l ∧
      s ∈ l) ∧
    (∀ n b, (n, b) ∈ ms → match sel n with
      | none => skip n = true
      | some i => ∃ l, selBranch skip sel i b = some l) := by
  induction ms generalizing a with
  | nil => simp [Muxes.ofList, selMuxes] at h; subst h; simp
  | cons x r ih =>
    obtain ⟨n, b⟩ := x
    simp only [Muxes.ofList, selMuxes] at h
    cases hs : sel n with
    | none =>
      rw [hs] at h
      simp only at h
      split at h
      · rename_i hk
        obtain ⟨h1, h2⟩ := ih h
        constructor
        · intro s
          rw [h1]
          constructor
          · rintro ⟨n', b', i, l, hm, rest⟩; exact ⟨n', b', i, l, by simp [hm], rest⟩
          · rintro ⟨n', b', i, l, hm, hsel, rest⟩
            rcases List.mem_cons.1 hm with hm | hm
            · cases hm; rw [hs] at hsel; cases hsel
            · exact ⟨n', b', i, l, hm, hsel, rest⟩
        · intro n' b' hm
          rcases List.mem_cons.1 hm with hm | hm
          · cases hm; rw [hs]; exact hk
          · exact h2 n' b' hm
      · cases h
    | some i =>
      rw [hs] at h
      simp only at h
      cases hb : selBranch skip sel i b with
      | none => rw [hb] at h; cases h
      | some l =>
        rw [hb] at h
        simp only [Option.map_eq_some_iff] at h
        obtain ⟨a', ha', rfl⟩ := h
        obtain ⟨h1, h2⟩ := ih ha'
        constructor
        · intro s
          rw [List.mem_append, h1]
          constructor
          · rintro (h | ⟨n', b', i', l', hm, rest⟩)
            · exact ⟨n, b, i, l, by simp, hs, hb, h⟩
            · exact ⟨n', b', i', l', by simp [hm], rest⟩
          · rintro ⟨n', b', i', l', hm, hsel, hbr, hsl⟩
            rcases List.mem_cons.1 hm with hm | hm
            · cases hm
              rw [hs] at hsel; cases hsel
              rw [hb] at hbr; cases hbr
              exact .inl hsl
            · exact .inr ⟨n', b', i', l', hm, hsel, hbr, hsl⟩
        · intro n' b' hm
          rcases List.mem_cons.1 hm with hm | hm
          · cases hm; rw [hs]; exact ⟨l, hb⟩
          · exact h2 n' b' hm

theorem selMuxes_isSome {skip : String → Bool} {sel : String → Option Int} {ms : List (String × Branches)}
    (h : ∀ n b, (n, b) ∈ ms → match sel n with
      | none => skip n = true
      | some i => (selBranch skip sel i b).isSome) :
    (selMuxes skip sel (Muxes.ofList ms)).isSome := by
  induction ms with
  | nil => simp [Muxes.ofList, selMuxes]
  | cons x r ih =>
    obtain ⟨n, b⟩ := x
    have h0 := h n b (by simp)
    have hr := ih fun n' b' hm => h n' b' (by simp [hm])
    simp only [Muxes.ofList, selMuxes]
    cases hs : sel n with
    | none =>
      rw [hs] at h0
      simp only at h0
      simp [h0, hr]
    | some i =>
      rw [hs] at h0
      obtain ⟨l, hl⟩ := Option.isSome_iff_exists.1 h0
      simp [hl, hr]

/-- The selected signals are the reachable ones. -/
theorem selNode_spec {sigs : List Signal} {skip : String → Bool} {sel : String → Option Int} {fuel : Nat}
    {parent : Option String} {id : Option Int} {c : Codec}
    (hc : createCodec sigs fuel parent id = some c) :
    (∀ all, selNode skip sel c = some all →
      (∀ s, s ∈ all ↔ Reach sigs sel parent id s) ∧ SelectorsOk sigs skip sel parent id) ∧
    (SelectorsOk sigs skip sel parent id → (selNode skip sel c).isSome) := by
  induction fuel generalizing parent id c with
  | zero => simp [createCodec] at hc
  | succ fuel ih =>
    obtain ⟨fuel', ms, hf, rfl, hms⟩ := createCodec_cases hc
    cases hf
    constructor
    · intro all hall
      simp only [selNode, Option.map_eq_some_iff] at hall
      obtain ⟨a, ha, rfl⟩ := hall
      obtain ⟨h1, h2⟩ := selMuxes_mem ha
      -- what a visited branch gives
      have hbr : ∀ n b i l, (n, b) ∈ ms → selBranch skip sel i b = some l →
          ∃ p ∈ selectorsOf sigs parent id, p.name = n ∧ i ∈ childrenIds sigs p ∧
            (∀ s, s ∈ l ↔ Reach sigs sel (some n) (some i) s) ∧
            SelectorsOk sigs skip sel (some n) (some i) := by
        intro n b i l hm hb
        obtain ⟨p, hp, hpn, brs, hbrs, hall⟩ := forall₂_mem_right hms hm
        simp only at hpn hbrs
        subst hpn; subst hbrs
        obtain ⟨c, hcm, hcs⟩ := selBranch_ofList hb
        obtain ⟨i', hi', hie, hcc⟩ := forall₂_mem_right hall hcm
        simp only at hie hcc
        subst hie
        obtain ⟨hA, hB⟩ := (ih hcc).1 l hcs
        exact ⟨p, hp, rfl, hi', hA, hB⟩
      constructor
      · intro s
        rw [List.mem_append, h1]
        constructor
        · rintro (h | ⟨n, b, i, l, hm, hsel, hb, hsl⟩)
          · exact .here h
          · obtain ⟨p, hp, rfl, _, hl, _⟩ := hbr n b i l hm hb
            rw [mem_selectorsOf] at hp
            exact .down p i hp.1 hp.2.1 hsel ((hl s).1 hsl)
        · intro h
          cases h with
          | here h => exact .inl h
          | down p i hp hm hsel hr =>
            right
            -- the selector has children
            have hch : childrenIds sigs p ≠ [] := by
              have : i ∈ childrenIds sigs p := by
                rw [mem_childrenIds]; left
                cases hr with
                | here h => rw [mem_hereOf] at h; exact ⟨s, h.1, h.2.1, h.2.2 i rfl⟩
                | down q _ h _ _ _ => rw [mem_hereOf] at h; exact ⟨q, h.1, h.2.1, h.2.2 i rfl⟩
              intro he; rw [he] at this; cases this
            have hps : p ∈ selectorsOf sigs parent id := mem_selectorsOf.2 ⟨hp, hm, hch⟩
            have : ∃ b, (p.name, b) ∈ ms := by
              have hms' := hms.flip
              obtain ⟨m, hm1, hm2⟩ := forall₂_mem_right hms' hps
              exact ⟨m.2, by rw [← hm2.1]; exact hm1⟩
            obtain ⟨b, hb⟩ := this
            have := h2 _ _ hb
            rw [hsel] at this
            obtain ⟨l, hl⟩ := this
            obtain ⟨_, _, _, _, hl', _⟩ := hbr _ _ _ _ hb hl
            exact ⟨_, b, i, l, hb, hsel, hl, (hl' s).2 hr⟩
      · intro p hp hm hch
        have key : ∀ q ∈ hereOf sigs parent id, q.isMultiplexer = true → childrenIds sigs q ≠ [] →
            ∃ b, (q.name, b) ∈ ms := by
          intro q hq hqm hqc
          have hms' := hms.flip
          obtain ⟨m, hm1, hm2⟩ := forall₂_mem_right hms' (mem_selectorsOf.2 ⟨hq, hqm, hqc⟩)
          exact ⟨m.2, by rw [← hm2.1]; exact hm1⟩
        cases hp with
        | here hp =>
          obtain ⟨m, hm1, hm2⟩ := forall₂_mem_right hms.flip (mem_selectorsOf.2 ⟨hp, hm, hch⟩)
          obtain ⟨hn, brs, hb, hbrs⟩ := hm2
          have := h2 m.1 m.2 hm1
          rw [hn] at this
          cases hs : sel p.name with
          | none => rw [hs] at this; exact this
          | some i =>
            rw [hs] at this
            obtain ⟨l, hl⟩ := this
            rw [hb] at hl
            obtain ⟨c, hcm, _⟩ := selBranch_ofList hl
            obtain ⟨i', hi', hie, _⟩ := forall₂_mem_right hbrs hcm
            simp only at hie
            subst hie; exact hi'
        | down q i hq hqm hqs hr =>
          have hch' : childrenIds sigs q ≠ [] := by
            have : i ∈ childrenIds sigs q := by
              rw [mem_childrenIds]; left
              cases hr with
              | here h => rw [mem_hereOf] at h; exact ⟨p, h.1, h.2.1, h.2.2 i rfl⟩
              | down r _ h _ _ _ => rw [mem_hereOf] at h; exact ⟨r, h.1, h.2.1, h.2.2 i rfl⟩
            intro he; rw [he] at this; cases this
          obtain ⟨b, hb⟩ := key q hq hqm hch'
          have := h2 _ _ hb
          rw [hqs] at this
          obtain ⟨l, hl⟩ := this
          obtain ⟨_, _, _, _, _, hok⟩ := hbr _ _ _ _ hb hl
          exact hok p hr hm hch
    · intro hok
      simp only [selNode, Option.isSome_map]
      apply selMuxes_isSome
      intro n b hm
      obtain ⟨p, hp, hpn, brs, hbrs, hall⟩ := forall₂_mem_right hms hm
      simp only at hpn hbrs
      subst hpn; subst hbrs
      rw [mem_selectorsOf] at hp
      have := hok p (.here hp.1) hp.2.1 hp.2.2
      cases hs : sel p.name with
      | none => rw [hs] at this; exact this
      | some i =>
        rw [hs] at this
        simp only at this
        apply selBranch_exists
        · obtain ⟨ic, h1, h2⟩ := forall₂_mem_right hall.flip this
          exact List.mem_map.2 ⟨ic, h1, h2.1⟩
        · intro c hcm
          obtain ⟨i', hi', hie, hcc⟩ := forall₂_mem_right hall hcm
          simp only at hie hcc
          subst hie
          apply (ih hcc).2
          intro q hq
          exact hok q (.down p i hp.1 hp.2.1 hs hq)

/-! ### Encoding -/

/-- Selector values taken from the data to encode. -/
def encSel (sigs : List Signal) (data : List (String × Value)) (n : String) : Option Int :=
  (getMuxNumber sigs data n).toOption

theorem toOption_eq_some {ε α : Type} {x : Except ε α} {a : α} :
    x.toOption = some a ↔ x = .ok a := by cases x <;> simp [Except.toOption]

/-- The codec can handle these signals together. -/
structure AllOK (L : Nat) (sigs all : List Signal) : Prop where
  nodup : (sigs.map (·.name)).Nodup
  sorted : (sigs.filter fun s => !(s.byteOrder == .big)).Pairwise fun a b => a.start ≤ b.start
  pos : ∀ s ∈ all, 0 < s.length
  fits : ∀ s ∈ all, Fits L s
  disj : ∀ a ∈ all, ∀ b ∈ all, a ≠ b → Spec.Disjoint a b

theorem AllOK.mono {L : Nat} {sigs all all' : List Signal} (h : AllOK L sigs all)
    (hs : ∀ s ∈ all', s ∈ all) : AllOK L sigs all' :=
  ⟨h.nodup, h.sorted, fun s x => h.pos s (hs s x), fun s x => h.fits s (hs s x),
    fun a ha b hb => h.disj a (hs a ha) b (hs b hb)⟩

theorem AllOK.node {L : Nat} {sigs signals : List Signal} (h : AllOK L sigs signals)
    (hs : signals.Sublist sigs) : NodeOK L signals :=
  ⟨h.nodup.sublist (hs.map _), h.pos, h.fits, h.disj, h.sorted.sublist (hs.filter _)⟩

/-- Meaning of an encoded bit set. -/
def EncMeans (fo : FloatOps) (data : List (String × Value)) (scaling : Bool) (L : Nat)
    (all : List Signal) (e mask : Nat) : Prop :=
  (∀ s ∈ all, EncOk fo data scaling s) ∧ e < 2 ^ (8 * L) ∧ mask < 2 ^ (8 * L) ∧
  (∀ p, p < 8 * L → (atPos L e p = true ↔
    ∃ s ∈ all, ∃ j, j < s.length ∧ bitPos s j = p ∧ encBit fo data scaling s j = true)) ∧
  ∀ p, p < 8 * L → (atPos L mask p = true ↔ ∀ s ∈ all, ¬ Occupies s p)

theorem EncMeans.append {fo : FloatOps} {data : List (String × Value)} {scaling : Bool} {L : Nat}
    {a b : List Signal} {e1 m1 e2 m2 : Nat} (h1 : EncMeans fo data scaling L a e1 m1)
    (h2 : EncMeans fo data scaling L b e2 m2) :
    EncMeans fo data scaling L (a ++ b) (e1 ||| e2) (m1 &&& m2) := by
  obtain ⟨ha1, ha2, ha3, ha4, ha5⟩ := h1
  obtain ⟨hb1, hb2, hb3, hb4, hb5⟩ := h2
  refine ⟨?_, Nat.or_lt_two_pow ha2 hb2, Nat.and_lt_two_pow _ hb3, ?_, ?_⟩
  · intro s hs
    rcases List.mem_append.1 hs with h | h
    · exact ha1 s h
    · exact hb1 s h
  · intro p hp
    have e1' := ha4 p hp
    have e2' := hb4 p hp
    unfold atPos at *
    rw [Nat.testBit_or, Bool.or_eq_true, e1', e2']
    constructor
    · rintro (⟨s, hs, r⟩ | ⟨s, hs, r⟩)
      · exact ⟨s, by simp [hs], r⟩
      · exact ⟨s, by simp [hs], r⟩
    · rintro ⟨s, hs, r⟩
      rcases List.mem_append.1 hs with h | h
      · exact .inl ⟨s, h, r⟩
      · exact .inr ⟨s, h, r⟩
  · intro p hp
    have e1' := ha5 p hp
    have e2' := hb5 p hp
    unfold atPos at *
    rw [Nat.testBit_and, Bool.and_eq_true, e1', e2', List.forall_mem_append]

section
variable {fo : FloatOps} {sigs : List Signal} {L : Nat} {data : List (String × Value)}
  {scaling : Bool}

mutual
theorem encodeNode_sel : ∀ (c : Codec) (r : Nat × Nat × List Signal),
    encodeNode fo sigs L data scaling c = .ok r →
    selNode (fun _ => false) (encSel sigs data) c = some r.2.2
  | .mk signals muxes, r, h => by
    simp only [encodeNode, Except.bind_eq_ok] at h
    obtain ⟨e, he, h⟩ := h
    obtain ⟨l, h1, h2⟩ := encodeMuxes_sel muxes _ r h
    simp [selNode, h1, h2]
theorem encodeMuxes_sel : ∀ (ms : Muxes) (acc r : Nat × Nat × List Signal),
    encodeMuxes fo sigs L data scaling ms acc = .ok r →
    ∃ l, selMuxes (fun _ => false) (encSel sigs data) ms = some l ∧ r.2.2 = acc.2.2 ++ l
  | .nil, acc, r, h => by
    cases h; exact ⟨[], rfl, by simp⟩
  | .cons name branches rest, (e0, m0, a0), r, h => by
    simp only [encodeMuxes, Except.bind_eq_ok] at h
    obtain ⟨i, hi, ⟨e, m, s⟩, hb, h⟩ := h
    have h1 := encodeBranch_sel i branches _ hb
    obtain ⟨l, h2, h3⟩ := encodeMuxes_sel rest _ r h
    refine ⟨s ++ l, ?_, ?_⟩
    · have hsel : encSel sigs data name = some i := toOption_eq_some.2 hi
      simp only [selMuxes, hsel, h1, h2, Option.map_some]
    · rw [h3]; simp
theorem encodeBranch_sel (i : Int) : ∀ (b : Branches) (r : Nat × Nat × List Signal),
    encodeBranch fo sigs L data scaling i b = .ok r →
    selBranch (fun _ => false) (encSel sigs data) i b = some r.2.2
  | .nil, r, h => by simp [encodeBranch] at h
  | .cons id c rest, r, h => by
    simp only [encodeBranch] at h
    simp only [selBranch]
    split at h
    · rename_i hid; simp only [hid, if_true]; exact encodeNode_sel c r h
    · rename_i hid; simp only [hid, if_false]; exact encodeBranch_sel i rest r h
end

mutual
theorem encodeNode_means : ∀ (c : Codec) (r : Nat × Nat × List Signal), Codec.WF sigs c →
    encodeNode fo sigs L data scaling c = .ok r → AllOK L sigs r.2.2 →
    EncMeans fo data scaling L r.2.2 r.1 r.2.1
  | .mk signals muxes, r, hwf, h, hok => by
    have hsel := encodeNode_sel _ _ h
    simp only [encodeNode, Except.bind_eq_ok] at h
    obtain ⟨e, he, h⟩ := h
    obtain ⟨l, h1, h2⟩ := encodeMuxes_sel muxes _ r h
    simp only at h2
    have hn : NodeOK L signals := (hok.mono (by intro s hs; rw [h2]; simp [hs])).node hwf.1
    obtain ⟨k1, k2, k3⟩ := encodeData_ok hn he
    obtain ⟨k4, k5⟩ := paddingMask_spec hn
    exact encodeMuxes_means signals muxes _ r hwf.2 h ⟨k1, k2, k4, k3, k5⟩ hok
theorem encodeMuxes_means (here : List Signal) : ∀ (ms : Muxes) (acc r : Nat × Nat × List Signal),
    Muxes.WF sigs here ms → encodeMuxes fo sigs L data scaling ms acc = .ok r →
    EncMeans fo data scaling L acc.2.2 acc.1 acc.2.1 → AllOK L sigs r.2.2 →
    EncMeans fo data scaling L r.2.2 r.1 r.2.1
  | .nil, acc, r, _, h, hacc, _ => by cases h; exact hacc
  | .cons name branches rest, (e0, m0, a0), r, hwf, h, hacc, hok => by
    simp only [encodeMuxes, Except.bind_eq_ok] at h
    obtain ⟨i, hi, ⟨e, m, s⟩, hb, h⟩ := h
    obtain ⟨l, h2, h3⟩ := encodeMuxes_sel rest _ r h
    simp only at h3
    have hbr := encodeBranch_means i branches _ hwf.2.1 hb
      (hok.mono (by intro t ht; rw [h3]; simp at ht; simp [ht]))
    exact encodeMuxes_means here rest _ r hwf.2.2 h (hacc.append hbr) hok
theorem encodeBranch_means (i : Int) : ∀ (b : Branches) (r : Nat × Nat × List Signal),
    Branches.WF sigs b → encodeBranch fo sigs L data scaling i b = .ok r → AllOK L sigs r.2.2 →
    EncMeans fo data scaling L r.2.2 r.1 r.2.1
  | .nil, r, _, h, _ => by simp [encodeBranch] at h
  | .cons id c rest, r, hwf, h, hok => by
    simp only [encodeBranch] at h
    split at h
    · exact encodeNode_means c r hwf.1 h hok
    · exact encodeBranch_means i rest r hwf.2 h hok
end

mutual
theorem encodeNode_exists : ∀ (c : Codec) (all : List Signal), Codec.WF sigs c →
    selNode (fun _ => false) (encSel sigs data) c = some all → AllOK L sigs all →
    (∀ s ∈ all, EncOk fo data scaling s) → ∃ r, encodeNode fo sigs L data scaling c = .ok r
  | .mk signals muxes, all, hwf, h, hok, henc => by
    simp only [selNode, Option.map_eq_some_iff] at h
    obtain ⟨l, hl, rfl⟩ := h
    have hn : NodeOK L signals := (hok.mono (by intro s hs; simp [hs])).node hwf.1
    obtain ⟨e, he⟩ := encodeData_exists (fo := fo) (data := data) (scaling := scaling) hn
      (fun s hs => henc s (by simp [hs]))
    obtain ⟨r, hr⟩ := encodeMuxes_exists signals muxes l hwf.2 hl
      (hok.mono (by intro s hs; simp [hs])) (fun s hs => henc s (by simp [hs]))
      (e, (createFormats signals L).paddingMask, signals)
    refine ⟨r, ?_⟩
    simp only [encodeNode, he]
    exact hr
theorem encodeMuxes_exists (here : List Signal) : ∀ (ms : Muxes) (l : List Signal),
    Muxes.WF sigs here ms → selMuxes (fun _ => false) (encSel sigs data) ms = some l → AllOK L sigs l →
    (∀ s ∈ l, EncOk fo data scaling s) → ∀ acc,
    ∃ r, encodeMuxes fo sigs L data scaling ms acc = .ok r
  | .nil, l, _, _, _, _, acc => ⟨acc, rfl⟩
  | .cons name branches rest, l, hwf, h, hok, henc, (e0, m0, a0) => by
    simp only [selMuxes] at h
    cases hs : encSel sigs data name with
    | none => rw [hs] at h; simp at h
    | some i =>
      rw [hs] at h
      simp only at h
      cases hb : selBranch (fun _ => false) (encSel sigs data) i branches with
      | none => rw [hb] at h; simp at h
      | some a =>
        rw [hb] at h
        simp only [Option.map_eq_some_iff] at h
        obtain ⟨l', hl', rfl⟩ := h
        obtain ⟨⟨e, m, s⟩, hr⟩ := encodeBranch_exists i branches a hwf.2.1 hb
          (hok.mono (by intro s hs; simp [hs])) (fun s hs => henc s (by simp [hs]))
        obtain ⟨r', hr'⟩ := encodeMuxes_exists here rest l' hwf.2.2 hl'
          (hok.mono (by intro s hs; simp [hs])) (fun s hs => henc s (by simp [hs]))
          (e0 ||| e, m0 &&& m, a0 ++ s)
        refine ⟨r', ?_⟩
        have := toOption_eq_some.1 hs
        simp only [encodeMuxes, this, Except.bind_eq_ok]
        exact ⟨i, rfl, _, hr, hr'⟩
theorem encodeBranch_exists (i : Int) : ∀ (b : Branches) (l : List Signal), Branches.WF sigs b →
    selBranch (fun _ => false) (encSel sigs data) i b = some l → AllOK L sigs l →
    (∀ s ∈ l, EncOk fo data scaling s) → ∃ r, encodeBranch fo sigs L data scaling i b = .ok r
  | .nil, l, _, h, _, _ => by simp [selBranch] at h
  | .cons id c rest, l, hwf, h, hok, henc => by
    simp only [selBranch] at h
    simp only [encodeBranch]
    split at h
    · rename_i hid; simp only [hid, if_true]; exact encodeNode_exists c l hwf.1 h hok henc
    · rename_i hid; simp only [hid, if_false]; exact encodeBranch_exists i rest l hwf.2 h hok henc
end

/-! ### Gathering -/

mutual
theorem gatherNode_ok : ∀ (c : Codec) (r : List (String × Value)),
    gatherNode sigs data c = .ok r →
    ∃ all, selNode (fun _ => false) (encSel sigs data) c = some all ∧
      (∀ n, dictGet? r n = if n ∈ all.map (·.name) then dictGet? data n else none) ∧
      (∀ s ∈ all, (dictGet? data s.name).isSome) ∧ (r.map (·.1)).Nodup
  | .mk signals muxes, r, h => by
    simp only [gatherNode, Except.bind_eq_ok] at h
    obtain ⟨a, ha, h⟩ := h
    have key : ∀ (l : List Signal) (acc a : List (String × Value)),
        l.foldlM (fun acc s =>
          match dictGet? data s.name with
          | none => Except.error Err.encodeError
          | some v => .ok (dictSet acc s.name v)) acc = Except.ok a →
        (acc.map (·.1)).Nodup →
        (∀ n, dictGet? a n = if n ∈ l.map (·.name) then dictGet? data n else dictGet? acc n) ∧
        (∀ s ∈ l, (dictGet? data s.name).isSome) ∧ (a.map (·.1)).Nodup := by
      intro l
      induction l with
      | nil => intro acc a h hnd; cases h; exact ⟨by simp, by simp, hnd⟩
      | cons s t ih =>
        intro acc a h hnd
        rw [List.foldlM_cons, Except.bind_eq_ok] at h
        obtain ⟨b, hb, h⟩ := h
        cases hd : dictGet? data s.name with
        | none => rw [hd] at hb; cases hb
        | some v =>
          rw [hd] at hb
          cases hb
          obtain ⟨h1, h2, h3⟩ := ih _ _ h (dictSet_nodup _ _ hnd)
          refine ⟨?_, ?_, h3⟩
          · intro n
            rw [h1]
            by_cases hn : n ∈ t.map (·.name)
            · rw [if_pos hn, if_pos (by simp only [List.map_cons, List.mem_cons]; exact .inr hn)]
            · by_cases he : s.name = n
              · subst he
                rw [if_neg hn, dictGet?_set, if_pos rfl, if_pos (by simp), hd]
              · rw [if_neg hn, dictGet?_set, if_neg he, if_neg]
                simp only [List.map_cons, List.mem_cons, not_or]
                exact ⟨Ne.symm he, hn⟩
          · intro u hu
            rcases List.mem_cons.1 hu with rfl | hu
            · simp [hd]
            · exact h2 u hu
    obtain ⟨k1, k2, k3⟩ := key _ _ _ ha (by simp)
    obtain ⟨l, h1, h2, h3, h4⟩ := gatherMuxes_ok muxes a r k3 h
    refine ⟨signals ++ l, by simp [selNode, h1], ?_, ?_, h4⟩
    · intro n
      rw [h2, k1]
      by_cases hn : n ∈ l.map (·.name)
      · rw [if_pos hn, if_pos (by rw [List.map_append, List.mem_append]; exact .inr hn)]
      · by_cases hn' : n ∈ signals.map (·.name)
        · rw [if_neg hn, if_pos hn', if_pos (by rw [List.map_append, List.mem_append]; exact .inl hn')]
        · rw [if_neg hn, if_neg hn', if_neg (by rw [List.map_append, List.mem_append, not_or]; exact ⟨hn', hn⟩)]
          rfl
    · intro s hs
      rcases List.mem_append.1 hs with hs | hs
      · exact k2 s hs
      · exact h3 s hs
theorem gatherMuxes_ok : ∀ (ms : Muxes) (acc r : List (String × Value)),
    (acc.map (·.1)).Nodup → gatherMuxes sigs data ms acc = .ok r →
    ∃ all, selMuxes (fun _ => false) (encSel sigs data) ms = some all ∧
      (∀ n, dictGet? r n = if n ∈ all.map (·.name) then dictGet? data n else dictGet? acc n) ∧
      (∀ s ∈ all, (dictGet? data s.name).isSome) ∧ (r.map (·.1)).Nodup
  | .nil, acc, r, hnd, h => by
    cases h; exact ⟨[], rfl, by simp, by simp, hnd⟩
  | .cons name branches rest, acc, r, hnd, h => by
    simp only [gatherMuxes, Except.bind_eq_ok] at h
    obtain ⟨i, hi, sub, hb, h⟩ := h
    obtain ⟨a, h1, h2, h3, h4⟩ := gatherBranch_ok i branches sub hb
    obtain ⟨l, k1, k2, k3, k4⟩ := gatherMuxes_ok rest _ r (dictUpdate_nodup _ hnd) h
    have hsel : encSel sigs data name = some i := toOption_eq_some.2 hi
    refine ⟨a ++ l, by simp only [selMuxes, hsel, h1, k1, Option.map_some], ?_, ?_, k4⟩
    · intro n
      rw [k2]
      by_cases hn : n ∈ l.map (·.name)
      · rw [if_pos hn, if_pos (by rw [List.map_append, List.mem_append]; exact .inr hn)]
      · rw [if_neg hn, dictGet?_update]
        have hrev : dictGet? sub.reverse n = dictGet? sub n := by
          cases hg : dictGet? sub n with
          | none =>
            rw [dictGet?_eq_none_iff] at hg ⊢
            rwa [List.map_reverse, List.mem_reverse]
          | some v =>
            apply dictGet?_of_mem
            · rw [List.map_reverse, List.nodup_reverse]; exact h4
            · rw [List.mem_reverse]; exact dictGet?_mem hg
        rw [hrev, h2]
        by_cases hn' : n ∈ a.map (·.name)
        · rw [if_pos hn', if_pos (by rw [List.map_append, List.mem_append]; exact .inl hn')]
          obtain ⟨s, hs, rfl⟩ := List.mem_map.1 hn'
          obtain ⟨v, hv⟩ := Option.isSome_iff_exists.1 (h3 s hs)
          rw [hv]
        · rw [if_neg hn', if_neg (by rw [List.map_append, List.mem_append, not_or]; exact ⟨hn', hn⟩)]
    · intro s hs
      rcases List.mem_append.1 hs with hs | hs
      · exact h3 s hs
      · exact k3 s hs
theorem gatherBranch_ok (i : Int) : ∀ (b : Branches) (r : List (String × Value)),
    gatherBranch sigs data i b = .ok r →
    ∃ all, selBranch (fun _ => false) (encSel sigs data) i b = some all ∧
      (∀ n, dictGet? r n = if n ∈ all.map (·.name) then dictGet? data n else none) ∧
      (∀ s ∈ all, (dictGet? data s.name).isSome) ∧ (r.map (·.1)).Nodup
  | .nil, r, h => by simp [gatherBranch] at h
  | .cons id c rest, r, h => by
    simp only [gatherBranch] at h
    simp only [selBranch]
    split at h
    · rename_i hid; simp only [hid, if_true]; exact gatherNode_ok c r h
    · rename_i hid; simp only [hid, if_false]; exact gatherBranch_ok i rest r h
end

mutual
theorem gatherNode_exists : ∀ (c : Codec) (all : List Signal),
    selNode (fun _ => false) (encSel sigs data) c = some all →
    (∀ s ∈ all, (dictGet? data s.name).isSome) → ∃ r, gatherNode sigs data c = .ok r
  | .mk signals muxes, all, h, hd => by
    simp only [selNode, Option.map_eq_some_iff] at h
    obtain ⟨l, hl, rfl⟩ := h
    have key : ∀ (l : List Signal) (acc : List (String × Value)),
        (∀ s ∈ l, (dictGet? data s.name).isSome) →
        ∃ a, l.foldlM (fun acc s =>
          match dictGet? data s.name with
          | none => Except.error Err.encodeError
          | some v => .ok (dictSet acc s.name v)) acc = Except.ok a := by
      intro l
      induction l with
      | nil => intro acc _; exact ⟨acc, rfl⟩
      | cons s t ih =>
        intro acc h
        obtain ⟨v, hv⟩ := Option.isSome_iff_exists.1 (h s (by simp))
        rw [List.foldlM_cons]
        simp only [hv]
        exact ih _ (fun u hu => h u (by simp [hu]))
    obtain ⟨a, ha⟩ := key signals [] (fun s hs => hd s (by simp [hs]))
    obtain ⟨r, hr⟩ := gatherMuxes_exists muxes l hl (fun s hs => hd s (by simp [hs])) a
    refine ⟨r, ?_⟩
    simp only [gatherNode, Except.bind_eq_ok]
    exact ⟨a, ha, hr⟩
theorem gatherMuxes_exists : ∀ (ms : Muxes) (l : List Signal),
    selMuxes (fun _ => false) (encSel sigs data) ms = some l →
    (∀ s ∈ l, (dictGet? data s.name).isSome) → ∀ acc, ∃ r, gatherMuxes sigs data ms acc = .ok r
  | .nil, _, _, _, acc => ⟨acc, rfl⟩
  | .cons name branches rest, l, h, hd, acc => by
    simp only [selMuxes] at h
    cases hs : encSel sigs data name with
    | none => rw [hs] at h; simp at h
    | some i =>
      rw [hs] at h
      simp only at h
      cases hb : selBranch (fun _ => false) (encSel sigs data) i branches with
      | none => rw [hb] at h; simp at h
      | some a =>
        rw [hb] at h
        simp only [Option.map_eq_some_iff] at h
        obtain ⟨l', hl', rfl⟩ := h
        obtain ⟨sub, hr⟩ := gatherBranch_exists i branches a hb (fun s hs => hd s (by simp [hs]))
        obtain ⟨r', hr'⟩ := gatherMuxes_exists rest l' hl' (fun s hs => hd s (by simp [hs]))
          (dictUpdate acc sub)
        refine ⟨r', ?_⟩
        have := toOption_eq_some.1 hs
        simp only [gatherMuxes, this, Except.bind_eq_ok]
        exact ⟨i, rfl, _, hr, hr'⟩
theorem gatherBranch_exists (i : Int) : ∀ (b : Branches) (l : List Signal),
    selBranch (fun _ => false) (encSel sigs data) i b = some l →
    (∀ s ∈ l, (dictGet? data s.name).isSome) → ∃ r, gatherBranch sigs data i b = .ok r
  | .nil, l, h, _ => by simp [selBranch] at h
  | .cons id c rest, l, h, hd => by
    simp only [selBranch] at h
    simp only [gatherBranch]
    split at h
    · rename_i hid; simp only [hid, if_true]; exact gatherNode_exists c l h hd
    · rename_i hid; simp only [hid, if_false]; exact gatherBranch_exists i rest l h hd
end

end

end Cantools
