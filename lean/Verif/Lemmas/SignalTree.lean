import Verif.Lemmas.Path
import Verif.Lemmas.Accepted
import Verif.Spec.SignalTree

set_option linter.unusedSimpArgs false

namespace Cantools
open Spec

/-! ### Shape of the tree -/

theorem levelNames_treeOfSignals (ms : List (String × TreeBranches)) (l : List Signal) :
    levelNames (treeOfSignals ms l) = l.map (·.name) := by
  induction l with
  | nil => rfl
  | cons s r ih =>
    simp only [treeOfSignals]
    split <;> simp [levelNames, ih]

theorem branchesOf_treeOfSignals (ms : List (String × TreeBranches)) (l : List Signal) (n : String) :
    branchesOf n (treeOfSignals ms l) = if n ∈ l.map (·.name) then dictGet? ms n else none := by
  induction l with
  | nil => rfl
  | cons s r ih =>
    simp only [treeOfSignals, List.map_cons, List.mem_cons]
    by_cases h : n = s.name
    · subst h
      cases hd : dictGet? ms s.name with
      | none => simp only [branchesOf, ih, hd]; simp
      | some b => simp [branchesOf]
    · have h' : ¬ s.name = n := fun e => h e.symm
      cases hd : dictGet? ms s.name with
      | none => simp only [branchesOf, ih, h, false_or]
      | some b => simp only [branchesOf, if_neg h', ih, h, false_or]

theorem branchIds_ofList (brs : List (Int × Codec)) :
    branchIds (treeOfBranches (Branches.ofList brs)) = brs.map (·.1) := by
  induction brs with
  | nil => rfl
  | cons x r ih => obtain ⟨i, c⟩ := x; simp [Branches.ofList, treeOfBranches, branchIds, ih]

theorem branch_ofList (brs : List (Int × Codec)) (i : Int) :
    branch i (treeOfBranches (Branches.ofList brs)) = (dictGet? brs i).map treeOfCodec := by
  induction brs with
  | nil => rfl
  | cons x r ih =>
    obtain ⟨j, c⟩ := x
    simp only [Branches.ofList, treeOfBranches, branch, dictGet?_cons]
    split
    · rfl
    · exact ih

theorem forall₂_fst {α : Type} {R : Int → Int × α → Prop} {l : List Int} {brs : List (Int × α)}
    (h : List.Forall₂ R l brs) (hR : ∀ i ic, R i ic → ic.1 = i) : brs.map (·.1) = l := by
  induction h with
  | nil => rfl
  | cons hx _ ih => simp [hR _ _ hx, ih]


theorem ne_nil_iff_mem {α : Type} {l : List α} : l ≠ [] ↔ ∃ x, x ∈ l := by
  cases l with
  | nil => simp
  | cons x r => simp

/-- What the tree of one node looks like. -/
theorem node_tree {sigs : List Signal} (hnd : (sigs.map (·.name)).Nodup) {fuel : Nat}
    {parent : Option String} {id : Option Int} {c : Codec}
    (hc : createCodec sigs fuel parent id = some c) :
    levelNames (treeOfCodec c) = (hereOf sigs parent id).map (·.name) ∧
    (∀ n, n ∉ (hereOf sigs parent id).map (·.name) → branchesOf n (treeOfCodec c) = none) ∧
    (∀ s ∈ hereOf sigs parent id, s ∉ selectorsOf sigs parent id →
      branchesOf s.name (treeOfCodec c) = none) ∧
    ∀ s ∈ selectorsOf sigs parent id, ∃ fuel' brs,
      branchesOf s.name (treeOfCodec c) = some (treeOfBranches (Branches.ofList brs)) ∧
      List.Forall₂ (fun i ic => ic.1 = i ∧
        createCodec sigs fuel' (some s.name) (some i) = some ic.2) (childrenIds sigs s) brs := by
  obtain ⟨fuel', ms, hf, rfl, hms⟩ := createCodec_cases hc
  have hms' : List.Forall₂ (fun s m => m.1 = s.name ∧ ChildTrees sigs fuel' s m.2)
      (selectorsOf sigs parent id) ms := hms
  simp only [treeOfCodec]
  refine ⟨levelNames_treeOfSignals _ _, ?_, ?_, ?_⟩
  · intro n hn
    rw [branchesOf_treeOfSignals, if_neg hn]
  · intro s hs hsel
    rw [branchesOf_treeOfSignals, if_pos (List.mem_map_of_mem hs)]
    rcases tree_lookup hnd hms' hs with ⟨h, _⟩ | ⟨_, h⟩
    · exact absurd h hsel
    · exact h
  · intro s hsel
    have hs := (mem_selectorsOf.1 hsel).1
    rw [branchesOf_treeOfSignals, if_pos (List.mem_map_of_mem hs)]
    rcases tree_lookup hnd hms' hs with ⟨_, b, ⟨brs, rfl, hch⟩, hb⟩ | ⟨h, _⟩
    · exact ⟨fuel', brs, hb, hch⟩
    · exact absurd hsel h

theorem branch_some {sigs : List Signal} {fuel : Nat} {s : Signal} {brs : List (Int × Codec)}
    (hch : List.Forall₂ (fun i ic => ic.1 = i ∧
        createCodec sigs fuel (some s.name) (some i) = some ic.2) (childrenIds sigs s) brs)
    {i : Int} {t : SigTree}
    (h : branch i (treeOfBranches (Branches.ofList brs)) = some t) :
    i ∈ childrenIds sigs s ∧ ∃ c, createCodec sigs fuel (some s.name) (some i) = some c ∧
      t = treeOfCodec c := by
  rw [branch_ofList, Option.map_eq_some_iff] at h
  obtain ⟨c, hc, rfl⟩ := h
  obtain ⟨j, hj, h1, h2⟩ := forall₂_mem_right hch (dictGet?_mem hc)
  simp only at h1 h2
  subst h1
  exact ⟨hj, c, h2, rfl⟩

theorem childrenIds_nodup (sigs : List Signal) (s : Signal) : (childrenIds sigs s).Nodup := by
  unfold childrenIds
  exact nodup_dedupInt _

/-- Every tree met on a walk from the root belongs to a node. -/
theorem follow_node {sigs : List Signal} (hnd : (sigs.map (·.name)).Nodup) {fuel : Nat}
    {π : MuxPath} {c : Codec} (hπ : IsPath sigs π)
    (hc : createCodec sigs fuel (MuxPath.parent π) (MuxPath.id π) = some c)
    {path : List (String × Int)} {t : SigTree} (h : follow (treeOfCodec c) path = some t) :
    IsPath sigs (path.reverse ++ π) ∧ ∃ fuel' c', createCodec sigs fuel'
      (MuxPath.parent (path.reverse ++ π)) (MuxPath.id (path.reverse ++ π)) = some c' ∧
      t = treeOfCodec c' := by
  induction path generalizing fuel π c with
  | nil =>
    simp only [follow, Option.some.injEq] at h
    exact ⟨by simpa using hπ, fuel, c, by simpa using hc, h.symm⟩
  | cons x path ih =>
    obtain ⟨n, i⟩ := x
    simp only [follow, Option.bind_eq_some_iff] at h
    obtain ⟨t', ⟨b, hb, hbr⟩, hrest⟩ := h
    obtain ⟨h1, h2, h3, h4⟩ := node_tree hnd hc
    by_cases hn : n ∈ (hereOf sigs (MuxPath.parent π) (MuxPath.id π)).map (·.name)
    · obtain ⟨s, hs, rfl⟩ := List.mem_map.1 hn
      by_cases hsel : s ∈ selectorsOf sigs (MuxPath.parent π) (MuxPath.id π)
      · obtain ⟨fuel', brs, hb', hch⟩ := h4 s hsel
        rw [hb] at hb'
        cases hb'
        obtain ⟨_, c', hc', rfl⟩ := branch_some hch hbr
        have := ih (π := (s.name, i) :: π) (.cons s i hs (mem_selectorsOf.1 hsel).2.1 hπ) hc' hrest
        simpa using this
      · rw [h3 s hs hsel] at hb; cases hb
    · rw [h2 n hn] at hb; cases hb

/-- An id on a path to some node has a branch. -/
theorem below_childrenIds {sigs : List Signal} {p : Signal} {i : Int} {π : MuxPath} (ρ : MuxPath) :
    IsPath sigs (ρ ++ (p.name, i) :: π) → ∀ t, t ∈ nodeAt sigs (ρ ++ (p.name, i) :: π) →
    i ∈ childrenIds sigs p := by
  induction ρ with
  | nil =>
    intro _ t ht
    have := mem_hereOf.1 ht
    exact mem_childrenIds.2 (.inl ⟨t, this.1, this.2.1, this.2.2 i rfl⟩)
  | cons y ρ ih =>
    intro hp _ _
    obtain ⟨q, hq, _⟩ := hp.head (n := y.1) (i := y.2)
    exact ih hp.tail q hq

/-- Every node that lists a signal can be walked to. -/
theorem follow_exists {sigs : List Signal} (hnd : (sigs.map (·.name)).Nodup) {fuel : Nat}
    {π : MuxPath} {c : Codec} (hπ : IsPath sigs π)
    (hc : createCodec sigs fuel (MuxPath.parent π) (MuxPath.id π) = some c)
    {path : List (String × Int)} (hp : IsPath sigs (path.reverse ++ π)) {s : Signal}
    (hs : s ∈ nodeAt sigs (path.reverse ++ π)) :
    ∃ t, follow (treeOfCodec c) path = some t ∧ s.name ∈ levelNames t := by
  induction path generalizing fuel π c with
  | nil =>
    refine ⟨_, rfl, ?_⟩
    rw [(node_tree hnd hc).1]
    exact List.mem_map_of_mem (by simpa [nodeAt] using hs)
  | cons x path ih =>
    obtain ⟨n, i⟩ := x
    simp only [List.reverse_cons, List.append_assoc, List.singleton_append] at hp hs
    have hπ' : IsPath sigs ((n, i) :: π) := hp.suffix ⟨_, rfl⟩
    obtain ⟨p, hpn, rfl, hpm⟩ := hπ'.head
    have hi := below_childrenIds path.reverse hp s hs
    have hsel : p ∈ selectorsOf sigs (MuxPath.parent π) (MuxPath.id π) :=
      mem_selectorsOf.2 ⟨hpn, hpm, fun h => by rw [h] at hi; cases hi⟩
    obtain ⟨fuel', brs, hb, hch⟩ := (node_tree hnd hc).2.2.2 p hsel
    have hids := forall₂_fst hch (fun _ _ h => h.1)
    obtain ⟨ic, hic, e1, e2⟩ := forall₂_mem_right hch.flip hi
    have hget : dictGet? brs i = some ic.2 := by
      apply dictGet?_of_mem
      · rw [hids]; exact childrenIds_nodup sigs p
      · rw [← e1]; exact hic
    obtain ⟨t, ht, hn⟩ := ih hπ' e2 hp hs
    refine ⟨t, ?_, hn⟩
    simp only [follow, hb, Option.bind_some, branch_ofList, hget, Option.map_some]
    exact ht

/-! ### The inverted tree -/

/- The (signal, setting) pairs in the order in which they are found. -/
mutual
def emitTree (cur : Setting) : SigTree → List (String × Setting)
  | .nil => []
  | .leaf n r => (n, cur) :: emitTree cur r
  | .mux n b r => emitBranches cur n b ++ emitTree cur r
def emitBranches (cur : Setting) (name : String) : TreeBranches → List (String × Setting)
  | .nil => []
  | .cons i t r => emitTree (dictSet cur name i) t ++ emitBranches cur name r
end

mutual
theorem invertTree_eq (cur : Setting) : ∀ (t : SigTree) (ret : List (String × List Setting)),
    invertTree cur ret t = (emitTree cur t).foldl (fun r x => appendSetting r x.1 x.2) ret
  | .nil, ret => rfl
  | .leaf n r, ret => by simp only [invertTree, emitTree, List.foldl_cons, invertTree_eq cur r]
  | .mux n b r, ret => by
    simp only [invertTree, emitTree, List.foldl_append, invertTree_eq cur r,
      invertBranches_eq cur n b]
theorem invertBranches_eq (cur : Setting) (name : String) :
    ∀ (b : TreeBranches) (ret : List (String × List Setting)),
    invertBranches cur name ret b =
      (emitBranches cur name b).foldl (fun r x => appendSetting r x.1 x.2) ret
  | .nil, ret => rfl
  | .cons i t r, ret => by
    simp only [invertBranches, emitBranches, List.foldl_append, invertBranches_eq cur name r,
      invertTree_eq _ t]
end

theorem fold_appendSetting (l : List (String × Setting)) (ret : List (String × List Setting))
    (n : String) :
    dictGet? (l.foldl (fun r x => appendSetting r x.1 x.2) ret) n =
      if n ∈ l.map (·.1) then
        some ((dictGet? ret n).getD [] ++ (l.filter fun x => x.1 == n).map (·.2))
      else dictGet? ret n := by
  induction l generalizing ret with
  | nil => simp
  | cons x r ih =>
    obtain ⟨k, σ⟩ := x
    simp only [List.foldl_cons, ih, List.map_cons, List.mem_cons]
    unfold appendSetting
    rw [dictGet?_set]
    by_cases hk : k = n
    · subst hk
      by_cases hr : k ∈ r.map (·.1)
      · simp [hr]
      · have : (r.filter fun x => x.1 == k) = [] := by
          rw [List.filter_eq_nil_iff]
          intro x hx he
          rw [beq_iff_eq] at he
          exact hr (List.mem_map.2 ⟨x, hx, he⟩)
        simp [hr, this]
    · have hk' : ¬ n = k := fun e => hk e.symm
      by_cases hr : n ∈ r.map (·.1)
      · simp [hr, hk, hk']
      · simp [hr, hk, hk']

/-- The settings found for a signal. -/
theorem invert_get (tree : SigTree) (n : String) :
    dictGet? (invertSignalTree tree) n =
      if n ∈ (emitTree [] tree).map (·.1) then
        some (((emitTree [] tree).filter fun x => x.1 == n).map (·.2)) else none := by
  unfold invertSignalTree
  rw [invertTree_eq, fold_appendSetting]
  simp

theorem mem_emit_signals (cur : Setting) (ms : List (String × TreeBranches)) (l : List Signal)
    (x : String × Setting) :
    x ∈ emitTree cur (treeOfSignals ms l) ↔
      ∃ s ∈ l, (dictGet? ms s.name = none ∧ x = (s.name, cur)) ∨
        ∃ b, dictGet? ms s.name = some b ∧ x ∈ emitBranches cur s.name b := by
  induction l with
  | nil => simp [treeOfSignals, emitTree]
  | cons s r ih =>
    simp only [treeOfSignals, List.mem_cons, exists_eq_or_imp]
    cases hd : dictGet? ms s.name with
    | none => simp [emitTree, ih]
    | some b => simp [emitTree, ih]

theorem mem_emit_branches (cur : Setting) (n : String) (brs : List (Int × Codec))
    (x : String × Setting) :
    x ∈ emitBranches cur n (treeOfBranches (Branches.ofList brs)) ↔
      ∃ ic ∈ brs, x ∈ emitTree (dictSet cur n ic.1) (treeOfCodec ic.2) := by
  induction brs with
  | nil => simp [Branches.ofList, treeOfBranches, emitBranches]
  | cons y r ih =>
    obtain ⟨i, c⟩ := y
    simp [Branches.ofList, treeOfBranches, emitBranches, ih]

/-- Settings are exactly the paths to the nodes at which a signal is listed. -/
theorem mem_emit {sigs : List Signal} (hnd : (sigs.map (·.name)).Nodup) {fuel : Nat}
    {π : MuxPath} {c : Codec} (hπ : IsPath sigs π)
    (hc : createCodec sigs fuel (MuxPath.parent π) (MuxPath.id π) = some c) (n : String)
    (σ : Setting) :
    (n, σ) ∈ emitTree π.reverse (treeOfCodec c) ↔
      ∃ s ρ, n = s.name ∧ σ = (ρ ++ π).reverse ∧ IsPath sigs (ρ ++ π) ∧
        s ∈ nodeAt sigs (ρ ++ π) ∧ ¬ (s.isMultiplexer = true ∧ childrenIds sigs s ≠ []) := by
  induction fuel generalizing π c with
  | zero => simp [createCodec] at hc
  | succ fuel ih =>
    obtain ⟨fuel', ms, hf, rfl, hms⟩ := createCodec_cases hc
    cases hf
    have hms' : List.Forall₂ (fun s m => m.1 = s.name ∧ ChildTrees sigs fuel s m.2)
      (selectorsOf sigs (MuxPath.parent π) (MuxPath.id π)) ms := hms
    simp only [treeOfCodec, mem_emit_signals]
    constructor
    · rintro ⟨s, hs, ⟨hd, hx⟩ | ⟨b, hd, hx⟩⟩
      · cases hx
        refine ⟨s, [], rfl, by simp, by simpa using hπ, by simpa [nodeAt] using hs, ?_⟩
        rintro ⟨h1, h2⟩
        rcases tree_lookup hnd hms' hs with ⟨_, b, _, hb⟩ | ⟨h, _⟩
        · rw [hd] at hb; cases hb
        · exact h (mem_selectorsOf.2 ⟨hs, h1, h2⟩)
      · rcases tree_lookup hnd hms' hs with ⟨hsel, b', ⟨brs, rfl, hch⟩, hb⟩ | ⟨_, h⟩
        · rw [hd] at hb
          cases hb
          rw [mem_emit_branches] at hx
          obtain ⟨ic, hic, hx⟩ := hx
          obtain ⟨i, hi, h1, h2⟩ := forall₂_mem_right hch hic
          have hk : s.name ∉ π.reverse.map (·.1) := by
            rw [List.map_reverse, List.mem_reverse]; exact hπ.not_mem hnd hs
          rw [dictSet_append_of_not_mem _ hk, h1] at hx
          have hπ' : IsPath sigs ((s.name, i) :: π) := .cons s i hs (mem_selectorsOf.1 hsel).2.1 hπ
          have hx' : (n, σ) ∈ emitTree (((s.name, i) :: π : MuxPath)).reverse (treeOfCodec ic.2) := by
            simpa using hx
          obtain ⟨t, ρ, e1, e2, e3, e4, e5⟩ := (ih hπ' h2).1 hx'
          exact ⟨t, ρ ++ [(s.name, i)], e1, by simpa using e2, by simpa using e3,
            by simpa using e4, e5⟩
        · rw [hd] at h; cases h
    · rintro ⟨s, ρ, rfl, rfl, h3, h4, h5⟩
      rcases List.eq_nil_or_concat ρ with rfl | ⟨ρ', x, rfl⟩
      · have hs : s ∈ hereOf sigs (MuxPath.parent π) (MuxPath.id π) := by simpa [nodeAt] using h4
        refine ⟨s, hs, .inl ⟨?_, by simp⟩⟩
        rcases tree_lookup hnd hms' hs with ⟨h, _⟩ | ⟨_, h⟩
        · exact absurd (mem_selectorsOf.1 h).2 h5
        · exact h
      · obtain ⟨k, i⟩ := x
        simp only [List.concat_eq_append, List.append_assoc, List.singleton_append] at h3 h4 ⊢
        have hπ' : IsPath sigs ((k, i) :: π) := h3.suffix ⟨ρ', rfl⟩
        obtain ⟨p, hp, rfl, hpm⟩ := hπ'.head
        -- the id has a branch, because something is below it
        have hi : i ∈ childrenIds sigs p := below_childrenIds ρ' h3 s h4
        have hsel : p ∈ selectorsOf sigs (MuxPath.parent π) (MuxPath.id π) :=
          mem_selectorsOf.2 ⟨hp, hpm, fun h => by rw [h] at hi; cases hi⟩
        refine ⟨p, hp, .inr ?_⟩
        rcases tree_lookup hnd hms' hp with ⟨_, b', ⟨brs, rfl, hch⟩, hb⟩ | ⟨h, _⟩
        · refine ⟨_, hb, ?_⟩
          rw [mem_emit_branches]
          obtain ⟨ic, hic, e1, e2⟩ := forall₂_mem_right hch.flip hi
          refine ⟨ic, hic, ?_⟩
          have hk : p.name ∉ π.reverse.map (·.1) := by
            rw [List.map_reverse, List.mem_reverse]; exact hπ.not_mem hnd hp
          rw [dictSet_append_of_not_mem _ hk, e1]
          have := (ih hπ' e2).2 ⟨s, ρ', rfl, by simp, h3, h4, h5⟩
          simpa using this
        · exact absurd hsel h

/-- Selector values under which a signal is present agree with a path to it. -/
theorem present_path {sigs : List Signal} {sel : String → Option Int} {s : Signal}
    (h : Present sigs sel s) :
    ∃ ρ, IsPath sigs ρ ∧ s ∈ nodeAt sigs ρ ∧ ∀ n i, (n, i) ∈ ρ → sel n = some i := by
  induction h with
  | root s hs hp => exact ⟨[], .nil, mem_hereOf.2 ⟨hs, hp, by simp [MuxPath.id]⟩, by simp⟩
  | child s p i ids hs hp hm _ hsel hids hi ih =>
    obtain ⟨ρ, h1, h2, h3⟩ := ih
    refine ⟨(p.name, i) :: ρ, .cons p i h2 hm h1, mem_hereOf.2 ⟨hs, hp, ?_⟩, ?_⟩
    · intro j hj; cases hj; simpa [hids] using hi
    · intro n j hj
      simp only [List.mem_cons, Prod.mk.injEq] at hj
      rcases hj with ⟨rfl, rfl⟩ | hj
      · exact hsel
      · exact h3 n j hj

end Cantools
