import Verif.Lemmas.SignalTree
import Verif.Props.Example

/-
C40: the signal tree and the tester's inversion of it.
-/

namespace Cantools
open Cantools.Spec

variable {fid : Int} {name : String} {len : Nat} {sigs : List Signal} {pat : UInt8}
  {ext strict : Bool} {sort : SortSignals} {m : Message}

/-- C40.  `Message.signal_tree` mirrors the multiplexing structure, at any depth: after choosing ids
of selectors step by step, the tree lists (in the order of `Message.signals`) exactly the signals that
are multiplexed by the last chosen selector with the chosen id (at the root: the signals that are not
multiplexed), and a listed signal has a dictionary of subtrees exactly if it selects something, with
exactly the numbers it has branches for as keys, each once. -/
theorem C40_tree_mirrors (hm : Message.create fid name len sigs pat ext strict sort = .ok m)
    (hnd : (m.signals.map (·.name)).Nodup) {path : List (String × Int)} {t : SigTree}
    (h : follow m.signalTree path = some t) :
    levelNames t = (m.signals.filter (listedAfter path)).map (·.name) ∧
    ∀ s ∈ m.signals.filter (listedAfter path),
      (SelectsSome m.signals s → ∃ b, branchesOf s.name t = some b ∧ (branchIds b).Nodup ∧
        ∀ i, i ∈ branchIds b ↔ HasBranch m.signals s i) ∧
      (¬ SelectsSome m.signals s → branchesOf s.name t = none) := by
  obtain ⟨_, _, c, hc, _, rfl⟩ := create_ok_iff.1 hm
  obtain ⟨_, fuel', c', hc', rfl⟩ := follow_node hnd .nil hc h
  simp only [List.append_nil] at hc'
  have hf : hereOf (sort.apply sigs) (MuxPath.parent path.reverse) (MuxPath.id path.reverse) =
      (sort.apply sigs).filter (listedAfter path) := by
    unfold hereOf
    apply List.filter_congr
    intro s _
    unfold listedAfter atNode
    rcases List.eq_nil_or_concat path with rfl | ⟨q, ⟨n, i⟩, rfl⟩
    · simp [MuxPath.parent, MuxPath.id]
    · simp [MuxPath.parent, MuxPath.id]
  obtain ⟨h1, h2, h3, h4⟩ := node_tree hnd hc'
  rw [hf] at h1
  refine ⟨h1, ?_⟩
  intro s hs
  rw [← hf] at hs
  have hsel : s ∈ selectorsOf (sort.apply sigs) (MuxPath.parent path.reverse)
      (MuxPath.id path.reverse) ↔ SelectsSome (sort.apply sigs) s := by
    rw [mem_selectorsOf, ne_nil_iff_mem]
    simp only [hs, true_and, SelectsSome, mem_childrenIds, HasBranch, table]
  constructor
  · intro hS
    obtain ⟨f, brs, hb, hch⟩ := h4 s (hsel.2 hS)
    refine ⟨_, hb, ?_, ?_⟩
    · rw [branchIds_ofList, forall₂_fst hch (fun _ _ h => h.1)]
      exact childrenIds_nodup _ _
    · intro i
      rw [branchIds_ofList, forall₂_fst hch (fun _ _ h => h.1), mem_childrenIds]
      rfl
  · intro hS
    exact h3 s hs (fun h => hS (hsel.1 h))

/-- C40.  The tree lists exactly the names of the signals that some choice of selector values makes
part of the message. -/
theorem C40_tree_lists_reachable
    (hm : Message.create fid name len sigs pat ext strict sort = .ok m)
    (hnd : (m.signals.map (·.name)).Nodup) (n : String) :
    (∃ path t, follow m.signalTree path = some t ∧ n ∈ levelNames t) ↔
      ∃ s ∈ m.signals, s.name = n ∧ ∃ sel, Present m.signals sel s := by
  obtain ⟨_, _, c, hc, _, rfl⟩ := create_ok_iff.1 hm
  constructor
  · rintro ⟨path, t, h, hn⟩
    obtain ⟨hp, fuel', c', hc', rfl⟩ := follow_node hnd .nil hc h
    rw [(node_tree hnd hc').1] at hn
    obtain ⟨s, hs, rfl⟩ := List.mem_map.1 hn
    refine ⟨s, (mem_hereOf.1 hs).1, rfl, fun k => dictGet? (path.reverse ++ []) k, ?_⟩
    exact hp.present (fun k i hk => dictGet?_of_mem (hp.nodup hnd) hk) hs
  · rintro ⟨s, _, rfl, sel, hp⟩
    obtain ⟨ρ, h1, h2, _⟩ := present_path hp
    obtain ⟨t, ht, hn⟩ := follow_exists hnd (path := ρ.reverse) (s := s) .nil hc
      (by simpa using h1) (by simpa using h2)
    exact ⟨_, t, ht, hn⟩

/-- C40 (partial).  The tester's inverted tree gives, for every signal that does not select other
signals, exactly the multiplexer settings under which it is transmitted: whatever values the
selectors have, the signal is part of the message if and only if the values agree with one of the
listed settings.  No setting mentions a selector twice.

Missing: selectors that select something are not in the map, see `C40_selectors_missing`. -/
theorem C40_inverted_partial (hm : Message.create fid name len sigs pat ext strict sort = .ok m)
    (hnd : (m.signals.map (·.name)).Nodup) {s : Signal} (hs : s ∈ m.signals)
    (hleaf : ¬ SelectsSome m.signals s) :
    (∀ sel, Present m.signals sel s ↔
      ∃ σ ∈ (dictGet? (invertSignalTree m.signalTree) s.name).getD [], Agrees sel σ) ∧
    ∀ σ ∈ (dictGet? (invertSignalTree m.signalTree) s.name).getD [], (σ.map (·.1)).Nodup := by
  obtain ⟨_, _, c, hc, _, rfl⟩ := create_ok_iff.1 hm
  have hleaf' : ¬ (s.isMultiplexer = true ∧ childrenIds (sort.apply sigs) s ≠ []) := by
    rw [ne_nil_iff_mem]
    simpa only [SelectsSome, mem_childrenIds, HasBranch, table] using hleaf
  have key : ∀ σ, σ ∈ (dictGet? (invertSignalTree (treeOfCodec c)) s.name).getD [] ↔
      ∃ ρ, σ = ρ.reverse ∧ IsPath (sort.apply sigs) ρ ∧ s ∈ nodeAt (sort.apply sigs) ρ := by
    intro σ
    have he := mem_emit hnd .nil hc s.name σ
    simp only [List.reverse_nil, List.append_nil] at he
    have hget : σ ∈ (dictGet? (invertSignalTree (treeOfCodec c)) s.name).getD [] ↔
        (s.name, σ) ∈ emitTree [] (treeOfCodec c) := by
      rw [invert_get]
      split
      · simp [List.mem_map, List.mem_filter]
      · rename_i hn
        simp only [Option.getD_none, List.not_mem_nil, false_iff]
        exact fun h => hn (List.mem_map_of_mem h)
    rw [hget, he]
    constructor
    · rintro ⟨t, ρ, e1, e2, e3, e4, _⟩
      have := name_inj hnd hs (mem_hereOf.1 e4).1 e1
      subst this
      exact ⟨ρ, e2, e3, e4⟩
    · rintro ⟨ρ, e1, e2, e3⟩
      exact ⟨s, ρ, rfl, e1, e2, e3, hleaf'⟩
  constructor
  · intro sel
    constructor
    · intro hp
      obtain ⟨ρ, h1, h2, h3⟩ := present_path hp
      exact ⟨ρ.reverse, (key _).2 ⟨ρ, rfl, h1, h2⟩, fun n i h => h3 n i (by simpa using h)⟩
    · rintro ⟨σ, hσ, hag⟩
      obtain ⟨ρ, rfl, h1, h2⟩ := (key _).1 hσ
      exact h1.present (fun n i h => hag n i (by simpa using h)) h2
  · intro σ hσ
    obtain ⟨ρ, rfl, h1, h2⟩ := (key _).1 hσ
    rw [List.map_reverse, List.nodup_reverse]
    exact h1.nodup hnd

/-- C40 (negation for selectors).  A signal that selects other signals has no entry in the inverted
tree at all, although it may well be transmitted; so asking for its settings raises `KeyError`. -/
theorem C40_selectors_missing (hm : Message.create fid name len sigs pat ext strict sort = .ok m)
    (hnd : (m.signals.map (·.name)).Nodup) {s : Signal} (hs : s ∈ m.signals)
    (hsel : SelectsSome m.signals s) :
    dictGet? (invertSignalTree m.signalTree) s.name = none := by
  obtain ⟨_, _, c, hc, _, rfl⟩ := create_ok_iff.1 hm
  rw [show (Message.signalTree _) = treeOfCodec c from rfl, invert_get, if_neg]
  intro h
  obtain ⟨⟨n, σ⟩, hx, rfl⟩ := List.mem_map.1 h
  have he := (mem_emit hnd .nil hc _ σ).1 (by simpa using hx)
  obtain ⟨t, ρ, e1, e2, e3, e4, e5⟩ := he
  have := name_inj hnd hs (mem_hereOf.1 e4).1 e1
  subst this
  apply e5
  rw [ne_nil_iff_mem]
  simpa only [SelectsSome, mem_childrenIds, HasBranch, table] using hsel

/-- C40.  The inverted tree only has entries for signals of the message. -/
theorem C40_inverted_keys (hm : Message.create fid name len sigs pat ext strict sort = .ok m)
    (hnd : (m.signals.map (·.name)).Nodup) {n : String} {l : List Setting}
    (h : dictGet? (invertSignalTree m.signalTree) n = some l) :
    ∃ s ∈ m.signals, s.name = n ∧ l ≠ [] := by
  obtain ⟨_, _, c, hc, _, rfl⟩ := create_ok_iff.1 hm
  rw [show (Message.signalTree _) = treeOfCodec c from rfl, invert_get] at h
  split at h
  · rename_i hn
    cases h
    obtain ⟨⟨k, σ⟩, hx, rfl⟩ := List.mem_map.1 hn
    have he := (mem_emit hnd .nil hc _ σ).1 (by simpa using hx)
    obtain ⟨t, ρ, e1, e2, e3, e4, e5⟩ := he
    refine ⟨t, (mem_hereOf.1 e4).1, e1.symm, ?_⟩
    apply List.ne_nil_of_mem (a := σ)
    exact List.mem_map.2 ⟨(k, σ), by simp [hx], rfl⟩
  · cases h

/-! ### The hypotheses can be met -/

namespace Example40
open Example

/-- Two levels: `Mux` 2 selects `Sub`, whose value 1 selects `Deep`; `A` is sent for 0 and 1. -/
def sub : Signal :=
  { name := "Sub", start := 8, length := 2, isMultiplexer := true
    multiplexerIds := some [2], multiplexerSignal := some "M" }
def deep : Signal :=
  { name := "Deep", start := 10, length := 3, multiplexerIds := some [1, 3],
    multiplexerSignal := some "Sub" }
def top : Signal := { name := "M", start := 0, length := 4, isMultiplexer := true }
def two : Signal :=
  { name := "A", start := 8, length := 8, multiplexerIds := some [0, 1],
    multiplexerSignal := some "M" }
def nested : List Signal := [top, two, sub, deep, p]

def msg2 : Message := get (Message.create 1 "N" 2 nested)

theorem msg2_ok : Message.create 1 "N" 2 nested = .ok msg2 := by
  have h : (Message.create 1 "N" 2 nested).toOption.isSome = true := by decide +kernel
  unfold msg2
  cases hc : Message.create 1 "N" 2 nested with
  | ok m => rfl
  | error e => rw [hc] at h; cases h

theorem signals2 : msg2.signals = [top, p, two, sub, deep] := by
  have h := (create_ok_iff.1 msg2_ok).2.2
  obtain ⟨c, _, _, h⟩ := h
  rw [h]
  change SortSignals.default.apply nested = _
  decide +kernel

theorem nodup2 : (msg2.signals.map (·.name)).Nodup := by rw [signals2]; decide +kernel

/-- Walking down two levels finds `Deep`. -/
example : (follow msg2.signalTree [("M", 2), ("Sub", 3)]).map levelNames = some ["Deep"] := by
  decide +kernel

example : invertSignalTree msg2.signalTree =
    [("A", [[("M", 0)], [("M", 1)]]), ("Deep", [[("M", 2), ("Sub", 1)], [("M", 2), ("Sub", 3)]]),
     ("P", [[]])] := by decide +kernel

/-- The theorem used on the deep signal. -/
example (sel : String → Option Int) : Present msg2.signals sel deep ↔
    ∃ σ ∈ (dictGet? (invertSignalTree msg2.signalTree) "Deep").getD [], Agrees sel σ :=
  (C40_inverted_partial msg2_ok nodup2 (by rw [signals2]; decide +kernel)
    (by rintro ⟨h, _⟩; cases h)).1 sel

/-- `M` is always transmitted, but has no settings. -/
example : (∀ sel, Present msg2.signals sel top) ∧
    dictGet? (invertSignalTree msg2.signalTree) "M" = none :=
  ⟨fun sel => .root _ (by rw [signals2]; simp) rfl,
   C40_selectors_missing msg2_ok nodup2 (s := top) (by rw [signals2]; simp)
    ⟨rfl, 2, .inl ⟨sub, by rw [signals2]; simp, rfl, by decide⟩⟩⟩

end Example40

end Cantools
