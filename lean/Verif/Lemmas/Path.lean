import Verif.Lemmas.Check
import Mathlib.Data.List.Perm.Subperm

namespace Cantools
open Spec

/-! ### Paths in the multiplexing tree -/

/-- Selector values on the way from the root to a node, innermost first. -/
abbrev MuxPath := List (String × Int)

def MuxPath.parent : MuxPath → Option String
  | [] => none
  | (n, _) :: _ => some n

def MuxPath.id : MuxPath → Option Int
  | [] => none
  | (_, i) :: _ => some i

/-- The signals of the node at the end of a path. -/
def nodeAt (sigs : List Signal) (π : MuxPath) : List Signal :=
  hereOf sigs (MuxPath.parent π) (MuxPath.id π)

inductive IsPath (sigs : List Signal) : MuxPath → Prop where
  | nil : IsPath sigs []
  | cons {π : MuxPath} (p : Signal) (i : Int) (hp : p ∈ nodeAt sigs π)
      (hm : p.isMultiplexer = true) (h : IsPath sigs π) : IsPath sigs ((p.name, i) :: π)

theorem IsPath.tail {sigs : List Signal} {x : String × Int} {π : MuxPath}
    (h : IsPath sigs (x :: π)) : IsPath sigs π := by
  cases h; assumption

theorem IsPath.head {sigs : List Signal} {n : String} {i : Int} {π : MuxPath}
    (h : IsPath sigs ((n, i) :: π)) :
    ∃ p ∈ nodeAt sigs π, p.name = n ∧ p.isMultiplexer = true := by
  cases h with
  | cons p _ hp hm _ => exact ⟨p, hp, rfl, hm⟩

theorem IsPath.suffix {sigs : List Signal} {π π' : MuxPath} (h : IsPath sigs π)
    (hs : π' <:+ π) : IsPath sigs π' := by
  obtain ⟨x, rfl⟩ := hs
  induction x with
  | nil => exact h
  | cons a r ih => exact ih h.tail

/-- The selectors above a node are determined by the node's selector. -/
theorem IsPath.keys_unique {sigs : List Signal} (hnd : (sigs.map (·.name)).Nodup) {π π' : MuxPath}
    (h : IsPath sigs π) (h' : IsPath sigs π') (he : MuxPath.parent π = MuxPath.parent π') :
    π.map (·.1) = π'.map (·.1) := by
  induction h generalizing π' with
  | nil =>
    cases h' with
    | nil => rfl
    | cons => simp [MuxPath.parent] at he
  | cons p i hp hm h ih =>
    cases h' with
    | nil => simp [MuxPath.parent] at he
    | cons p' i' hp' hm' h' =>
      simp only [MuxPath.parent, Option.some.injEq] at he
      have hpm := mem_hereOf.1 hp
      have hpm' := mem_hereOf.1 hp'
      have := name_inj hnd hpm.1 hpm'.1 he
      subst this
      simp only [List.map_cons, List.cons.injEq, true_and]
      exact ih h' (hpm.2.1.symm.trans hpm'.2.1)

theorem IsPath.not_mem {sigs : List Signal} (hnd : (sigs.map (·.name)).Nodup) {π : MuxPath}
    (h : IsPath sigs π) {p : Signal} (hp : p ∈ nodeAt sigs π) : p.name ∉ π.map (·.1) := by
  intro hmem
  rw [List.mem_map] at hmem
  obtain ⟨⟨n, i⟩, hx, he⟩ := hmem
  simp only at he
  subst he
  obtain ⟨a, b, rfl⟩ := List.append_of_mem hx
  have hsuf : IsPath sigs ((p.name, i) :: b) := h.suffix ⟨a, rfl⟩
  obtain ⟨q, hq, hqn, _⟩ := hsuf.head
  have hqm' := mem_hereOf.1 hq
  have hpm' := mem_hereOf.1 hp
  have hqp : q = p := name_inj hnd hqm'.1 hpm'.1 hqn
  subst hqp
  have := h.keys_unique hnd hsuf.tail (hpm'.2.1.symm.trans hqm'.2.1)
  have := congrArg List.length this
  simp at this; omega

theorem IsPath.nodup {sigs : List Signal} (hnd : (sigs.map (·.name)).Nodup) {π : MuxPath}
    (h : IsPath sigs π) : (π.map (·.1)).Nodup := by
  induction h with
  | nil => simp
  | cons p i hp hm h ih =>
    simp only [List.map_cons, List.nodup_cons]
    exact ⟨h.not_mem hnd hp, ih⟩

theorem IsPath.subset {sigs : List Signal} {π : MuxPath} (h : IsPath sigs π) :
    ∀ n ∈ π.map (·.1), n ∈ sigs.map (·.name) := by
  induction h with
  | nil => simp
  | cons p i hp hm h ih =>
    intro n hn
    simp only [List.map_cons, List.mem_cons] at hn
    rcases hn with rfl | hn
    · exact List.mem_map.2 ⟨p, (mem_hereOf.1 hp).1, rfl⟩
    · exact ih n hn

theorem IsPath.length_le {sigs : List Signal} (hnd : (sigs.map (·.name)).Nodup) {π : MuxPath}
    (h : IsPath sigs π) : π.length ≤ sigs.length := by
  have := ((h.nodup hnd).subperm h.subset).length_le
  simpa using this

/-- Selector values that agree with a path select everything at its end. -/
theorem IsPath.present {sigs : List Signal} {π : MuxPath} (h : IsPath sigs π)
    {sel : String → Option Int} (hsel : ∀ n i, (n, i) ∈ π → sel n = some i) {s : Signal}
    (hs : s ∈ nodeAt sigs π) : Present sigs sel s := by
  induction h generalizing s with
  | nil =>
    have := mem_hereOf.1 hs
    exact .root s this.1 this.2.1
  | cons p i hp hm h ih =>
    have hpp := ih (fun n j hn => hsel n j (by simp [hn])) hp
    have := mem_hereOf.1 hs
    have hi := this.2.2 i rfl
    cases hids : s.multiplexerIds with
    | none => rw [hids] at hi; simp at hi
    | some ids =>
      rw [hids] at hi
      exact .child s p i ids this.1 this.2.1 hm hpp (hsel _ _ (by simp)) hids (by simpa using hi)

/-- Signals at the ends of two compatible paths can be in the same frame. -/
theorem copresent {sigs : List Signal} {π ρ : MuxPath} (hnd : (sigs.map (·.name)).Nodup)
    (hπ : IsPath sigs π) (hρ : IsPath sigs ρ)
    (hcomp : ∀ n i j, (n, i) ∈ π → (n, j) ∈ ρ → i = j) {a b : Signal}
    (ha : a ∈ nodeAt sigs π) (hb : b ∈ nodeAt sigs ρ) :
    ∃ sel, Present sigs sel a ∧ Present sigs sel b := by
  refine ⟨fun n => dictGet? (π ++ ρ) n, hπ.present ?_ ha, hρ.present ?_ hb⟩
  · intro n i hn
    rw [dictGet?_append, dictGet?_of_mem (hπ.nodup hnd) hn]
  · intro n j hn
    rw [dictGet?_append]
    cases hg : dictGet? π n with
    | some i => simp only; rw [hcomp n i j (dictGet?_mem hg) hn]
    | none => exact dictGet?_of_mem (hρ.nodup hnd) hn

/-- Paths that go through different selectors of a node share only what is above this node. -/
theorem IsPath.diverge {sigs : List Signal} (hnd : (sigs.map (·.name)).Nodup) {π ρ σ : MuxPath}
    {x y : String} {i j : Int} (hπ : IsPath sigs π) (hρ : IsPath sigs ρ)
    (h1 : (x, i) :: σ <:+ π) (h2 : (y, j) :: σ <:+ ρ) (hxy : x ≠ y) :
    ∀ n, n ∈ π.map (·.1) → n ∈ ρ.map (·.1) → n ∈ σ.map (·.1) := by
  intro n hn1 hn2
  -- a suffix starting at n that is long enough contains the selector below σ
  have key : ∀ {π : MuxPath} {x : String} {i : Int}, IsPath sigs π → (x, i) :: σ <:+ π →
      n ∈ π.map (·.1) → n ∉ σ.map (·.1) →
      ∃ k τ, IsPath sigs ((n, k) :: τ) ∧ x :: σ.map (·.1) <:+ ((n, k) :: τ).map (·.1) := by
    intro π x i hπ hsuf hn hnσ
    obtain ⟨u, rfl⟩ := hsuf
    rw [List.mem_map] at hn
    obtain ⟨⟨n', k⟩, hx, rfl⟩ := hn
    rw [List.mem_append] at hx
    rcases hx with hx | hx
    · obtain ⟨a, b, rfl⟩ := List.append_of_mem hx
      refine ⟨k, b ++ (x, i) :: σ, hπ.suffix ⟨a, by simp⟩, (n' :: b.map (·.1)), by simp⟩
    · rcases List.mem_cons.1 hx with hx | hx
      · cases hx
        exact ⟨i, σ, hπ.suffix ⟨u, rfl⟩, [], by simp⟩
      · exact absurd (List.mem_map.2 ⟨_, hx, rfl⟩) hnσ
  apply Classical.byContradiction
  intro hnσ
  obtain ⟨k1, τ1, p1, s1⟩ := key hπ h1 hn1 hnσ
  obtain ⟨k2, τ2, p2, s2⟩ := key hρ h2 hn2 hnσ
  have := p1.keys_unique hnd p2 rfl
  rw [this] at s1
  have h3 := List.suffix_of_suffix_length_le s1 s2 (by simp)
  have h4 := h3.eq_of_length (by simp)
  simp only [List.cons.injEq] at h4
  exact hxy h4.1

/-- `m` is somewhere below the node at the end of `π`. -/
def BelowPath (sigs : List Signal) (π : MuxPath) (m : Signal) : Prop :=
  ∃ ρ, IsPath sigs ρ ∧ π <:+ ρ ∧ m ∈ nodeAt sigs ρ

/-- `m` can be in a frame together with everything below the node at the end of `π`. -/
def CompatPath (sigs : List Signal) (π : MuxPath) (m : Signal) : Prop :=
  ∃ ρ, IsPath sigs ρ ∧ m ∈ nodeAt sigs ρ ∧
    ∀ π', IsPath sigs π' → π <:+ π' → ∀ n i j, (n, i) ∈ ρ → (n, j) ∈ π' → i = j

theorem CompatPath.cons {sigs : List Signal} {π : MuxPath} {m : Signal}
    (h : CompatPath sigs π m) (x : String × Int) : CompatPath sigs (x :: π) m := by
  obtain ⟨ρ, h1, h2, h3⟩ := h
  refine ⟨ρ, h1, h2, fun π' hp hs => h3 π' hp ?_⟩
  exact (List.suffix_cons x π).trans hs

theorem CompatPath.copresent {sigs : List Signal} {π : MuxPath} {m s : Signal}
    (hnd : (sigs.map (·.name)).Nodup) (h : CompatPath sigs π m) (hπ : IsPath sigs π)
    (hs : s ∈ nodeAt sigs π) : ∃ sel, Present sigs sel m ∧ Present sigs sel s := by
  obtain ⟨ρ, h1, h2, h3⟩ := h
  exact Cantools.copresent hnd h1 hπ (h3 π hπ (List.suffix_refl _)) h2 hs

theorem pair_unique {π : MuxPath} (h : (π.map (·.1)).Nodup) {n : String} {i j : Int}
    (h1 : (n, i) ∈ π) (h2 : (n, j) ∈ π) : i = j := by
  have e1 := dictGet?_of_mem h h1
  have e2 := dictGet?_of_mem h h2
  rw [e1] at e2; cases e2; rfl

theorem check_complete {sigs : List Signal} {L : Nat} (hnd : (sigs.map (·.name)).Nodup)
    (hpos : ∀ s ∈ sigs, 0 < s.length)
    (hfit : ∀ s, (∃ sel, Present sigs sel s) → Fits L s)
    (hdis : ∀ sel a b, Present sigs sel a → Present sigs sel b → a ≠ b → Spec.Disjoint a b)
    {fuel : Nat} {π : MuxPath} {c : Codec} (hπ : IsPath sigs π)
    (hc : createCodec sigs fuel (MuxPath.parent π) (MuxPath.id π) = some c)
    (mb : List (Option String)) (hlen : mb.length = 8 * L)
    (hmb : ∀ p, p < 8 * L → Marked mb (net p) → ∃ m, CompatPath sigs π m ∧
      (∀ s, BelowPath sigs π s → m ≠ s) ∧ Occupies m p) :
    ∃ mb', checkTree sigs mb (treeOfCodec c) = .ok mb' ∧ mb'.length = 8 * L ∧
      ∀ p, p < 8 * L → Marked mb' (net p) → Marked mb (net p) ∨
        ∃ m, BelowPath sigs π m ∧ Occupies m p := by
  induction fuel generalizing π c mb with
  | zero => simp [createCodec] at hc
  | succ fuel ih =>
    obtain ⟨fuel', ms, hf, rfl, hms⟩ := createCodec_cases hc
    cases hf
    have hms' : List.Forall₂ (fun s m => m.1 = s.name ∧ ChildTrees sigs fuel s m.2)
      (selectorsOf sigs (MuxPath.parent π) (MuxPath.id π)) ms := hms
    simp only [treeOfCodec]
    -- at or below a signal of this node
    let AB : List Signal → Signal → Prop := fun l m =>
      m ∈ l ∨ ∃ q ∈ l, q.isMultiplexer = true ∧ ∃ i, BelowPath sigs ((q.name, i) :: π) m
    have hABbelow : ∀ l m, (∀ s ∈ l, s ∈ nodeAt sigs π) → AB l m → BelowPath sigs π m := by
      rintro l m hl (h | ⟨q, hq, hqm, i, ρ, h1, h2, h3⟩)
      · exact ⟨π, hπ, List.suffix_refl _, hl m h⟩
      · exact ⟨ρ, h1, (List.suffix_cons _ π).trans h2, h3⟩
    have loop : ∀ (l done : List Signal) (mb : List (Option String)),
        (done ++ l).Nodup → (∀ s ∈ done ++ l, s ∈ nodeAt sigs π) → mb.length = 8 * L →
        (∀ p, p < 8 * L → Marked mb (net p) → ∃ m,
          ((CompatPath sigs π m ∧ ∀ s, BelowPath sigs π s → m ≠ s) ∨ AB done m) ∧
          Occupies m p) →
        ∃ mb', checkTree sigs mb (treeOfSignals (treeOfMuxes (Muxes.ofList ms)) l) = .ok mb' ∧
          mb'.length = 8 * L ∧
          ∀ p, p < 8 * L → Marked mb' (net p) → Marked mb (net p) ∨
            ∃ m, BelowPath sigs π m ∧ Occupies m p := by
      intro l
      induction l with
      | nil =>
        intro done mb _ _ hlen _
        exact ⟨mb, rfl, hlen, fun _ _ h => .inl h⟩
      | cons s r ihl =>
        intro done mb hndl hsub hlen hmb
        have hs : s ∈ nodeAt sigs π := hsub s (by simp)
        have hsm := (mem_hereOf.1 hs).1
        have hsdone : s ∉ done := by
          intro hd
          rw [List.nodup_append] at hndl
          exact hndl.2.2 s hd s (by simp) rfl
        -- marks of other signals at or below this node are compatible with s and what is below it
        have hdoneNe : ∀ q ∈ done, q.name ≠ s.name := by
          intro q hq he
          have := name_inj hnd (mem_hereOf.1 (hsub q (by simp [hq]))).1 hsm he
          subst this; exact hsdone hq
        have hABne : ∀ m, AB done m → ∀ t, (t = s ∨ ∃ i, BelowPath sigs ((s.name, i) :: π) t) →
            m ≠ t := by
          rintro m (hm | ⟨q, hq, hqm, i, ρ, h1, h2, h3⟩) t (rfl | ⟨j, ρ', k1, k2, k3⟩) he
          · subst he; exact hsdone hm
          · subst he
            have hm' := mem_hereOf.1 (hsub m (by simp [hm]))
            have hm'' := mem_hereOf.1 k3
            have := hπ.keys_unique hnd k1 (hm'.2.1.symm.trans hm''.2.1)
            have hl := congrArg List.length this
            have := k2.length_le
            simp at hl this; omega
          · subst he
            have hm' := mem_hereOf.1 hs
            have hm'' := mem_hereOf.1 h3
            have := hπ.keys_unique hnd h1 (hm'.2.1.symm.trans hm''.2.1)
            have hl := congrArg List.length this
            have := h2.length_le
            simp at hl this; omega
          · subst he
            have hm' := mem_hereOf.1 h3
            have hm'' := mem_hereOf.1 k3
            have hk := h1.keys_unique hnd k1 (hm'.2.1.symm.trans hm''.2.1)
            have hq' : q.name ∈ ρ.map (·.1) :=
              List.mem_map.2 ⟨(q.name, i), h2.subset (by simp), rfl⟩
            have := IsPath.diverge hnd h1 k1 h2 k2 (hdoneNe q hq) q.name hq' (hk ▸ hq')
            exact hπ.not_mem hnd (hsub q (by simp [hq])) this
        have hABco : ∀ m, AB done m → ∃ sel, Present sigs sel m ∧ Present sigs sel s := by
          rintro m (hm | ⟨q, hq, hqm, i, ρ, h1, h2, h3⟩)
          · exact copresent hnd hπ hπ (fun n i j h1 h2 => pair_unique (hπ.nodup hnd) h1 h2)
              (hsub m (by simp [hm])) hs
          · refine copresent hnd h1 hπ ?_ h3 hs
            intro n a b ha hb
            have hsuf : π <:+ ρ := (List.suffix_cons _ π).trans h2
            exact pair_unique (h1.nodup hnd) ha (hsuf.subset hb)
        have hABcompat : ∀ m i, AB done m → CompatPath sigs ((s.name, i) :: π) m := by
          rintro m i (hm | ⟨q, hq, hqm, j, ρ, h1, h2, h3⟩)
          · refine ⟨π, hπ, hsub m (by simp [hm]), ?_⟩
            intro π' hp' hs' n a b ha hb
            have hsuf : π <:+ π' := (List.suffix_cons _ π).trans hs'
            exact pair_unique (hp'.nodup hnd) (hsuf.subset ha) hb
          · refine ⟨ρ, h1, h3, ?_⟩
            intro π' hp' hs' n a b ha hb
            have hsuf : π <:+ ρ := (List.suffix_cons _ π).trans h2
            have hsuf' : π <:+ π' := (List.suffix_cons _ π).trans hs'
            have hn := IsPath.diverge hnd h1 hp' h2 hs' (hdoneNe q hq) n
              (List.mem_map.2 ⟨_, ha, rfl⟩) (List.mem_map.2 ⟨_, hb, rfl⟩)
            obtain ⟨⟨n', k⟩, hk, he⟩ := List.mem_map.1 hn
            simp only at he; subst he
            have e1 := pair_unique (h1.nodup hnd) ha (hsuf.subset hk)
            have e2 := pair_unique (hp'.nodup hnd) hb (hsuf'.subset hk)
            rw [e1, e2]
        have hsfit : Fits L s := hfit s ⟨fun n => dictGet? π n,
          hπ.present (fun n i h => dictGet?_of_mem (hπ.nodup hnd) h) hs⟩
        have hfree : ∀ p, Occupies s p → ¬ Marked mb (net p) := by
          intro p hp hm
          obtain ⟨m, hor, hmo⟩ := hmb p (hsfit p hp) hm
          rcases hor with ⟨hcp, hne⟩ | hab
          · obtain ⟨sel, h1, h2⟩ := hcp.copresent hnd hπ hs
            exact hdis sel m s h1 h2 (hne s ⟨π, hπ, List.suffix_refl _, hs⟩) p hmo hp
          · obtain ⟨sel, h1, h2⟩ := hABco m hab
            exact hdis sel m s h1 h2 (hABne m hab s (.inl rfl)) p hmo hp
        obtain ⟨mb0, h0⟩ := (checkSignal_spec hlen (hpos s hsm)).2.1 hsfit hfree
        obtain ⟨a1, a2, a3, a4⟩ := (checkSignal_spec hlen (hpos s hsm)).1 mb0 h0
        have hndl' : ((done ++ [s]) ++ r).Nodup := by simpa using hndl
        have hsub' : ∀ t ∈ (done ++ [s]) ++ r, t ∈ nodeAt sigs π := by
          intro t ht; exact hsub t (by simpa using ht)
        have hABmono : ∀ m, AB done m → AB (done ++ [s]) m := by
          rintro m (h | ⟨q, hq, rest⟩)
          · exact .inl (by simp [h])
          · exact .inr ⟨q, by simp [hq], rest⟩
        rcases tree_lookup hnd hms' hs with ⟨hsel, b, ⟨brs, rfl, hbrs⟩, hb⟩ | ⟨hsel, hb⟩
        · -- a selector
          have hsmux : s.isMultiplexer = true := (mem_selectorsOf.1 hsel).2.1
          have hcc : ∀ ic ∈ brs, createCodec sigs fuel (some s.name) (some ic.1) = some ic.2 := by
            intro ic hic
            obtain ⟨i, _, h1, h2⟩ := forall₂_mem_right hbrs hic
            rw [h1]; exact h2
          -- marks inside a branch
          have hmb0 : ∀ i p, p < 8 * L → Marked mb0 (net p) → ∃ m,
              CompatPath sigs ((s.name, i) :: π) m ∧
              (∀ t, BelowPath sigs ((s.name, i) :: π) t → m ≠ t) ∧ Occupies m p := by
            intro i p hp hm
            rcases (a4 p hp).1 hm with hm | hm
            · obtain ⟨m, hor, hmo⟩ := hmb p hp hm
              rcases hor with ⟨hcp, hne⟩ | hab
              · refine ⟨m, hcp.cons _, ?_, hmo⟩
                rintro t ⟨ρ, h1, h2, h3⟩
                exact hne t ⟨ρ, h1, (List.suffix_cons _ π).trans h2, h3⟩
              · exact ⟨m, hABcompat m i hab, fun t ht => hABne m hab t (.inr ⟨i, ht⟩), hmo⟩
            · refine ⟨s, ⟨π, hπ, hs, ?_⟩, ?_, hm⟩
              · intro π' hp' hs' n a b ha hb
                have hsuf : π <:+ π' := (List.suffix_cons _ π).trans hs'
                exact pair_unique (hp'.nodup hnd) (hsuf.subset ha) hb
              · rintro t ⟨ρ, h1, h2, h3⟩ he
                subst he
                have hm' := mem_hereOf.1 hs
                have hm'' := mem_hereOf.1 h3
                have := hπ.keys_unique hnd h1 (hm'.2.1.symm.trans hm''.2.1)
                have hl := congrArg List.length this
                have := h2.length_le
                simp at hl this; omega
          have branches : ∀ (brs : List (Int × Codec)) (bits : List (Option String)),
              (∀ ic ∈ brs, createCodec sigs fuel (some s.name) (some ic.1) = some ic.2) →
              bits.length = 8 * L →
              ∃ mb1, checkBranches sigs mb0 bits (treeOfBranches (Branches.ofList brs)) = .ok mb1 ∧
                mb1.length = 8 * L ∧
                ∀ p, p < 8 * L → Marked mb1 (net p) → Marked bits (net p) ∨ Marked mb0 (net p) ∨
                  ∃ i m, BelowPath sigs ((s.name, i) :: π) m ∧ Occupies m p := by
            intro brs
            induction brs with
            | nil => intro bits _ hbl; exact ⟨bits, rfl, hbl, fun _ _ h => .inl h⟩
            | cons ic brs ihb =>
              intro bits hcc hbl
              obtain ⟨i, c⟩ := ic
              obtain ⟨ch, e1, e2, e3⟩ := ih (π := (s.name, i) :: π)
                (.cons s i hs hsmux hπ) (hcc (i, c) (by simp)) mb0 a1 (hmb0 i)
              have hml : (mergeBits bits ch).length = 8 * L := by
                rw [mergeBits_length (by omega)]; exact hbl
              obtain ⟨mb1, f1, f2, f3⟩ := ihb (mergeBits bits ch)
                (fun x hx => hcc x (by simp [hx])) hml
              refine ⟨mb1, ?_, f2, ?_⟩
              · simp only [Branches.ofList, treeOfBranches, checkBranches, Except.bind_eq_ok]
                exact ⟨ch, e1, f1⟩
              · intro p hp hm
                rcases f3 p hp hm with hm | hm | hm
                · rw [mergeBits_marked (by omega)] at hm
                  rcases hm with hm | hm
                  · exact .inl hm
                  · rcases e3 p hp hm with hm | ⟨m, hm1, hm2⟩
                    · exact .inr (.inl hm)
                    · exact .inr (.inr ⟨i, m, hm1, hm2⟩)
                · exact .inr (.inl hm)
                · exact .inr (.inr hm)
          obtain ⟨mb1, g1, g2, g3⟩ := branches brs mb0 hcc a1
          have hmb1 : ∀ p, p < 8 * L → Marked mb1 (net p) → Marked mb (net p) ∨
              ∃ m, AB [s] m ∧ Occupies m p := by
            intro p hp hm
            have : Marked mb0 (net p) ∨ ∃ i m, BelowPath sigs ((s.name, i) :: π) m ∧
                Occupies m p := by
              rcases g3 p hp hm with h | h | h
              · exact .inl h
              · exact .inl h
              · exact .inr h
            rcases this with hm | ⟨i, m, h1, h2⟩
            · rcases (a4 p hp).1 hm with hm | hm
              · exact .inl hm
              · exact .inr ⟨s, .inl (by simp), hm⟩
            · exact .inr ⟨m, .inr ⟨s, by simp, hsmux, i, h1⟩, h2⟩
          obtain ⟨mb', k1, k2, k3⟩ := ihl (done ++ [s]) mb1 hndl' hsub' g2 (by
            intro p hp hm
            rcases hmb1 p hp hm with hm | ⟨m, h1, h2⟩
            · obtain ⟨m, hor, hmo⟩ := hmb p hp hm
              rcases hor with h | h
              · exact ⟨m, .inl h, hmo⟩
              · exact ⟨m, .inr (hABmono m h), hmo⟩
            · refine ⟨m, .inr ?_, h2⟩
              rcases h1 with h | ⟨q, hq, rest⟩
              · exact .inl (by simp at h; simp [h])
              · exact .inr ⟨q, by simp at hq; simp [hq], rest⟩)
          refine ⟨mb', ?_, k2, ?_⟩
          · simp only [treeOfSignals, hb, checkTree, signalByName_eq hnd hsm, Except.bind_eq_ok]
            exact ⟨s, rfl, mb0, h0, mb1, g1, k1⟩
          · intro p hp hm
            rcases k3 p hp hm with hm | hm
            · rcases hmb1 p hp hm with hm | ⟨m, h1, h2⟩
              · exact .inl hm
              · exact .inr ⟨m, hABbelow [s] m (by simpa using hs) h1, h2⟩
            · exact .inr hm
        · -- an ordinary signal
          obtain ⟨mb', k1, k2, k3⟩ := ihl (done ++ [s]) mb0 hndl' hsub' a1 (by
            intro p hp hm
            rcases (a4 p hp).1 hm with hm | hm
            · obtain ⟨m, hor, hmo⟩ := hmb p hp hm
              rcases hor with h | h
              · exact ⟨m, .inl h, hmo⟩
              · exact ⟨m, .inr (hABmono m h), hmo⟩
            · exact ⟨s, .inr (.inl (by simp)), hm⟩)
          refine ⟨mb', ?_, k2, ?_⟩
          · simp only [treeOfSignals, hb, checkTree, signalByName_eq hnd hsm, Except.bind_eq_ok]
            exact ⟨s, rfl, mb0, h0, k1⟩
          · intro p hp hm
            rcases k3 p hp hm with hm | hm
            · rcases (a4 p hp).1 hm with hm | hm
              · exact .inl hm
              · exact .inr ⟨s, ⟨π, hπ, List.suffix_refl _, hs⟩, hm⟩
            · exact .inr hm
    have hndh : (hereOf sigs (MuxPath.parent π) (MuxPath.id π)).Nodup :=
      (List.Nodup.of_map _ hnd).sublist List.filter_sublist
    exact loop _ [] mb (by simpa using hndh) (by intro s hs; exact hs) hlen (by
      intro p hp hm
      obtain ⟨m, h1, h2, h3⟩ := hmb p hp hm
      exact ⟨m, .inl ⟨h1, h2⟩, h3⟩)

/-! ### Construction terminates -/

theorem createCodec_isSome {sigs : List Signal} (hnd : (sigs.map (·.name)).Nodup) {fuel : Nat}
    {π : MuxPath} (hπ : IsPath sigs π) (hfuel : sigs.length + 1 ≤ fuel + π.length) :
    (createCodec sigs fuel (MuxPath.parent π) (MuxPath.id π)).isSome := by
  induction fuel generalizing π with
  | zero => have := hπ.length_le hnd; omega
  | succ fuel ih =>
    simp only [createCodec, Option.isSome_map]
    apply mapM_option_isSome
    intro s hs
    have hs' := mem_selectorsOf.1 hs
    have : ((childrenIds sigs s).mapM fun i => do
        let c ← createCodec sigs fuel (some s.name) (some i)
        return (i, c)).isSome := by
      apply mapM_option_isSome
      intro i _
      have := ih (π := (s.name, i) :: π) (.cons s i hs'.1 hs'.2.1 hπ) (by simp; omega)
      obtain ⟨c, hc⟩ := Option.isSome_iff_exists.1 this
      have hc' : createCodec sigs fuel (some s.name) (some i) = some c := hc
      rw [hc']; rfl
    obtain ⟨brs, hbrs⟩ := Option.isSome_iff_exists.1 this
    rw [hbrs]; rfl

/-! ### The only exception of the check is `Error` -/

mutual
def SigTree.names : SigTree → List String
  | .nil => []
  | .leaf n r => n :: r.names
  | .mux n b r => n :: b.names ++ r.names
def TreeBranches.names : TreeBranches → List String
  | .nil => []
  | .cons _ t r => t.names ++ r.names
end

/-- The result satisfies `P`, and the only exception is `Error`. -/
def OnlyError {α : Type} (P : α → Prop) (x : Except Err α) : Prop :=
  (∀ e, x = .error e → e = .error) ∧ ∀ r, x = .ok r → P r

theorem OnlyError.ok {α : Type} {P : α → Prop} {a : α} (h : P a) :
    OnlyError P (.ok a : Except Err α) :=
  ⟨fun _ h' => (by cases h'), fun _ h' => (by cases h'; exact h)⟩

theorem OnlyError.bind {α β : Type} {P : α → Prop} {Q : β → Prop} {x : Except Err α}
    {f : α → Except Err β} (h : OnlyError P x) (hf : ∀ a, P a → OnlyError Q (f a)) :
    OnlyError Q (x >>= f) := by
  cases x with
  | error e => exact ⟨fun e' h' => (by cases h'; exact h.1 e rfl), fun r h' => (by cases h')⟩
  | ok a => exact hf a (h.2 a rfl)

section
variable {sigs : List Signal} {L : Nat}

mutual
theorem checkTree_error (hnd : (sigs.map (·.name)).Nodup) (hpos : ∀ s ∈ sigs, 0 < s.length) :
    ∀ (t : SigTree) (mb : List (Option String)), (∀ n ∈ t.names, ∃ s ∈ sigs, s.name = n) →
    mb.length = 8 * L →
    OnlyError (fun r => r.length = 8 * L) (checkTree sigs mb t)
  | .nil, mb, _, hl => .ok hl
  | .leaf n t, mb, hn, hl => by
    obtain ⟨s, hs, rfl⟩ := hn n (by simp [SigTree.names])
    obtain ⟨c1, _, c3⟩ := checkSignal_spec hl (hpos s hs)
    simp only [checkTree, signalByName_eq hnd hs]
    refine (OnlyError.ok (P := (· = s)) rfl).bind ?_
    rintro _ rfl
    refine OnlyError.bind (P := fun r => r.length = 8 * L) ⟨c3, fun r h => (c1 r h).1⟩ ?_
    intro mb0 hl0
    exact checkTree_error hnd hpos t mb0 (fun m hm => hn m (by simp [SigTree.names, hm])) hl0
  | .mux n b t, mb, hn, hl => by
    obtain ⟨s, hs, rfl⟩ := hn n (by simp [SigTree.names])
    obtain ⟨c1, _, c3⟩ := checkSignal_spec hl (hpos s hs)
    simp only [checkTree, signalByName_eq hnd hs]
    refine (OnlyError.ok (P := (· = s)) rfl).bind ?_
    rintro _ rfl
    refine OnlyError.bind (P := fun r => r.length = 8 * L) ⟨c3, fun r h => (c1 r h).1⟩ ?_
    intro mb0 hl0
    refine (checkBranches_error hnd hpos b mb0 mb0
      (fun m hm => hn m (by simp [SigTree.names, hm])) hl0 hl0).bind ?_
    intro mb1 hl1
    exact checkTree_error hnd hpos t mb1 (fun m hm => hn m (by simp [SigTree.names, hm])) hl1
theorem checkBranches_error (hnd : (sigs.map (·.name)).Nodup) (hpos : ∀ s ∈ sigs, 0 < s.length) :
    ∀ (b : TreeBranches) (children bits : List (Option String)),
    (∀ n ∈ b.names, ∃ s ∈ sigs, s.name = n) → children.length = 8 * L → bits.length = 8 * L →
    OnlyError (fun r => r.length = 8 * L) (checkBranches sigs children bits b)
  | .nil, ch, bits, _, _, hl => .ok hl
  | .cons i t rest, ch, bits, hn, hch, hl => by
    simp only [checkBranches]
    refine (checkTree_error hnd hpos t ch
      (fun m hm => hn m (by simp [TreeBranches.names, hm])) hch).bind ?_
    intro mb0 hl0
    exact checkBranches_error hnd hpos rest ch (mergeBits bits mb0)
      (fun m hm => hn m (by simp [TreeBranches.names, hm])) hch
      (by rw [mergeBits_length (by rw [hl, hl0])]; exact hl)
end

end

/-- The names in the tree of a codec are names of signals. -/
theorem treeOfSignals_names {ms : List (String × TreeBranches)} {l : List Signal} {n : String}
    (h : n ∈ (treeOfSignals ms l).names) :
    (∃ s ∈ l, s.name = n) ∨ ∃ m b, (m, b) ∈ ms ∧ n ∈ b.names := by
  induction l with
  | nil => simp [treeOfSignals, SigTree.names] at h
  | cons s r ih =>
    simp only [treeOfSignals] at h
    cases hd : dictGet? ms s.name with
    | none =>
      rw [hd] at h
      simp only [SigTree.names, List.mem_cons] at h
      rcases h with h | h
      · exact .inl ⟨s, by simp, h.symm⟩
      · rcases ih h with ⟨t, h1, h2⟩ | h
        · exact .inl ⟨t, by simp [h1], h2⟩
        · exact .inr h
    | some b =>
      rw [hd] at h
      simp only [SigTree.names, List.cons_append, List.mem_cons, List.mem_append] at h
      rcases h with h | h | h
      · exact .inl ⟨s, by simp, h.symm⟩
      · exact .inr ⟨s.name, b, dictGet?_mem hd, h⟩
      · rcases ih h with ⟨t, h1, h2⟩ | h
        · exact .inl ⟨t, by simp [h1], h2⟩
        · exact .inr h

section
variable {sigs : List Signal}
mutual
theorem treeOfCodec_names : ∀ (c : Codec), Codec.WF sigs c →
    ∀ n ∈ (treeOfCodec c).names, ∃ s ∈ sigs, s.name = n
  | .mk signals muxes, hwf, n, h => by
    simp only [treeOfCodec] at h
    rcases treeOfSignals_names h with ⟨s, h1, h2⟩ | ⟨m, b, h1, h2⟩
    · exact ⟨s, hwf.1.subset h1, h2⟩
    · exact treeOfMuxes_names signals muxes hwf.2 m b h1 n h2
theorem treeOfMuxes_names (here : List Signal) : ∀ (ms : Muxes), Muxes.WF sigs here ms →
    ∀ m b, (m, b) ∈ treeOfMuxes ms → ∀ n ∈ b.names, ∃ s ∈ sigs, s.name = n
  | .nil, _, m, b, h => by simp [treeOfMuxes] at h
  | .cons name branches rest, hwf, m, b, h => by
    simp only [treeOfMuxes, List.mem_cons, Prod.mk.injEq] at h
    rcases h with ⟨_, rfl⟩ | h
    · exact treeOfBranches_names branches hwf.2.1
    · exact treeOfMuxes_names here rest hwf.2.2 m b h
theorem treeOfBranches_names : ∀ (b : Branches), Branches.WF sigs b →
    ∀ n ∈ (treeOfBranches b).names, ∃ s ∈ sigs, s.name = n
  | .nil, _, n, h => by simp [treeOfBranches, TreeBranches.names] at h
  | .cons i c rest, hwf, n, h => by
    simp only [treeOfBranches, TreeBranches.names, List.mem_append] at h
    rcases h with h | h
    · exact treeOfCodec_names c hwf.1 n h
    · exact treeOfBranches_names rest hwf.2 n h
end
end

end Cantools
