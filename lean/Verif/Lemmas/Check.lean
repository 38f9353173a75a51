import Verif.Lemmas.Decode

namespace Cantools
open Spec

/-! ### Marking the bits of one signal -/

/-- Is bit `i` (network order) marked? -/
def Marked (mb : List (Option String)) (i : Nat) : Prop := (mb.getD i none).isSome = true

theorem reverseChunks_length (n : Nat) (l : List (Option String)) (h : l.length ≤ 8 * n) :
    (reverseChunks l n).length = l.length := by
  induction n generalizing l with
  | zero =>
    have : l = [] := List.length_eq_zero_iff.1 (by omega)
    subst this; rfl
  | succ n ih =>
    simp only [reverseChunks, List.length_append, List.length_take]
    rw [ih _ (by simp; omega)]
    simp; omega

theorem reverseChunks_getD (n : Nat) (l : List (Option String)) (h : l.length = 8 * n) (i : Nat)
    (hi : i < 8 * n) :
    (reverseChunks l n).getD i none = l.getD (8 * (n - 1 - i / 8) + i % 8) none := by
  induction n generalizing l with
  | zero => omega
  | succ n ih =>
    have hd : (l.drop 8).length = 8 * n := by simp; omega
    have hlen := reverseChunks_length n (l.drop 8) (by omega)
    rw [hd] at hlen
    simp only [reverseChunks]
    rw [List.getD_eq_getElem?_getD]
    by_cases hlt : i < 8 * n
    · rw [List.getElem?_append_left (by omega), ← List.getD_eq_getElem?_getD, ih _ hd hlt,
        List.getD_eq_getElem?_getD, List.getD_eq_getElem?_getD, List.getElem?_drop]
      congr 2; omega
    · rw [List.getElem?_append_right (by omega), hlen, List.getElem?_take_of_lt (by omega),
        List.getD_eq_getElem?_getD]
      congr 2; omega

theorem startBit_add (s : Signal) : startBit s + s.length =
    match s.byteOrder with
    | .big => net s.start + s.length
    | .little => s.start + s.length := by
  cases h : s.byteOrder with
  | big => rw [startBit_big h]
  | little => rw [startBit_little h]

theorem signalBits_too_long {L : Nat} {s : Signal} (h : 8 * L < startBit s + s.length) :
    8 * L < (signalBits (8 * L) s).length := by
  cases hb : s.byteOrder with
  | big => simp [signalBits, hb]; omega
  | little =>
    rw [startBit_little hb] at h
    have hl : (List.replicate s.length (some s.name) ++ List.replicate s.start none).length
        = s.start + s.length := by simp; omega
    simp only [signalBits, hb, hl]
    rw [if_neg (by omega), reverseChunks_length _ _ (by rw [hl]; omega), hl]
    omega

theorem signalBits_fit {L : Nat} {s : Signal} (h : startBit s + s.length ≤ 8 * L) :
    (signalBits (8 * L) s).length ≤ 8 * L ∧
    ∀ i, i < 8 * L → (((signalBits (8 * L) s).getD i none).isSome = true ↔ Occupies s (net i)) := by
  cases hb : s.byteOrder with
  | big =>
    simp only [signalBits, hb]
    refine ⟨by simp; omega, ?_⟩
    intro i hi
    rw [occupies_big hb, net_net, List.getD_eq_getElem?_getD]
    by_cases h1 : i < startBit s
    · rw [List.getElem?_append_left (by simpa using h1), List.getElem?_replicate, if_pos h1]
      simp; omega
    · rw [List.getElem?_append_right (by simpa using h1), List.getElem?_replicate]
      simp only [List.length_replicate]
      by_cases h2 : i - startBit s < s.length
      · rw [if_pos h2]; simp; omega
      · rw [if_neg h2]; simp; omega
  | little =>
    rw [startBit_little hb] at h
    have hl : (List.replicate s.length (some s.name) ++ List.replicate s.start none).length
        = s.start + s.length := by simp; omega
    simp only [signalBits, hb, hl]
    generalize hrev : (if s.start + s.length < 8 * L then
        List.replicate (8 * L - (s.start + s.length)) none ++
          (List.replicate s.length (some s.name) ++ List.replicate s.start none)
      else List.replicate s.length (some s.name) ++ List.replicate s.start none) = rev
    have hrl : rev.length = 8 * L := by
      rw [← hrev]
      split
      · simp; omega
      · simp; omega
    have hrg : ∀ k, k < 8 * L → ((rev.getD k none).isSome = true ↔
        s.start ≤ 8 * L - 1 - k ∧ 8 * L - 1 - k < s.start + s.length) := by
      intro k hk
      have core : ∀ k, k < s.start + s.length →
          (((List.replicate s.length (some s.name) ++ List.replicate s.start none).getD k
            none).isSome = true ↔ k < s.length) := by
        intro k hk
        rw [List.getD_eq_getElem?_getD]
        by_cases h1 : k < s.length
        · rw [List.getElem?_append_left (by simpa using h1), List.getElem?_replicate, if_pos h1]
          simp [h1]
        · rw [List.getElem?_append_right (by simpa using h1), List.getElem?_replicate]
          split <;> simp [h1]
      rw [← hrev]
      split
      · rename_i hlt
        rw [List.getD_eq_getElem?_getD]
        by_cases h1 : k < 8 * L - (s.start + s.length)
        · rw [List.getElem?_append_left (by simpa using h1), List.getElem?_replicate, if_pos h1]
          simp; omega
        · rw [List.getElem?_append_right (by simpa using h1), ← List.getD_eq_getElem?_getD,
            core _ (by simp; omega)]
          simp; omega
      · rw [core _ (by omega)]; omega
    have hc : (rev.length + 7) / 8 = L := by omega
    rw [hc]
    refine ⟨by rw [reverseChunks_length _ _ (by omega)]; omega, ?_⟩
    intro i hi
    rw [reverseChunks_getD _ _ hrl _ hi, hrg _ (by omega), occupies_little hb]
    have : 8 * L - 1 - (8 * (L - 1 - i / 8) + i % 8) = net i := by unfold net; omega
    rw [this]

theorem markBits_spec (mbs sbs : List (Option String)) (h : sbs.length ≤ mbs.length) :
    (∀ r, markBits mbs sbs = .ok r → r.length = mbs.length ∧
      (∀ i, (sbs.getD i none).isSome = true → (mbs.getD i none).isSome = false) ∧
      ∀ i, (r.getD i none).isSome = ((mbs.getD i none).isSome || (sbs.getD i none).isSome)) ∧
    ((∀ i, (sbs.getD i none).isSome = true → (mbs.getD i none).isSome = false) →
      ∃ r, markBits mbs sbs = .ok r) ∧
    (∀ e, markBits mbs sbs = .error e → e = .error) := by
  induction sbs generalizing mbs with
  | nil =>
    refine ⟨?_, ?_, ?_⟩
    · intro r hr; cases mbs <;> (cases hr; simp)
    · intro _; exact ⟨mbs, by cases mbs <;> rfl⟩
    · intro e he; cases mbs <;> cases he
  | cons sb sbs ih =>
    cases mbs with
    | nil => simp at h
    | cons mb mbs =>
      obtain ⟨i1, i2, i3⟩ := ih mbs (by simpa using h)
      cases sb with
      | none =>
        simp only [markBits]
        refine ⟨?_, ?_, ?_⟩
        · intro r hr
          rw [Except.map_eq_ok] at hr
          obtain ⟨r', hr', rfl⟩ := hr
          obtain ⟨h1, h2, h3⟩ := i1 r' hr'
          refine ⟨by simp [h1], ?_, ?_⟩
          · intro i; cases i with
            | zero => simp
            | succ i => simpa using h2 i
          · intro i; cases i with
            | zero => simp
            | succ i => simpa using h3 i
        · intro hh
          obtain ⟨r, hr⟩ := i2 (fun i => by simpa using hh (i + 1))
          exact ⟨mb :: r, by rw [hr]; rfl⟩
        · intro e he
          cases hm : markBits mbs sbs with
          | ok r => rw [hm] at he; cases he
          | error e' => rw [hm] at he; cases he; exact i3 _ hm
      | some n =>
        simp only [markBits]
        cases mb with
        | some m =>
          refine ⟨?_, ?_, ?_⟩
          · intro r hr; cases hr
          · intro hh; have := hh 0; simp at this
          · intro e he; cases he; rfl
        | none =>
          refine ⟨?_, ?_, ?_⟩
          · intro r hr
            simp only [Except.map_eq_ok] at hr
            obtain ⟨r', hr', rfl⟩ := hr
            obtain ⟨h1, h2, h3⟩ := i1 r' hr'
            refine ⟨by simp [h1], ?_, ?_⟩
            · intro i; cases i with
              | zero => simp
              | succ i => simpa using h2 i
            · intro i; cases i with
              | zero => simp
              | succ i => simpa using h3 i
          · intro hh
            obtain ⟨r, hr⟩ := i2 (fun i => by simpa using hh (i + 1))
            exact ⟨some n :: r, by simp only [hr]; rfl⟩
          · intro e he
            simp only at he
            cases hm : markBits mbs sbs with
            | ok r => rw [hm] at he; cases he
            | error e' => rw [hm] at he; cases he; exact i3 _ hm

theorem getD_none_ge {l : List (Option String)} {i : Nat} (h : l.length ≤ i) :
    l.getD i none = none := by
  rw [List.getD_eq_getElem?_getD, List.getElem?_eq_none h]; rfl

theorem checkSignal_spec {L : Nat} {mb : List (Option String)} {s : Signal}
    (hlen : mb.length = 8 * L) (hpos : 0 < s.length) :
    (∀ r, checkSignal mb s = .ok r → r.length = 8 * L ∧ Fits L s ∧
      (∀ p, Occupies s p → ¬ Marked mb (net p)) ∧
      (∀ p, p < 8 * L → (Marked r (net p) ↔ Marked mb (net p) ∨ Occupies s p))) ∧
    (Fits L s → (∀ p, Occupies s p → ¬ Marked mb (net p)) → ∃ r, checkSignal mb s = .ok r) ∧
    (∀ e, checkSignal mb s = .error e → e = .error) := by
  unfold checkSignal
  simp only [hlen]
  by_cases hfit : startBit s + s.length ≤ 8 * L
  · obtain ⟨h1, h2⟩ := signalBits_fit hfit
    rw [if_neg (by omega)]
    obtain ⟨k1, k2, k3⟩ := markBits_spec mb (signalBits (8 * L) s) (by omega)
    have hF : Fits L s := (fits_iff hpos).2 hfit
    refine ⟨?_, ?_, k3⟩
    · intro r hr
      obtain ⟨a1, a2, a3⟩ := k1 r hr
      refine ⟨by omega, hF, ?_, ?_⟩
      · intro p hp hm
        have hlt := hF p hp
        have := a2 (net p) ((h2 _ (net_lt.2 hlt)).2 (by rwa [net_net]))
        unfold Marked at hm; rw [this] at hm; cases hm
      · intro p hp
        unfold Marked
        rw [a3, Bool.or_eq_true, h2 _ (net_lt.2 hp), net_net]
    · intro _ hno
      apply k2
      intro i hi
      by_cases hlt : i < 8 * L
      · have := hno (net i) ((h2 i hlt).1 hi)
        rw [net_net] at this
        simpa [Marked] using this
      · rw [getD_none_ge (by omega)]; rfl
  · rw [if_pos (signalBits_too_long (by omega))]
    refine ⟨?_, ?_, ?_⟩
    · intro r hr; cases hr
    · intro hF; exact absurd ((fits_iff hpos).1 hF) hfit
    · intro e he; cases he; rfl

theorem mergeBits_length {a b : List (Option String)} (h : a.length = b.length) :
    (mergeBits a b).length = a.length := by
  simp [mergeBits]; omega

theorem mergeBits_marked {a b : List (Option String)} (h : a.length = b.length) (i : Nat) :
    Marked (mergeBits a b) i ↔ Marked a i ∨ Marked b i := by
  unfold Marked mergeBits
  rw [List.getD_eq_getElem?_getD, List.getD_eq_getElem?_getD, List.getD_eq_getElem?_getD,
    List.getElem?_zipWith]
  by_cases hi : i < a.length
  · have hi' : i < b.length := by omega
    rw [List.getElem?_eq_getElem hi, List.getElem?_eq_getElem hi']
    cases a[i] <;> cases b[i] <;> simp
  · have hi' : ¬ i < b.length := by omega
    rw [List.getElem?_eq_none (by omega), List.getElem?_eq_none (by omega)]
    simp

/-! ### The tree of a codec -/

theorem treeOfMuxes_ofList (ms : List (String × Branches)) :
    treeOfMuxes (Muxes.ofList ms) = ms.map fun m => (m.1, treeOfBranches m.2) := by
  induction ms with
  | nil => rfl
  | cons x r ih => obtain ⟨n, b⟩ := x; simp [Muxes.ofList, treeOfMuxes, ih]

/-- Children of a selector, as they appear in the tree. -/
def ChildTrees (sigs : List Signal) (fuel : Nat) (s : Signal) (b : Branches) : Prop :=
  ∃ brs, b = Branches.ofList brs ∧
    List.Forall₂ (fun i ic => ic.1 = i ∧
      createCodec sigs fuel (some s.name) (some i) = some ic.2) (childrenIds sigs s) brs

theorem tree_lookup {sigs : List Signal} (hnd : (sigs.map (·.name)).Nodup) {fuel : Nat}
    {parent : Option String} {id : Option Int} {ms : List (String × Branches)}
    (hms : List.Forall₂ (fun s m => m.1 = s.name ∧ ChildTrees sigs fuel s m.2)
      (selectorsOf sigs parent id) ms) {s : Signal} (hs : s ∈ hereOf sigs parent id) :
    (s ∈ selectorsOf sigs parent id ∧ ∃ b, ChildTrees sigs fuel s b ∧
      dictGet? (treeOfMuxes (Muxes.ofList ms)) s.name = some (treeOfBranches b)) ∨
    (s ∉ selectorsOf sigs parent id ∧
      dictGet? (treeOfMuxes (Muxes.ofList ms)) s.name = none) := by
  rw [treeOfMuxes_ofList]
  have hmem : ∀ t ∈ selectorsOf sigs parent id, t ∈ sigs :=
    fun t ht => (mem_hereOf.1 (mem_selectorsOf.1 ht).1).1
  have hs' := (mem_hereOf.1 hs).1
  generalize selectorsOf sigs parent id = sl at hms hmem
  induction hms with
  | nil => right; simp
  | @cons p m sl' ms' hpm _ ih =>
    obtain ⟨n, b⟩ := m
    obtain ⟨rfl, hch⟩ := hpm
    simp only [List.map_cons, dictGet?_cons]
    by_cases he : p.name = s.name
    · have := name_inj hnd (hmem p (by simp)) hs' he
      subst this
      left
      exact ⟨by simp, b, hch, by simp⟩
    · rw [if_neg he]
      have hne : s ≠ p := fun h => he (by rw [h])
      rcases ih (fun t ht => hmem t (by simp [ht])) with ⟨h1, h2⟩ | ⟨h1, h2⟩
      · exact .inl ⟨by simp [h1], h2⟩
      · right
        exact ⟨by simp [h1, hne], h2⟩

/-! ### Soundness of the check -/

theorem check_sound {sigs : List Signal} {L : Nat} (hnd : (sigs.map (·.name)).Nodup)
    (hpos : ∀ s ∈ sigs, 0 < s.length) {sel : String → Option Int} {fuel : Nat}
    {parent : Option String} {id : Option Int} {c : Codec}
    (hc : createCodec sigs fuel parent id = some c) (mb mb' : List (Option String))
    (hlen : mb.length = 8 * L) (h : checkTree sigs mb (treeOfCodec c) = .ok mb') :
    mb'.length = 8 * L ∧ (∀ p, p < 8 * L → Marked mb (net p) → Marked mb' (net p)) ∧
    (∀ s, Reach sigs sel parent id s → Fits L s ∧
      ∀ p, Occupies s p → ¬ Marked mb (net p) ∧ Marked mb' (net p)) ∧
    (∀ a b, Reach sigs sel parent id a → Reach sigs sel parent id b → a ≠ b →
      Spec.Disjoint a b) := by
  induction fuel generalizing parent id c mb mb' with
  | zero => simp [createCodec] at hc
  | succ fuel ih =>
    obtain ⟨fuel', ms, hf, rfl, hms⟩ := createCodec_cases hc
    cases hf
    have hms' : List.Forall₂ (fun s m => m.1 = s.name ∧ ChildTrees sigs fuel s m.2)
      (selectorsOf sigs parent id) ms := hms
    simp only [treeOfCodec] at h
    -- signals reached through a list of signals of this node
    let RL : List Signal → Signal → Prop := fun l s =>
      s ∈ l ∨ ∃ p ∈ l, ∃ i, p.isMultiplexer = true ∧ sel p.name = some i ∧
        Reach sigs sel (some p.name) (some i) s
    have loop : ∀ (l : List Signal) (mb mb' : List (Option String)), l.Nodup →
        (∀ s ∈ l, s ∈ hereOf sigs parent id) → mb.length = 8 * L →
        checkTree sigs mb (treeOfSignals (treeOfMuxes (Muxes.ofList ms)) l) = .ok mb' →
        mb'.length = 8 * L ∧ (∀ p, p < 8 * L → Marked mb (net p) → Marked mb' (net p)) ∧
        (∀ s, RL l s → Fits L s ∧ ∀ p, Occupies s p → ¬ Marked mb (net p) ∧ Marked mb' (net p)) ∧
        (∀ a b, RL l a → RL l b → a ≠ b → Spec.Disjoint a b) := by
      intro l
      induction l with
      | nil =>
        intro mb mb' _ _ hlen h
        cases h
        refine ⟨hlen, fun _ _ h => h, ?_, ?_⟩
        · rintro s (h | ⟨p, h, _⟩) <;> cases h
        · rintro a b (h | ⟨p, h, _⟩) <;> cases h
      | cons s r ihl =>
        intro mb mb' hndl hsub hlen h
        rw [List.nodup_cons] at hndl
        have hs := hsub s (by simp)
        have hsm := (mem_hereOf.1 hs).1
        -- it suffices to treat the head: the signal and its branches
        have head : ∃ mb1, mb1.length = 8 * L ∧
            checkTree sigs mb1 (treeOfSignals (treeOfMuxes (Muxes.ofList ms)) r) = .ok mb' ∧
            (∀ p, p < 8 * L → Marked mb (net p) → Marked mb1 (net p)) ∧
            (∀ t, RL [s] t → Fits L t ∧
              ∀ p, Occupies t p → ¬ Marked mb (net p) ∧ Marked mb1 (net p)) ∧
            (∀ a b, RL [s] a → RL [s] b → a ≠ b → Spec.Disjoint a b) := by
          rcases tree_lookup hnd hms' hs with ⟨hsel, b, ⟨brs, rfl, hbrs⟩, hb⟩ | ⟨hsel, hb⟩
          · -- a selector
            simp only [treeOfSignals, hb, checkTree, signalByName_eq hnd hsm,
              Except.bind_eq_ok] at h
            obtain ⟨s', hs', mb0, h0, mb1, h1, h⟩ := h
            cases hs'
            obtain ⟨a1, a2, a3, a4⟩ := (checkSignal_spec hlen (hpos s hsm)).1 mb0 h0
            -- the branches
            have branches : ∀ (brs : List (Int × Codec)) (bits mb1 : List (Option String)),
                (∀ ic ∈ brs, createCodec sigs fuel (some s.name) (some ic.1) = some ic.2) →
                bits.length = 8 * L →
                (∀ p, p < 8 * L → Marked mb0 (net p) → Marked bits (net p)) →
                checkBranches sigs mb0 bits (treeOfBranches (Branches.ofList brs)) = .ok mb1 →
                mb1.length = 8 * L ∧ (∀ p, p < 8 * L → Marked bits (net p) → Marked mb1 (net p)) ∧
                ∀ i ∈ brs.map (·.1),
                  (∀ t, Reach sigs sel (some s.name) (some i) t → Fits L t ∧
                    ∀ p, Occupies t p → ¬ Marked mb0 (net p) ∧ Marked mb1 (net p)) ∧
                  (∀ a b, Reach sigs sel (some s.name) (some i) a →
                    Reach sigs sel (some s.name) (some i) b → a ≠ b → Spec.Disjoint a b) := by
              intro brs
              induction brs with
              | nil =>
                intro bits mb1 _ hbl _ h
                cases h
                exact ⟨hbl, fun _ _ h => h, by simp⟩
              | cons ic brs ihb =>
                intro bits mb1 hcc hbl hinc h
                obtain ⟨i, c⟩ := ic
                simp only [Branches.ofList, treeOfBranches, checkBranches,
                  Except.bind_eq_ok] at h
                obtain ⟨ch, hch, h⟩ := h
                have hcc0 := hcc (i, c) (by simp)
                obtain ⟨e1, e2, e3, e4⟩ := ih hcc0 mb0 ch a1 hch
                have hml : (mergeBits bits ch).length = 8 * L := by
                  rw [mergeBits_length (by omega)]; exact hbl
                have hmm : ∀ p, Marked (mergeBits bits ch) (net p) ↔
                    Marked bits (net p) ∨ Marked ch (net p) :=
                  fun p => mergeBits_marked (by omega) _
                obtain ⟨f1, f2, f3⟩ := ihb (mergeBits bits ch) mb1
                  (fun x hx => hcc x (by simp [hx])) hml
                  (fun p hp hm => (hmm p).2 (.inl (hinc p hp hm))) h
                refine ⟨f1, fun p hp hm => f2 p hp ((hmm p).2 (.inl hm)), ?_⟩
                intro j hj
                simp only [List.map_cons, List.mem_cons] at hj
                by_cases hji : j = i
                · subst hji
                  refine ⟨?_, e4⟩
                  intro t ht
                  obtain ⟨g1, g2⟩ := e3 t ht
                  refine ⟨g1, fun p hp => ⟨(g2 p hp).1, ?_⟩⟩
                  exact f2 p (g1 p hp) ((hmm p).2 (.inr (g2 p hp).2))
                · exact f3 j (hj.resolve_left hji)
            have hcc : ∀ ic ∈ brs, createCodec sigs fuel (some s.name) (some ic.1) = some ic.2 := by
              intro ic hic
              obtain ⟨i, _, h1, h2⟩ := forall₂_mem_right hbrs hic
              rw [h1]; exact h2
            obtain ⟨b1, b2, b3⟩ := branches brs mb0 mb1 hcc a1 (fun _ _ h => h) h1
            have hids : ∀ i t, Reach sigs sel (some s.name) (some i) t → i ∈ brs.map (·.1) := by
              intro i t hr
              have : i ∈ childrenIds sigs s := by
                rw [mem_childrenIds]; left
                cases hr with
                | here h => rw [mem_hereOf] at h; exact ⟨t, h.1, h.2.1, h.2.2 i rfl⟩
                | down q _ h _ _ _ => rw [mem_hereOf] at h; exact ⟨q, h.1, h.2.1, h.2.2 i rfl⟩
              obtain ⟨ic, h1, h2⟩ := forall₂_mem_right hbrs.flip this
              exact List.mem_map.2 ⟨ic, h1, h2.1⟩
            have hself : ∀ p, Occupies s p → Marked mb1 (net p) := fun p hp =>
              b2 p (a2 p hp) ((a4 p (a2 p hp)).2 (.inr hp))
            have hbelow : ∀ i t, Reach sigs sel (some s.name) (some i) t → Fits L t ∧
                (∀ p, Occupies t p → ¬ Marked mb (net p) ∧ Marked mb1 (net p)) ∧
                Spec.Disjoint s t := by
              intro i t ht
              obtain ⟨g1, g2⟩ := (b3 i (hids i t ht)).1 t ht
              refine ⟨g1, fun p hp => ⟨?_, (g2 p hp).2⟩, ?_⟩
              · intro hm
                exact (g2 p hp).1 ((a4 p (g1 p hp)).2 (.inl hm))
              · intro p hps hpt
                exact (g2 p hpt).1 ((a4 p (a2 p hps)).2 (.inr hps))
            refine ⟨mb1, b1, h, ?_, ?_, ?_⟩
            · intro p hp hm
              exact b2 p hp ((a4 p hp).2 (.inl hm))
            · rintro t (ht | ⟨q, hq, i, hqm, hqs, ht⟩)
              · rw [List.mem_singleton] at ht; subst ht
                exact ⟨a2, fun p hp => ⟨a3 p hp, hself p hp⟩⟩
              · rw [List.mem_singleton] at hq; subst hq
                obtain ⟨g1, g2, _⟩ := hbelow i t ht
                exact ⟨g1, g2⟩
            · rintro a b (ha | ⟨q, hq, i, hqm, hqs, ha⟩) (hb' | ⟨q', hq', i', hqm', hqs', hb'⟩) hab
              · rw [List.mem_singleton] at ha hb'
                exact absurd (ha.trans hb'.symm) hab
              · rw [List.mem_singleton] at ha hq'
                subst ha; subst hq'
                exact (hbelow i' b hb').2.2
              · rw [List.mem_singleton] at hb' hq
                subst hb'; subst hq
                exact Disjoint.symm (hbelow i a ha).2.2
              · rw [List.mem_singleton] at hq hq'
                subst hq; subst hq'
                rw [hqs] at hqs'; cases hqs'
                exact (b3 i (hids i a ha)).2 a b ha hb' hab
          · -- an ordinary signal
            simp only [treeOfSignals, hb, checkTree, signalByName_eq hnd hsm,
              Except.bind_eq_ok] at h
            obtain ⟨s', hs', mb0, h0, h⟩ := h
            cases hs'
            obtain ⟨a1, a2, a3, a4⟩ := (checkSignal_spec hlen (hpos s hsm)).1 mb0 h0
            have hnone : ∀ i t, s.isMultiplexer = true →
                ¬ Reach sigs sel (some s.name) (some i) t := by
              intro i t hm hr
              apply hsel
              rw [mem_selectorsOf]
              refine ⟨hs, hm, ?_⟩
              have : i ∈ childrenIds sigs s := by
                rw [mem_childrenIds]; left
                cases hr with
                | here h => rw [mem_hereOf] at h; exact ⟨t, h.1, h.2.1, h.2.2 i rfl⟩
                | down q _ h _ _ _ => rw [mem_hereOf] at h; exact ⟨q, h.1, h.2.1, h.2.2 i rfl⟩
              intro he; rw [he] at this; cases this
            have honly : ∀ t, RL [s] t → t = s := by
              rintro t (ht | ⟨q, hq, i, hqm, hqs, ht⟩)
              · simpa using ht
              · rw [List.mem_singleton] at hq; subst hq
                exact absurd ht (hnone i t hqm)
            refine ⟨mb0, a1, h, fun p hp hm => (a4 p hp).2 (.inl hm), ?_, ?_⟩
            · intro t ht
              have := honly t ht; subst this
              exact ⟨a2, fun p hp => ⟨a3 p hp, (a4 p (a2 p hp)).2 (.inr hp)⟩⟩
            · intro a b ha hb' hab
              exact absurd ((honly a ha).trans (honly b hb').symm) hab
        obtain ⟨mb1, c1, c2, c3, c4, c5⟩ := head
        obtain ⟨d1, d2, d3, d4⟩ := ihl mb1 mb' hndl.2 (fun t ht => hsub t (by simp [ht])) c1 c2
        have hsplit : ∀ t, RL (s :: r) t → RL [s] t ∨ RL r t := by
          rintro t (ht | ⟨q, hq, rest⟩)
          · rcases List.mem_cons.1 ht with ht | ht
            · exact .inl (.inl (by simp [ht]))
            · exact .inr (.inl ht)
          · rcases List.mem_cons.1 hq with hq | hq
            · exact .inl (.inr ⟨q, by simp [hq], rest⟩)
            · exact .inr (.inr ⟨q, hq, rest⟩)
        have hcross : ∀ a b, RL [s] a → RL r b → Spec.Disjoint a b := by
          intro a b ha hb p hpa hpb
          exact ((d3 b hb).2 p hpb).1 ((c4 a ha).2 p hpa).2
        refine ⟨d1, fun p hp hm => d2 p hp (c3 p hp hm), ?_, ?_⟩
        · intro t ht
          rcases hsplit t ht with ht | ht
          · obtain ⟨g1, g2⟩ := c4 t ht
            exact ⟨g1, fun p hp => ⟨(g2 p hp).1, d2 p (g1 p hp) (g2 p hp).2⟩⟩
          · obtain ⟨g1, g2⟩ := d3 t ht
            exact ⟨g1, fun p hp => ⟨fun hm => (g2 p hp).1 (c3 p (g1 p hp) hm), (g2 p hp).2⟩⟩
        · intro a b ha hb hab
          rcases hsplit a ha with ha | ha <;> rcases hsplit b hb with hb | hb
          · exact c5 a b ha hb hab
          · exact hcross a b ha hb
          · exact Disjoint.symm (hcross b a hb ha)
          · exact d4 a b ha hb hab
    have hndh : (hereOf sigs parent id).Nodup :=
      (List.Nodup.of_map _ hnd).sublist List.filter_sublist
    obtain ⟨d1, d2, d3, d4⟩ := loop _ mb mb' hndh (fun _ h => h) hlen h
    have hRL : ∀ t, Reach sigs sel parent id t → RL (hereOf sigs parent id) t := by
      intro t ht
      cases ht with
      | here h => exact .inl h
      | down p i hp hm hs hr => exact .inr ⟨p, hp, i, hm, hs, hr⟩
    exact ⟨d1, d2, fun t ht => d3 t (hRL t ht), fun a b ha hb => d4 a b (hRL a ha) (hRL b hb)⟩

end Cantools
