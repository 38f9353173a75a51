import Verif.Spec.Dbc
import Verif.Lemmas.Node
import Mathlib.Data.List.Perm.Subperm
import Mathlib.Data.List.Forall2
import Mathlib.Tactic.Linarith

namespace Cantools
open Spec

/-! ### Ranges -/

theorem mem_pyRange {lo hi i : Int} : i ∈ pyRange lo hi ↔ lo ≤ i ∧ i ≤ hi := by
  unfold pyRange
  simp only [List.mem_map, List.mem_range]
  constructor
  · rintro ⟨k, hk, rfl⟩; omega
  · rintro ⟨h1, h2⟩; exact ⟨(i - lo).toNat, by omega, by omega⟩

theorem mem_expandRanges {rs : List (Int × Int)} {i : Int} :
    i ∈ expandRanges rs ↔ ∃ r ∈ rs, r.1 ≤ i ∧ i ≤ r.2 := by
  unfold expandRanges
  simp only [List.mem_flatMap, mem_pyRange]

theorem mem_expandRanges_cons {r : Int × Int} {rs : List (Int × Int)} {i : Int} :
    i ∈ expandRanges (r :: rs) ↔ (r.1 ≤ i ∧ i ≤ r.2) ∨ i ∈ expandRanges rs := by
  unfold expandRanges
  simp only [List.flatMap_cons, List.mem_append, mem_pyRange]

theorem mem_insertInt {a i : Int} {l : List Int} : i ∈ sortInts.insertInt a l ↔ i = a ∨ i ∈ l := by
  induction l with
  | nil => simp [sortInts.insertInt]
  | cons b r ih =>
    simp only [sortInts.insertInt]
    split
    · simp
    · simp only [List.mem_cons, ih]; tauto

theorem mem_sortInts {l : List Int} {i : Int} : i ∈ sortInts l ↔ i ∈ l := by
  induction l with
  | nil => simp [sortInts]
  | cons a r ih => simp only [sortInts, mem_insertInt, ih, List.mem_cons]

theorem muxRangesLoop_spec (l : List Int) : ∀ (lo prev : Int) (more : List (Int × Int)), lo ≤ prev →
    ∃ rs, muxRangesLoop l prev ((lo, prev) :: more) = .ok rs ∧
      ∀ i, i ∈ expandRanges rs ↔ i ∈ expandRanges ((lo, prev) :: more) ∨ i ∈ l := by
  induction l with
  | nil =>
    intro lo prev more _
    refine ⟨_, rfl, fun i => ?_⟩
    simp only [mem_expandRanges, List.mem_reverse, List.not_mem_nil, or_false]
  | cons v r ih =>
    intro lo prev more hle
    simp only [muxRangesLoop]
    by_cases hv : v = prev + 1
    · rw [if_pos hv]
      obtain ⟨rs, h1, h2⟩ := ih lo v more (by omega)
      refine ⟨rs, h1, fun i => ?_⟩
      rw [h2]
      simp only [mem_expandRanges_cons, List.mem_cons]
      constructor
      · rintro ((⟨h3, h4⟩ | h) | h)
        · by_cases hi : i = v
          · exact .inr (.inl hi)
          · exact .inl (.inl ⟨h3, by omega⟩)
        · exact .inl (.inr h)
        · exact .inr (.inr h)
      · rintro ((⟨h3, h4⟩ | h) | h | h)
        · exact .inl (.inl ⟨h3, by omega⟩)
        · exact .inl (.inr h)
        · exact .inl (.inl ⟨by omega, by omega⟩)
        · exact .inr h
    · rw [if_neg hv]
      obtain ⟨rs, h1, h2⟩ := ih v v ((lo, prev) :: more) (by omega)
      refine ⟨rs, h1, fun i => ?_⟩
      rw [h2]
      simp only [mem_expandRanges_cons, List.mem_cons]
      constructor
      · rintro ((⟨h3, h4⟩ | h) | h)
        · exact .inr (.inl (by omega))
        · exact .inl h
        · exact .inr (.inr h)
      · rintro (h | h | h)
        · exact .inl (.inr h)
        · exact .inl (.inl ⟨by omega, by omega⟩)
        · exact .inr h

theorem createMuxRanges_spec {ids : List Int} (h : ids ≠ []) :
    ∃ rs, createMuxRanges ids = .ok rs ∧ ∀ i, i ∈ expandRanges rs ↔ i ∈ ids := by
  unfold createMuxRanges
  cases hs : sortInts ids with
  | nil =>
    exfalso
    cases ids with
    | nil => exact h rfl
    | cons a r =>
      have : a ∈ sortInts (a :: r) := mem_sortInts.2 (by simp)
      rw [hs] at this; cases this
  | cons a r =>
    simp only [muxRangesLoop]
    rw [if_neg (by omega)]
    obtain ⟨rs, h1, h2⟩ := muxRangesLoop_spec r a a [] (le_refl _)
    refine ⟨rs, h1, fun i => ?_⟩
    rw [h2, ← mem_sortInts (l := ids), hs]
    simp only [mem_expandRanges_cons, List.mem_cons]
    constructor
    · rintro ((⟨h3, h4⟩ | h) | h)
      · exact .inl (by omega)
      · simp [expandRanges] at h
      · exact .inr h
    · rintro (h | h)
      · exact .inl (.inl ⟨by omega, by omega⟩)
      · exact .inr h

/-! ### Loaded multiplexer values -/

theorem mem_uniqueIds {l : List Int} {i : Int} : i ∈ uniqueIds l ↔ i ∈ l := by
  unfold uniqueIds
  have : ∀ (l acc : List Int), i ∈ l.foldl (fun acc i => if i ∈ acc then acc else acc ++ [i]) acc ↔
      i ∈ acc ∨ i ∈ l := by
    intro l
    induction l with
    | nil => simp
    | cons a r ih =>
      intro acc
      simp only [List.foldl_cons, ih, List.mem_cons]
      split
      · constructor
        · tauto
        · rintro (h | rfl | h) <;> tauto
      · simp only [List.mem_append, List.mem_singleton]; tauto
  simpa using this l []

/-- ids of a signal below a multiplexer -/
def muxIds (values : List (String × List (String × List Int))) (mux sig : String) :
    Option (List Int) :=
  (dictGet? values mux).bind fun e => dictGet? e sig

theorem loadMuxValues_spec (entries : List MuxEntry) (hnd : (entries.map (·.signal)).Nodup) :
    (((loadMuxValues entries).map (·.1)).Nodup) ∧
    ∀ mux sig ids, muxIds (loadMuxValues entries) mux sig = some ids ↔
      ∃ e ∈ entries, e.signal = sig ∧ e.multiplexer = mux ∧ ids = expandRanges e.ranges := by
  induction entries using List.reverseRecOn with
  | nil => simp [loadMuxValues, muxIds]
  | append_singleton r e ih =>
    have hnd' : (r.map (·.signal)).Nodup ∧ ∀ x ∈ r, x.signal ≠ e.signal := by
      rw [List.map_append, List.nodup_append] at hnd
      refine ⟨hnd.1, fun x hx h => ?_⟩
      exact hnd.2.2 _ (List.mem_map_of_mem hx) _ (by simp) h
    obtain ⟨ih1, ih2⟩ := ih hnd'.1
    have hstep : loadMuxValues (r ++ [e]) = dictSet (loadMuxValues r) e.multiplexer
        (dictSet ((dictGet? (loadMuxValues r) e.multiplexer).getD []) e.signal
          (expandRanges e.ranges)) := by
      unfold loadMuxValues; rw [List.foldl_append]; rfl
    rw [hstep]
    refine ⟨dictSet_nodup _ _ ih1, fun mux sig ids => ?_⟩
    have hget : muxIds (dictSet (loadMuxValues r) e.multiplexer
        (dictSet ((dictGet? (loadMuxValues r) e.multiplexer).getD []) e.signal
          (expandRanges e.ranges))) mux sig =
        if e.multiplexer = mux ∧ e.signal = sig then some (expandRanges e.ranges)
        else muxIds (loadMuxValues r) mux sig := by
      unfold muxIds
      rw [dictGet?_set]
      by_cases h1 : e.multiplexer = mux
      · subst h1
        simp only [if_true, Option.bind_some, dictGet?_set, true_and]
        by_cases h2 : e.signal = sig
        · simp [h2]
        · simp only [h2, if_false]
          cases dictGet? (loadMuxValues r) e.multiplexer <;> simp
      · simp [h1]
    rw [hget]
    simp only [List.mem_append, List.mem_singleton, or_and_right, exists_or, exists_eq_left]
    split
    · rename_i h
      obtain ⟨rfl, rfl⟩ := h
      constructor
      · intro h; cases h; exact .inr ⟨rfl, rfl, rfl⟩
      · rintro (⟨x, hx, h, _⟩ | ⟨_, _, rfl⟩)
        · exact absurd h (hnd'.2 x hx)
        · rfl
    · rename_i h
      rw [ih2]
      constructor
      · exact .inl
      · rintro (h' | ⟨h1, h2, _⟩)
        · exact h'
        · exact absurd ⟨h2, h1⟩ h

theorem multiplexerOfSignal_spec (values : List (String × List (String × List Int)))
    (hnd : (values.map (·.1)).Nodup)
    (hone : ∀ m m' s, (muxIds values m s).isSome → (muxIds values m' s).isSome → m = m')
    (mux sig : String) :
    dictGet? (multiplexerOfSignal values) sig = some mux ↔ (muxIds values mux sig).isSome := by
  have inner : ∀ (l : List (String × List Int)) (m : String) (acc : List (String × String)),
      dictGet? (l.foldl (fun acc e => dictSet acc e.1 m) acc) sig =
        if sig ∈ l.map (·.1) then some m else dictGet? acc sig := by
    intro l m
    induction l with
    | nil => intro acc; simp
    | cons e r ih =>
      intro acc
      simp only [List.foldl_cons, ih, dictGet?_set, List.map_cons, List.mem_cons]
      by_cases h1 : sig ∈ r.map (·.1)
      · simp [h1]
      · by_cases h2 : e.1 = sig
        · simp [h2]
        · simp [h1, h2, Ne.symm h2]
  have outer : ∀ (mux : String) (vs : List (String × List (String × List Int))) (acc : List (String × String)),
      (∀ v ∈ vs, sig ∈ v.2.map (·.1) → v.1 = mux) →
      dictGet? (vs.foldl (fun acc m => m.2.foldl (fun acc e => dictSet acc e.1 m.1) acc) acc) sig =
        if ∃ v ∈ vs, sig ∈ v.2.map (·.1) then some mux else dictGet? acc sig := by
    intro mux vs
    induction vs with
    | nil => intro acc _; simp
    | cons v r ih =>
      intro acc h
      rw [List.foldl_cons, ih _ fun w hw => h w (List.mem_cons_of_mem _ hw), inner]
      by_cases h1 : ∃ w ∈ r, sig ∈ w.2.map (·.1)
      · rw [if_pos h1, if_pos]
        obtain ⟨w, hw, h2⟩ := h1
        exact ⟨w, List.mem_cons_of_mem _ hw, h2⟩
      · rw [if_neg h1]
        by_cases h2 : sig ∈ v.2.map (·.1)
        · rw [if_pos h2, if_pos ⟨v, by simp, h2⟩, h v (by simp) h2]
        · rw [if_neg h2, if_neg]
          rintro ⟨w, hw, h3⟩
          rcases List.mem_cons.1 hw with rfl | hw
          · exact h2 h3
          · exact h1 ⟨w, hw, h3⟩
  have hiff : ∀ m, (muxIds values m sig).isSome ↔ ∃ v ∈ values, v.1 = m ∧ sig ∈ v.2.map (·.1) := by
    intro m
    unfold muxIds
    constructor
    · intro h
      cases hv : dictGet? values m with
      | none => rw [hv] at h; cases h
      | some e =>
        refine ⟨(m, e), dictGet?_mem hv, rfl, ?_⟩
        rw [hv] at h
        by_contra hc
        rw [← dictGet?_eq_none_iff] at hc
        simp [hc] at h
    · rintro ⟨⟨m', e⟩, hv, rfl, hs⟩
      rw [dictGet?_of_mem hnd hv]
      simp only [Option.bind_some]
      cases hg : dictGet? e sig with
      | some x => rfl
      | none => exact absurd hs ((dictGet?_eq_none_iff _ _).1 hg)
  unfold multiplexerOfSignal
  constructor
  · intro h
    -- some multiplexer has the signal
    by_contra hc
    by_cases hex : ∃ m, (muxIds values m sig).isSome
    · obtain ⟨m, hm⟩ := hex
      have h2 : dictGet? (values.foldl (fun acc m => m.2.foldl (fun acc e => dictSet acc e.1 m.1) acc) [])
          sig = some m := by
        rw [outer m values [] fun v hv hs => hone v.1 m sig ((hiff v.1).2 ⟨v, hv, rfl, hs⟩) hm, if_pos]
        obtain ⟨v, hv, _, hs⟩ := (hiff m).1 hm
        exact ⟨v, hv, hs⟩
      rw [h2] at h
      cases h
      exact hc hm
    · rw [outer mux values [] fun v hv hs => absurd ⟨v.1, (hiff v.1).2 ⟨v, hv, rfl, hs⟩⟩ hex, if_neg] at h
      · simp at h
      · rintro ⟨v, hv, hs⟩
        exact hex ⟨v.1, (hiff v.1).2 ⟨v, hv, rfl, hs⟩⟩
  · intro h
    rw [outer mux values [] fun v hv hs => hone v.1 mux sig ((hiff v.1).2 ⟨v, hv, rfl, hs⟩) h, if_pos]
    obtain ⟨v, hv, _, hs⟩ := (hiff mux).1 h
    exact ⟨v, hv, hs⟩

/-! ### Strings -/

theorem escape_head {s : Chars} (r : Chars) (hs : s ≠ []) :
    ∃ c t, escapeQuotes s ++ r = c :: t ∧ c ≠ '"' := by
  cases s with
  | nil => exact absurd rfl hs
  | cons a b =>
    simp only [escapeQuotes]
    split
    · exact ⟨_, _, rfl, by decide⟩
    · rename_i h; exact ⟨_, _, rfl, h⟩

theorem matchString_cons {c : Char} {r : Chars} (h1 : c ≠ '"')
    (h2 : c = '\\' → ∀ t, r ≠ '"' :: t) :
    matchString (c :: r) = (matchString r).map fun x => (c :: x.1, x.2) := by
  rw [matchString]
  · cases matchString r <;> rfl
  · intro h; exact h1 h
  · intro t h ht
    exact h2 h t ht

theorem matchString_pair (r : Chars) : matchString ('\\' :: '"' :: r) =
    match matchString r with
    | some (c, rest) => some ('\\' :: '"' :: c, rest)
    | none => some (['\\'], r) := by
  rw [matchString]; cases matchString r <;> rfl

theorem matchString_escape (s rest : Chars) (h : s.getLast? ≠ some '\\') :
    matchString (escapeQuotes s ++ '"' :: rest) = some (escapeQuotes s, rest) := by
  induction s with
  | nil => simp [escapeQuotes, matchString]
  | cons c r ih =>
    have hr : r.getLast? ≠ some '\\' := by
      cases r with
      | nil => simp
      | cons a b => simpa using h
    have ih := ih hr
    simp only [escapeQuotes]
    split
    · rename_i hc
      simp only [List.cons_append, matchString_pair, ih]
    · rename_i hc
      rw [List.cons_append, matchString_cons hc, ih]
      · rfl
      · rintro rfl t ht
        have hne : r ≠ [] := by rintro rfl; simp at h
        obtain ⟨d, u, hd, hdq⟩ := escape_head ('"' :: rest) hne
        rw [hd] at ht
        cases ht
        exact hdq rfl

theorem unescape_cons {c : Char} {r : Chars} (h : c = '\\' → ∀ t, r ≠ '"' :: t) :
    unescapeQuotes (c :: r) = c :: unescapeQuotes r := by
  rw [unescapeQuotes]
  intro t hc ht
  exact h hc t ht

theorem unescape_escape (s : Chars) : unescapeQuotes (escapeQuotes s) = s := by
  induction s with
  | nil => rfl
  | cons c r ih =>
    simp only [escapeQuotes]
    split
    · rename_i hc; rw [unescapeQuotes, ih, hc]
    · rename_i hc
      rw [unescape_cons, ih]
      rintro rfl t ht
      cases r with
      | nil => simp [escapeQuotes] at ht
      | cons a b =>
        obtain ⟨d, u, hd, hdq⟩ := escape_head (s := a :: b) [] (by simp)
        rw [List.append_nil, ht] at hd
        cases hd
        exact hdq rfl

/-- A backslash at the end hides the closing quote. -/
theorem matchString_trailing (s : Chars) :
    matchString (escapeQuotes (s ++ ['\\']) ++ ['"', '"']) =
      some (escapeQuotes (s ++ ['\\']) ++ ['"'], []) := by
  induction s with
  | nil => decide
  | cons c r ih =>
    simp only [List.cons_append, escapeQuotes]
    split
    · simp only [List.cons_append, matchString_pair, ih]
    · rename_i hc
      rw [List.cons_append, matchString_cons hc, ih]
      · rfl
      · intro _ t ht
        obtain ⟨d, u, hd, hdq⟩ := escape_head (s := r ++ ['\\']) ['"', '"'] (by simp)
        rw [hd] at ht
        cases ht
        exact hdq rfl

theorem escape_of_no_quote {t : Chars} (h : '"' ∉ t) : escapeQuotes t = t := by
  induction t with
  | nil => rfl
  | cons c r ih =>
    simp only [List.mem_cons, not_or] at h
    simp only [escapeQuotes, if_neg (Ne.symm h.1), ih h.2]

/-- The match splits the text, and quotes inside the match follow a backslash. -/
theorem matchString_split : ∀ {t m r : Chars}, matchString t = some (m, r) →
    t = m ++ '"' :: r ∧ ('"' ∈ m → (unescapeQuotes m).length < m.length) ∧
      (unescapeQuotes m).length ≤ m.length := by
  intro t
  induction t using matchString.induct with
  | case1 => intro m r h; simp [matchString] at h
  | case2 r => intro m r' h; rw [matchString] at h; cases h; simp [unescapeQuotes]
  | case3 r c rest hm ih =>
    intro m r' h
    rw [matchString_pair, hm] at h
    cases h
    obtain ⟨h1, h2, h3⟩ := ih hm
    refine ⟨by rw [h1]; rfl, fun _ => ?_, ?_⟩ <;> rw [unescapeQuotes] <;> simp only [List.length_cons] <;> omega
  | case4 r hm ih =>
    intro m r' h
    rw [matchString_pair, hm] at h
    cases h
    refine ⟨rfl, by simp, by simp [unescapeQuotes]⟩
  | case5 c r hc1 hc2 t rest hm ih =>
    intro m r' h
    have hp : ∀ u, c = '\\' → r ≠ '"' :: u := fun u h1 h2 => hc2 u h1 h2
    rw [matchString_cons (fun h => hc1 h) (fun h u => hp u h), hm] at h
    cases h
    obtain ⟨h1, h2, h3⟩ := ih hm
    have hu : unescapeQuotes (c :: t) = c :: unescapeQuotes t := by
      apply unescape_cons
      intro h4 u h5
      subst h5
      exact hp _ h4 (by rw [h1]; rfl)
    refine ⟨by rw [h1]; rfl, ?_, ?_⟩
    · intro hq
      rw [hu]
      simp only [List.mem_cons] at hq
      rcases hq with hq | hq
      · exact absurd hq.symm (fun h => hc1 h)
      · have := h2 hq; simp only [List.length_cons]; omega
    · rw [hu]; simp only [List.length_cons]; omega
  | case6 c r hc1 hc2 hm ih =>
    intro m r' h
    have hp : ∀ u, c = '\\' → r ≠ '"' :: u := fun u h1 h2 => hc2 u h1 h2
    rw [matchString_cons (fun h => hc1 h) (fun h u => hp u h), hm] at h
    cases h

end Cantools
