import Verif.Lemmas.Tree

namespace Cantools
open Spec

theorem find?_name {sigs : List Signal} (hnd : (sigs.map (·.name)).Nodup) {s : Signal}
    (hs : s ∈ sigs) : sigs.find? (fun t => t.name == s.name) = some s := by
  induction sigs with
  | nil => cases hs
  | cons a r ih =>
    simp only [List.map_cons, List.nodup_cons] at hnd
    rw [List.find?_cons]
    rcases List.mem_cons.1 hs with rfl | hs
    · simp
    · have : a.name ≠ s.name := fun he => hnd.1 (he ▸ List.mem_map.2 ⟨s, hs, rfl⟩)
      have hb : (a.name == s.name) = false := by simpa using this
      simp only [hb]
      exact ih hnd.2 hs

theorem name_inj {sigs : List Signal} (hnd : (sigs.map (·.name)).Nodup) {a b : Signal}
    (ha : a ∈ sigs) (hb : b ∈ sigs) (h : a.name = b.name) : a = b :=
  List.inj_on_of_nodup_map hnd ha hb h

theorem signalByName_eq {sigs : List Signal} (hnd : (sigs.map (·.name)).Nodup) {s : Signal}
    (hs : s ∈ sigs) : signalByName sigs s.name = .ok s := by
  unfold signalByName
  have : (sigs.reverse.find? fun t => t.name == s.name) = some s := by
    apply find?_name
    · rw [List.map_reverse, List.nodup_reverse]; exact hnd
    · simpa using hs
  rw [this]

/-- Selector values seen by the decoder. -/
def decSel (fo : FloatOps) (sigs : List Signal) (L : Nat) (d : Bytes) (actual : Nat)
    (dc sc tr : Bool) (n : String) : Option Int :=
  match sigs.find? (fun t => t.name == n) with
  | none => none
  | some s =>
    if keeps actual L tr s then
      (getMuxNumber sigs [(n, readValue fo d dc sc s)] n).toOption
    else none

/-- Selectors the decoder skips. -/
def decSkip (sigs : List Signal) (L : Nat) (actual : Nat) (tr : Bool) (n : String) : Bool :=
  tr && match sigs.find? (fun t => t.name == n) with
    | none => true
    | some s => !keeps actual L tr s

theorem getMuxNumber_congr {sigs : List Signal} {a b : List (String × Value)} {n : String}
    (h : dictGet? a n = dictGet? b n) : getMuxNumber sigs a n = getMuxNumber sigs b n := by
  unfold getMuxNumber; rw [h]

section
variable {fo : FloatOps} {sigs : List Signal} {L : Nat} {data d : Bytes} {dc sc tr ex : Bool}

/-- Every reported value is the value of a kept signal. -/
def DecInv (fo : FloatOps) (sigs : List Signal) (L : Nat) (d : Bytes) (actual : Nat)
    (dc sc tr : Bool) (acc : List (String × Value)) : Prop :=
  ∀ n v, dictGet? acc n = some v →
    ∃ s ∈ sigs, s.name = n ∧ keeps actual L tr s = true ∧ v = readValue fo d dc sc s

theorem dictGet?_reverse {κ α : Type} [DecidableEq κ] {d : List (κ × α)}
    (h : (d.map (·.1)).Nodup) (k : κ) : dictGet? d.reverse k = dictGet? d k := by
  cases hg : dictGet? d k with
  | none =>
    rw [dictGet?_eq_none_iff] at hg ⊢
    rwa [List.map_reverse, List.mem_reverse]
  | some v =>
    apply dictGet?_of_mem
    · rw [List.map_reverse, List.nodup_reverse]; exact h
    · rw [List.mem_reverse]; exact dictGet?_mem hg

/-- Result of decoding the signals `l` on top of `acc`. -/
def DecMeans (fo : FloatOps) (L : Nat) (d : Bytes) (actual : Nat) (dc sc tr : Bool)
    (acc : List (String × Value)) (l : List Signal) (r : List (String × Value)) : Prop :=
  ∀ n v, dictGet? r n = some v ↔ dictGet? acc n = some v ∨
    ∃ s ∈ l, s.name = n ∧ keeps actual L tr s = true ∧ v = readValue fo d dc sc s

theorem decodeBranch_ofList {i : Int} {brs : List (Int × Codec)} :
    decodeBranch fo sigs L data dc sc tr ex i (Branches.ofList brs) =
      match brs.find? (fun ic => ic.1 == i) with
      | none => .error .decodeError
      | some ic => decodeNode fo sigs L data dc sc tr ex ic.2 := by
  induction brs with
  | nil => rfl
  | cons x r ih =>
    obtain ⟨j, c⟩ := x
    simp only [Branches.ofList, decodeBranch, List.find?_cons]
    by_cases h : j = i
    · simp [h]
    · have : (j == i) = false := by simpa using h
      simp only [h, if_false, this, ih]

theorem selBranch_ofList_eq {skip : String → Bool} {sel : String → Option Int} {i : Int}
    {brs : List (Int × Codec)} :
    selBranch skip sel i (Branches.ofList brs) =
      match brs.find? (fun ic => ic.1 == i) with
      | none => none
      | some ic => selNode skip sel ic.2 := by
  induction brs with
  | nil => rfl
  | cons x r ih =>
    obtain ⟨j, c⟩ := x
    simp only [Branches.ofList, selBranch, List.find?_cons]
    by_cases h : j = i
    · simp [h]
    · have : (j == i) = false := by simpa using h
      simp only [h, if_false, this, ih]

theorem decodeNode_spec {fuel : Nat} {parent : Option String} {id : Option Int} {c : Codec}
    (hc : createCodec sigs fuel parent id = some c) (had : adjustData data L tr ex = .ok d)
    (hnd : (sigs.map (·.name)).Nodup)
    (hso : (sigs.filter fun s => !(s.byteOrder == .big)).Pairwise fun a b => a.start ≤ b.start)
    (hfit : ∀ s, Reach sigs (decSel fo sigs L d data.length dc sc tr) parent id s →
      0 < s.length ∧ Fits L s)
    (hdis : ∀ a b, Reach sigs (decSel fo sigs L d data.length dc sc tr) parent id a →
      Reach sigs (decSel fo sigs L d data.length dc sc tr) parent id b → a ≠ b →
      Spec.Disjoint a b) :
    (∀ r, decodeNode fo sigs L data dc sc tr ex c = .ok r →
      ∃ all, selNode (decSkip sigs L data.length tr) (decSel fo sigs L d data.length dc sc tr) c
          = some all ∧
        DecMeans fo L d data.length dc sc tr [] all r ∧ (r.map (·.1)).Nodup) ∧
    ((selNode (decSkip sigs L data.length tr) (decSel fo sigs L d data.length dc sc tr) c).isSome →
      ∃ r, decodeNode fo sigs L data dc sc tr ex c = .ok r) := by
  induction fuel generalizing parent id c with
  | zero => simp [createCodec] at hc
  | succ fuel ih =>
    obtain ⟨fuel', ms, hf, rfl, hms⟩ := createCodec_cases hc
    cases hf
    have hn : NodeOK L (hereOf sigs parent id) :=
      ⟨hnd.sublist (List.filter_sublist.map _), fun s hs => (hfit s (.here hs)).1,
        fun s hs => (hfit s (.here hs)).2,
        fun a ha b hb hab => hdis a b (.here ha) (.here hb) hab,
        hso.sublist (List.filter_sublist.filter _)⟩
    -- the values of this node
    let first := (((hereOf sigs parent id).filter (keeps data.length L tr)).map fun s =>
      (s.name, readValue fo d dc sc s))
    have hfirst : decodeData fo data L (hereOf sigs parent id)
        (createFormats (hereOf sigs parent id) L) dc sc tr ex = .ok first := by
      rw [decodeData_eq hn, had]; rfl
    have hfnd : (first.map (·.1)).Nodup := by
      have : first.map (·.1) = ((hereOf sigs parent id).filter (keeps data.length L tr)).map
          (·.name) := by simp [first]
      rw [this]
      exact hn.nodup.sublist (List.filter_sublist.map _)
    have hfget : ∀ n v, dictGet? first n = some v ↔ ∃ s ∈ hereOf sigs parent id, s.name = n ∧
        keeps data.length L tr s = true ∧ v = readValue fo d dc sc s := by
      intro n v
      constructor
      · intro h
        have := dictGet?_mem h
        simp only [first, List.mem_map, List.mem_filter] at this
        obtain ⟨s, ⟨h1, h2⟩, h3⟩ := this
        cases h3
        exact ⟨s, h1, rfl, h2, rfl⟩
      · rintro ⟨s, h1, rfl, h2, rfl⟩
        apply dictGet?_of_mem hfnd
        exact List.mem_map.2 ⟨s, List.mem_filter.2 ⟨h1, h2⟩, rfl⟩
    have hinv : DecInv fo sigs L d data.length dc sc tr first := by
      intro n v h
      obtain ⟨s, h1, h2⟩ := (hfget n v).1 h
      exact ⟨s, (mem_hereOf.1 h1).1, h2⟩
    have hsub : ∀ s ∈ selectorsOf sigs parent id, s ∈ hereOf sigs parent id ∧
        s.isMultiplexer = true := fun s hs => ⟨(mem_selectorsOf.1 hs).1, (mem_selectorsOf.1 hs).2.1⟩
    have hhas : ∀ s ∈ selectorsOf sigs parent id, keeps data.length L tr s = true →
        dictGet? first s.name = some (readValue fo d dc sc s) := by
      intro s hs hk
      exact (hfget _ _).2 ⟨s, (hsub s hs).1, rfl, hk, rfl⟩
    -- the loop over the selectors
    have loop : ∀ (sl : List Signal) (ms : List (String × Branches)),
        List.Forall₂ (fun s m => m.1 = s.name ∧ ∃ brs, m.2 = Branches.ofList brs ∧
          List.Forall₂ (fun i ic => ic.1 = i ∧
            createCodec sigs fuel (some s.name) (some i) = some ic.2) (childrenIds sigs s) brs)
          sl ms →
        (∀ s ∈ sl, s ∈ hereOf sigs parent id ∧ s.isMultiplexer = true) →
        ∀ acc, DecInv fo sigs L d data.length dc sc tr acc → (acc.map (·.1)).Nodup →
        (∀ s ∈ sl, keeps data.length L tr s = true →
          dictGet? acc s.name = some (readValue fo d dc sc s)) →
        (∀ r, decodeMuxes fo sigs L data dc sc tr ex (Muxes.ofList ms) acc = .ok r →
          ∃ all, selMuxes (decSkip sigs L data.length tr)
              (decSel fo sigs L d data.length dc sc tr) (Muxes.ofList ms) = some all ∧
            DecMeans fo L d data.length dc sc tr acc all r ∧ (r.map (·.1)).Nodup) ∧
        ((selMuxes (decSkip sigs L data.length tr)
            (decSel fo sigs L d data.length dc sc tr) (Muxes.ofList ms)).isSome →
          ∃ r, decodeMuxes fo sigs L data dc sc tr ex (Muxes.ofList ms) acc = .ok r) := by
      intro sl ms hms
      induction hms with
      | nil =>
        intro _ acc _ hand _
        constructor
        · intro r h
          cases h
          exact ⟨[], rfl, by intro n v; simp, hand⟩
        · intro _; exact ⟨acc, rfl⟩
      | @cons p m sl' ms' hpm _ ihl =>
        intro hsl acc hinv hand hhas
        obtain ⟨n, b⟩ := m
        obtain ⟨hn', brs, hb, hbrs⟩ := hpm
        simp only at hn' hb
        subst hn'; subst hb
        have hpmem := mem_hereOf.1 (hsl p (by simp)).1
        have hfind := find?_name hnd hpmem.1
        by_cases hk : keeps data.length L tr p = true
        · -- the selector has a value
          have hget := hhas p (by simp) hk
          have hskip : decSkip sigs L data.length tr p.name = false := by
            simp [decSkip, hfind, hk]
          have hseleq : decSel fo sigs L d data.length dc sc tr p.name =
              (getMuxNumber sigs acc p.name).toOption := by
            simp only [decSel, hfind, hk, if_true]
            rw [getMuxNumber_congr (a := acc) (b := [(p.name, readValue fo d dc sc p)])]
            rw [hget]; simp [dictGet?_cons]
          have hcond : (tr && (dictGet? acc p.name).isNone) = false := by simp [hget]
          -- what a visited branch gives
          have hbranch : ∀ i, decSel fo sigs L d data.length dc sc tr p.name = some i →
              (∀ sub, decodeBranch fo sigs L data dc sc tr ex i (Branches.ofList brs) = .ok sub →
                ∃ all, selBranch (decSkip sigs L data.length tr)
                    (decSel fo sigs L d data.length dc sc tr) i (Branches.ofList brs) = some all ∧
                  DecMeans fo L d data.length dc sc tr [] all sub ∧ (sub.map (·.1)).Nodup ∧
                  ∀ s ∈ all, s ∈ sigs) ∧
              ((selBranch (decSkip sigs L data.length tr)
                  (decSel fo sigs L d data.length dc sc tr) i (Branches.ofList brs)).isSome →
                ∃ sub, decodeBranch fo sigs L data dc sc tr ex i (Branches.ofList brs) = .ok sub) := by
            intro i hi
            rw [decodeBranch_ofList, selBranch_ofList_eq]
            cases hfb : brs.find? (fun ic => ic.1 == i) with
            | none =>
              constructor
              · intro sub h; simp at h
              · intro h; simp at h
            | some ic =>
              have hicm := List.mem_of_find?_eq_some hfb
              have hici : ic.1 = i := by
                have := List.find?_some hfb; simpa using this
              obtain ⟨i', _, hie, hcc⟩ := forall₂_mem_right hbrs hicm
              rw [hici] at hie
              subst hie
              have hdown : ∀ s, Reach sigs (decSel fo sigs L d data.length dc sc tr)
                  (some p.name) (some i) s →
                  Reach sigs (decSel fo sigs L d data.length dc sc tr) parent id s :=
                fun s hs => .down p i (hsl p (by simp)).1 (hsl p (by simp)).2 hi hs
              have := ih hcc (fun s hs => hfit s (hdown s hs))
                (fun a b ha hb' => hdis a b (hdown a ha) (hdown b hb'))
              refine ⟨?_, this.2⟩
              intro sub h
              obtain ⟨all, h1, h2, h3⟩ := this.1 sub h
              refine ⟨all, h1, h2, h3, ?_⟩
              intro s hs
              exact (((selNode_spec hcc).1 all h1).1 s).1 hs |>.mem
          constructor
          · intro r h
            simp only [Muxes.ofList, decodeMuxes, hcond, Bool.false_eq_true, if_false,
              Except.bind_eq_ok] at h
            obtain ⟨i, hi, sub, hsubb, h⟩ := h
            have hsel : decSel fo sigs L d data.length dc sc tr p.name = some i := by
              rw [hseleq]; exact toOption_eq_some.2 hi
            obtain ⟨a, ha1, ha2, ha3, ha4⟩ := (hbranch i hsel).1 sub hsubb
            have hup : DecMeans fo L d data.length dc sc tr acc a (dictUpdate acc sub) := by
              intro n v
              rw [dictGet?_update, dictGet?_reverse ha3]
              cases hg : dictGet? sub n with
              | some w =>
                obtain ⟨s, h1, h2, h3, h4⟩ := ((ha2 n w).1 hg).resolve_left (by simp)
                constructor
                · intro hh
                  cases hh
                  exact .inr ⟨s, h1, h2, h3, h4⟩
                · rintro (hh | ⟨t, t1, t2, t3, t4⟩)
                  · obtain ⟨t, t1, t2, t3, t4⟩ := hinv n v hh
                    have := name_inj hnd t1 (ha4 s h1) (t2.trans h2.symm)
                    subst this
                    simp [h4, t4]
                  · have := name_inj hnd (ha4 t t1) (ha4 s h1) (t2.trans h2.symm)
                    subst this
                    simp [h4, t4]
              | none =>
                constructor
                · intro hh; exact .inl hh
                · rintro (hh | ⟨t, t1, t2, t3, t4⟩)
                  · exact hh
                  · have := (ha2 n v).2 (.inr ⟨t, t1, t2, t3, t4⟩)
                    rw [hg] at this; cases this
            have hinv' : DecInv fo sigs L d data.length dc sc tr (dictUpdate acc sub) := by
              intro n v hh
              rcases (hup n v).1 hh with hh | ⟨s, h1, h2⟩
              · exact hinv n v hh
              · exact ⟨s, ha4 s h1, h2⟩
            have hhas' : ∀ s ∈ sl', keeps data.length L tr s = true →
                dictGet? (dictUpdate acc sub) s.name = some (readValue fo d dc sc s) := by
              intro s hs hk'
              exact (hup _ _).2 (.inl (hhas s (by simp [hs]) hk'))
            obtain ⟨l, l1, l2, l3⟩ := (ihl (fun s hs => hsl s (by simp [hs])) _ hinv'
              (dictUpdate_nodup _ hand) hhas').1 r h
            refine ⟨a ++ l, by simp only [Muxes.ofList, selMuxes, hsel, ha1, l1, Option.map_some],
              ?_, l3⟩
            intro n v
            rw [l2 n v, hup n v]
            constructor
            · rintro ((h | ⟨s, h1, h2⟩) | ⟨s, h1, h2⟩)
              · exact .inl h
              · exact .inr ⟨s, by simp [h1], h2⟩
              · exact .inr ⟨s, by simp [h1], h2⟩
            · rintro (h | ⟨s, h1, h2⟩)
              · exact .inl (.inl h)
              · rcases List.mem_append.1 h1 with h1 | h1
                · exact .inl (.inr ⟨s, h1, h2⟩)
                · exact .inr ⟨s, h1, h2⟩
          · intro h
            simp only [Muxes.ofList, selMuxes] at h
            cases hsel : decSel fo sigs L d data.length dc sc tr p.name with
            | none => rw [hsel] at h; simp [hskip] at h
            | some i =>
              rw [hsel] at h
              simp only at h
              have hmux : getMuxNumber sigs acc p.name = .ok i :=
                toOption_eq_some.1 (hseleq ▸ hsel)
              cases hb : selBranch (decSkip sigs L data.length tr)
                  (decSel fo sigs L d data.length dc sc tr) i (Branches.ofList brs) with
              | none => rw [hb] at h; simp at h
              | some a =>
                rw [hb] at h
                simp only [Option.isSome_map] at h
                obtain ⟨sub, hsubb⟩ := (hbranch i hsel).2 (by rw [hb]; rfl)
                obtain ⟨a', ha1, ha2, ha3, ha4⟩ := (hbranch i hsel).1 sub hsubb
                have hinv' : DecInv fo sigs L d data.length dc sc tr (dictUpdate acc sub) := by
                  intro n v hh
                  rw [dictGet?_update, dictGet?_reverse ha3] at hh
                  cases hg : dictGet? sub n with
                  | some w =>
                    rw [hg] at hh
                    obtain ⟨s, h1, h2⟩ := ((ha2 n v).1 (hg.trans hh)).resolve_left (by simp)
                    exact ⟨s, ha4 s h1, h2⟩
                  | none => rw [hg] at hh; exact hinv n v hh
                have hhas' : ∀ s ∈ sl', keeps data.length L tr s = true →
                    dictGet? (dictUpdate acc sub) s.name = some (readValue fo d dc sc s) := by
                  intro s hs hk'
                  have hold := hhas s (by simp [hs]) hk'
                  rw [dictGet?_update, dictGet?_reverse ha3]
                  cases hg : dictGet? sub s.name with
                  | some w =>
                    obtain ⟨t, t1, t2, t3, t4⟩ := ((ha2 _ w).1 hg).resolve_left (by simp)
                    have := name_inj hnd (ha4 t t1)
                      (mem_hereOf.1 (hsl s (by simp [hs])).1).1 t2
                    subst this
                    rw [t4]
                  | none => exact hold
                obtain ⟨r, hr⟩ := (ihl (fun s hs => hsl s (by simp [hs])) _ hinv'
                  (dictUpdate_nodup _ hand) hhas').2 h
                refine ⟨r, ?_⟩
                simp only [Muxes.ofList, decodeMuxes, hcond, Bool.false_eq_true, if_false,
                  Except.bind_eq_ok]
                exact ⟨i, hmux, sub, hsubb, hr⟩
        · -- the selector is cut off: skipped
          have hk' : keeps data.length L tr p = false := by simpa using hk
          have htr : tr = true := by
            cases htr : tr with
            | true => rfl
            | false => rw [htr] at hk'; simp [keeps] at hk'
          have hnone : dictGet? acc p.name = none := by
            cases hg : dictGet? acc p.name with
            | none => rfl
            | some v =>
              obtain ⟨s, h1, h2, h3, _⟩ := hinv _ _ hg
              have := name_inj hnd h1 hpmem.1 h2
              subst this
              rw [hk'] at h3; cases h3
          have hskip : decSkip sigs L data.length tr p.name = true := by
            simp only [decSkip, hfind, hk']; rw [htr]; rfl
          have hsel : decSel fo sigs L d data.length dc sc tr p.name = none := by
            simp [decSel, hfind, hk']
          have hcond : (tr && (dictGet? acc p.name).isNone) = true := by simp [hnone, htr]
          have := ihl (fun s hs => hsl s (by simp [hs])) acc hinv hand
            (fun s hs => hhas s (by simp [hs]))
          simp only [Muxes.ofList, decodeMuxes, hcond, if_true, selMuxes, hsel, hskip]
          exact this
    obtain ⟨k1, k2⟩ := loop _ _ hms hsub first hinv hfnd hhas
    constructor
    · intro r h
      simp only [decodeNode, Except.bind_eq_ok] at h
      obtain ⟨f, hf, h⟩ := h
      rw [hfirst] at hf; cases hf
      obtain ⟨l, l1, l2, l3⟩ := k1 r h
      refine ⟨hereOf sigs parent id ++ l, by simp [selNode, l1], ?_, l3⟩
      intro n v
      rw [l2 n v, hfget]
      constructor
      · rintro (⟨s, h1, h2⟩ | ⟨s, h1, h2⟩)
        · exact .inr ⟨s, by simp [h1], h2⟩
        · exact .inr ⟨s, by simp [h1], h2⟩
      · rintro (h | ⟨s, h1, h2⟩)
        · simp at h
        · rcases List.mem_append.1 h1 with h1 | h1
          · exact .inl ⟨s, h1, h2⟩
          · exact .inr ⟨s, h1, h2⟩
    · intro h
      simp only [selNode, Option.isSome_map] at h
      obtain ⟨r, hr⟩ := k2 h
      refine ⟨r, ?_⟩
      simp only [decodeNode, Except.bind_eq_ok]
      exact ⟨first, hfirst, hr⟩

end

end Cantools
