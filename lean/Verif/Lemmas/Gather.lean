import Verif.Lemmas.AcceptedDecode

namespace Cantools
open Spec

theorem Accepted.gather {sigs : List Signal} {m : Message} (h : Accepted sigs m)
    (hnd : (sigs.map (·.name)).Nodup) (hb : ∀ s ∈ sigs, Built s.conversion)
    (data : List (String × Value)) :
    (∀ r, gatherSignals m data = .ok r →
      Selectable sigs (requested sigs data) ∧
      (∀ s, Present sigs (requested sigs data) s → (dictGet? data s.name).isSome) ∧
      (∀ n v, dictGet? r n = some v ↔ dictGet? data n = some v ∧
        ∃ s, Present sigs (requested sigs data) s ∧ s.name = n) ∧ (r.map (·.1)).Nodup) ∧
    (Selectable sigs (requested sigs data) →
      (∀ s, Present sigs (requested sigs data) s → (dictGet? data s.name).isSome) →
      ∃ r, gatherSignals m data = .ok r) := by
  have hsel := h.selNode (fun s hs => h.encSel hnd hb data hs)
  constructor
  · intro r hr
    obtain ⟨all, h1, h2, h3, h4⟩ := gatherNode_ok _ _ hr
    obtain ⟨k1, k2⟩ := hsel.1 all h1
    refine ⟨k2, fun s hs => h3 s ((k1 s).2 hs), ?_, h4⟩
    intro n v
    rw [h2]
    constructor
    · intro hg
      split at hg
      · rename_i hn
        obtain ⟨s, hs, hsn⟩ := List.mem_map.1 hn
        exact ⟨hg, s, (k1 s).1 hs, hsn⟩
      · cases hg
    · rintro ⟨hg, s, hs, hsn⟩
      rw [if_pos (List.mem_map.2 ⟨s, (k1 s).2 hs, hsn⟩)]; exact hg
  · intro hs hd
    obtain ⟨all, h1, h2⟩ := hsel.2 hs
    exact gatherNode_exists _ _ h1 fun s hs => hd s ((h2 s).1 hs)

section
variable {sigs : List Signal} {data : List (String × Value)}

theorem gatherFold_only (l : List Signal) (acc : List (String × Value)) :
    Only .encodeError (fun _ => ∀ s ∈ l, (dictGet? data s.name).isSome)
      (l.foldlM (fun acc s =>
        match dictGet? data s.name with
        | none => Except.error Err.encodeError
        | some v => .ok (dictSet acc s.name v)) acc) := by
  induction l generalizing acc with
  | nil => exact .ok (by simp)
  | cons s r ih =>
    simp only [List.foldlM_cons]
    cases hg : dictGet? data s.name with
    | none => exact .error
    | some v =>
      refine ⟨(ih _).1, fun x hx => ?_⟩
      have := (ih _).2 x hx
      simp only [List.mem_cons, forall_eq_or_imp]
      exact ⟨by rw [hg]; rfl, this⟩

theorem getMuxNumber_only {name : String} (hd : (dictGet? data name).isSome)
    (hs : ∃ s ∈ sigs, s.name = name) :
    Only .encodeError (fun _ : Int => True) (getMuxNumber sigs data name) := by
  obtain ⟨v, hv⟩ := Option.isSome_iff_exists.1 hd
  obtain ⟨s0, hs0, hn0⟩ := hs
  have hsb : ∃ s, signalByName sigs name = .ok s := by
    unfold signalByName
    cases hf : sigs.reverse.find? (fun s => s.name == name) with
    | some s => exact ⟨s, rfl⟩
    | none =>
      rw [List.find?_eq_none] at hf
      exact absurd (by simpa using hn0) (hf s0 (by simpa using hs0))
  obtain ⟨s, hs⟩ := hsb
  unfold getMuxNumber
  rw [hv]
  cases v with
  | num q => exact .ok trivial
  | str c =>
    simp only [hs]
    change Only _ _ ((s.conversion.choiceToNumber c).mapError _)
    cases s.conversion.choiceToNumber c with
    | error e => exact .error
    | ok i => exact .ok trivial
  | named nv =>
    simp only [hs]
    change Only _ _ ((s.conversion.choiceToNumber nv.name).mapError _)
    cases s.conversion.choiceToNumber nv.name with
    | error e => exact .error
    | ok i => exact .ok trivial

mutual
theorem gatherNode_only : ∀ c : Codec, Codec.WF sigs c →
    Only .encodeError (fun _ => True) (gatherNode sigs data c)
  | .mk signals muxes, hwf => by
    simp only [gatherNode]
    refine (gatherFold_only signals []).bind ?_
    intro acc hall
    exact gatherMuxes_only signals muxes acc hwf.1 hwf.2 hall
theorem gatherMuxes_only (here : List Signal) : ∀ (ms : Muxes) (acc : List (String × Value)),
    here.Sublist sigs → Muxes.WF sigs here ms → (∀ s ∈ here, (dictGet? data s.name).isSome) →
    Only .encodeError (fun _ => True) (gatherMuxes sigs data ms acc)
  | .nil, acc, _, _, _ => .ok trivial
  | .cons name branches rest, acc, hsub, hwf, hall => by
    simp only [gatherMuxes]
    obtain ⟨⟨s, hs, hn⟩, hb, hr⟩ := hwf
    refine (getMuxNumber_only (by rw [← hn]; exact hall s hs) ⟨s, hsub.subset hs, hn⟩).bind ?_
    intro i _
    refine (gatherBranch_only i branches hb).bind ?_
    intro sub _
    exact gatherMuxes_only here rest _ hsub hr hall
theorem gatherBranch_only (i : Int) : ∀ b : Branches, Branches.WF sigs b →
    Only .encodeError (fun _ => True) (gatherBranch sigs data i b)
  | .nil, _ => .error
  | .cons id c rest, hwf => by
    simp only [gatherBranch]
    split
    · exact gatherNode_only c hwf.1
    · exact gatherBranch_only i rest hwf.2
end

theorem encodeSignalValues_congr {signals : List Signal} {data' : List (String × Value)}
    {scaling : Bool} (h : ∀ s ∈ signals, dictGet? data' s.name = dictGet? data s.name) :
    encodeSignalValues signals data' scaling = encodeSignalValues signals data scaling := by
  unfold encodeSignalValues
  generalize ([] : List (String × Rat)) = acc
  induction signals generalizing acc with
  | nil => rfl
  | cons s r ih =>
    simp only [List.foldlM_cons]
    rw [h s (by simp)]
    congr 1
    funext a
    exact ih (fun t ht => h t (by simp [ht])) a

variable {data' : List (String × Value)} {fo : FloatOps} {L : Nat} {scaling : Bool}

mutual
/-- Encoding looks only at the values of selected signals. -/
theorem encodeNode_congr : ∀ (c : Codec) (all : List Signal), Codec.WF sigs c →
    selNode (fun _ => false) (encSel sigs data) c = some all →
    (∀ s ∈ all, dictGet? data' s.name = dictGet? data s.name) →
    encodeNode fo sigs L data' scaling c = encodeNode fo sigs L data scaling c
  | .mk signals muxes, all, hwf, h, hd => by
    simp only [selNode, Option.map_eq_some_iff] at h
    obtain ⟨l, hl, rfl⟩ := h
    simp only [encodeNode, encodeData]
    rw [encodeSignalValues_congr (data' := data') (data := data)
      (fun s hs => hd s (by simp [hs]))]
    congr 1
    funext e
    exact encodeMuxes_congr signals muxes l hwf.2 hl (fun s hs => hd s (by simp [hs]))
      (fun s hs => hd s (by simp [hs])) _
theorem encodeMuxes_congr (here : List Signal) : ∀ (ms : Muxes) (l : List Signal),
    Muxes.WF sigs here ms → selMuxes (fun _ => false) (encSel sigs data) ms = some l →
    (∀ s ∈ here, dictGet? data' s.name = dictGet? data s.name) →
    (∀ s ∈ l, dictGet? data' s.name = dictGet? data s.name) → ∀ acc,
    encodeMuxes fo sigs L data' scaling ms acc = encodeMuxes fo sigs L data scaling ms acc
  | .nil, l, _, _, _, _, acc => rfl
  | .cons name branches rest, l, hwf, h, hh, hd, (e0, m0, a0) => by
    obtain ⟨⟨s, hs, hn⟩, hb, hr⟩ := hwf
    simp only [selMuxes] at h
    have hg : getMuxNumber sigs data' name = getMuxNumber sigs data name :=
      getMuxNumber_congr (by rw [← hn]; exact hh s hs)
    cases hsn : encSel sigs data name with
    | none => rw [hsn] at h; simp at h
    | some i =>
      rw [hsn] at h
      simp only at h
      cases hbr : selBranch (fun _ => false) (encSel sigs data) i branches with
      | none => rw [hbr] at h; simp at h
      | some a =>
        rw [hbr] at h
        simp only [Option.map_eq_some_iff] at h
        obtain ⟨l', hl', rfl⟩ := h
        simp only [encodeMuxes]
        rw [hg, toOption_eq_some.1 hsn]
        change (encodeBranch fo sigs L data' scaling i branches >>= _) =
          (encodeBranch fo sigs L data scaling i branches >>= _)
        rw [encodeBranch_congr i branches a hb hbr (fun s hs => hd s (by simp [hs]))]
        congr 1
        funext x
        exact encodeMuxes_congr here rest l' hr hl' hh (fun s hs => hd s (by simp [hs])) _
theorem encodeBranch_congr (i : Int) : ∀ (b : Branches) (l : List Signal), Branches.WF sigs b →
    selBranch (fun _ => false) (encSel sigs data) i b = some l →
    (∀ s ∈ l, dictGet? data' s.name = dictGet? data s.name) →
    encodeBranch fo sigs L data' scaling i b = encodeBranch fo sigs L data scaling i b
  | .nil, l, _, h, _ => rfl
  | .cons id c rest, l, hwf, h, hd => by
    simp only [selBranch] at h
    simp only [encodeBranch]
    split at h
    · rename_i hid; rw [if_pos hid, if_pos hid]; exact encodeNode_congr c l hwf.1 h hd
    · rename_i hid; rw [if_neg hid, if_neg hid]; exact encodeBranch_congr i rest l hwf.2 h hd
end

end

end Cantools
