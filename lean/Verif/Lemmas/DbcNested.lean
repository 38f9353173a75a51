import Verif.Lemmas.DbcKept
import Verif.Spec.DbcRelations

/-
Dictionaries of dictionaries that are filled entry by entry, and dictionaries of which some entries are
replaced.
-/

namespace Cantools.Dbc
open Cantools Spec

section nested
variable {κ α β ι : Type} [DecidableEq κ]

theorem dictSet_last {d : List (κ × β)} {k : κ} (x y : β) (h : k ∉ d.map (·.1)) :
    dictSet (d ++ [(k, x)]) k y = d ++ [(k, y)] := by
  induction d with
  | nil => simp [dictSet]
  | cons e r ih =>
    obtain ⟨i, v⟩ := e
    simp only [List.map_cons, List.mem_cons, not_or] at h
    simp [dictSet, Ne.symm h.1, ih h.2]

theorem dictGet?_last {d : List (κ × β)} {k : κ} (x : β) (h : k ∉ d.map (·.1)) :
    dictGet? (d ++ [(k, x)]) k = some x := by
  induction d with
  | nil => simp [dictGet?]
  | cons e r ih =>
    obtain ⟨i, v⟩ := e
    simp only [List.map_cons, List.mem_cons, not_or] at h
    rw [List.cons_append, dictGet?_cons, ih h.2]
    simp [Ne.symm h.1]

theorem accum_same (g : Option β → α → β) {d : List (κ × β)} {k : κ} (h : k ∉ d.map (·.1)) (ps : List α) :
    ∀ x y, ps.foldl (fun o p => some (g o p)) (some x) = some y →
      accum g (d ++ [(k, x)]) (ps.map fun p => (k, p)) = d ++ [(k, y)] := by
  induction ps with
  | nil => intro x y hx; cases hx; rfl
  | cons p r ih =>
    intro x y hx
    rw [List.foldl_cons] at hx
    have := ih _ _ hx
    rw [← this]
    unfold accum
    rw [List.map_cons, List.foldl_cons, dictGet?_last x h, dictSet_last _ _ h]

theorem accum_append (g : Option β → α → β) (d : List (κ × β)) (a b : List (κ × α)) :
    accum g d (a ++ b) = accum g (accum g d a) b := by
  unfold accum; rw [List.foldl_append]

/-- A dictionary is filled again with the items of its values. -/
theorem accum_items {g : Option β → α → β} {items : β → List α} {l : List (κ × β)} (hnd : (l.map (·.1)).Nodup)
    (h : ∀ e ∈ l, (items e.2).foldl (fun o p => some (g o p)) none = some e.2) :
    accum g [] (allPairs (·.1) (fun e => items e.2) l) = l := by
  suffices ∀ (l : List (κ × β)) (d : List (κ × β)), ((d ++ l).map (·.1)).Nodup →
      (∀ e ∈ l, (items e.2).foldl (fun o p => some (g o p)) none = some e.2) →
      accum g d (allPairs (·.1) (fun e => items e.2) l) = d ++ l by
    have := this l [] (by simpa using hnd) h
    simpa using this
  intro l
  induction l with
  | nil => intro d _ _; simp [allPairs, accum]
  | cons e r ih =>
    intro d hd hl
    have hk : e.1 ∉ d.map (·.1) := by
      rw [List.map_append, List.map_cons, List.nodup_append] at hd
      intro hm
      exact hd.2.2 _ hm _ (by simp) rfl
    have he := hl e (by simp)
    have h1 : accum g d ((items e.2).map fun p => (e.1, p)) = d ++ [e] := by
      cases hi : items e.2 with
      | nil => rw [hi] at he; cases he
      | cons p ps =>
        rw [hi, List.foldl_cons] at he
        have := accum_same g hk ps _ _ he
        refine Eq.trans ?_ this
        unfold accum
        rw [List.map_cons, List.foldl_cons, (dictGet?_eq_none_iff _ _).2 hk, dictSet_append_of_not_mem _ hk]
    have : allPairs (·.1) (fun e => items e.2) (e :: r) =
        ((items e.2).map fun p => (e.1, p)) ++ allPairs (·.1) (fun e => items e.2) r := by
      unfold allPairs; rw [List.flatMap_cons]
    rw [this, accum_append, h1, ih (d ++ [e]) (by simpa using hd) fun x hx => hl x (List.mem_cons_of_mem _ hx)]
    simp

/-- A dictionary in a dictionary, filled with a path. -/
def nestWith (g : Option β → α → β) : Option (List (κ × β)) → κ × α → List (κ × β) :=
  fun o p => dictSet (o.getD []) p.1 (g (dictGet? (o.getD []) p.1) p.2)

theorem fold_nest (g : Option β → α → β) (ps : List (κ × α)) : ∀ o, ps ≠ [] →
    ps.foldl (fun o p => some (nestWith g o p)) o = some (accum g (o.getD []) ps) := by
  induction ps with
  | nil => intro o h; exact absurd rfl h
  | cons p r ih =>
    intro o _
    rw [List.foldl_cons]
    cases r with
    | nil => rfl
    | cons q r => rw [ih _ (by simp)]; rfl

/-- A dictionary of this kind is filled with its own items. -/
theorem fill_items {g : Option β → α → β} {items : β → List α} {l : List (κ × β)} (hne : l ≠ [])
    (hnd : (l.map (·.1)).Nodup) (h : ∀ e ∈ l, (items e.2).foldl (fun o p => some (g o p)) none = some e.2) :
    (allPairs (·.1) (fun e => items e.2) l).foldl (fun o p => some (nestWith g o p)) none = some l := by
  rw [fold_nest]
  · exact congrArg some (accum_items hnd h)
  · intro hc
    obtain ⟨e, r, rfl⟩ := List.exists_cons_of_ne_nil hne
    have he := h e (by simp)
    unfold allPairs at hc
    rw [List.flatMap_cons] at hc
    have : items e.2 = [] := by
      have := (List.append_eq_nil_iff.1 hc).1
      simpa using this
    rw [this] at he
    cases he

/-! ### Replacing entries -/

theorem dictSet_map {d : List (κ × β)} (hnd : (d.map (·.1)).Nodup) {k : κ} {x : β} (h : dictGet? d k = some x)
    (y : β) : dictSet d k y = d.map fun e => (e.1, if e.1 = k then y else e.2) := by
  induction d with
  | nil => cases h
  | cons e r ih =>
    obtain ⟨i, v⟩ := e
    rw [List.map_cons, List.nodup_cons] at hnd
    rw [dictGet?_cons] at h
    by_cases hi : i = k
    · subst hi
      have : r.map (fun e => (e.1, if e.1 = i then y else e.2)) = r := by
        conv_rhs => rw [← List.map_id r]
        apply List.map_congr_left
        intro e he
        rw [if_neg]
        · rfl
        · intro hei
          exact hnd.1 (List.mem_map.2 ⟨e, he, hei⟩)
      simp [dictSet, this]
    · simp [hi] at h
      simp [dictSet, hi, ih hnd.2 h]

/-- Some entries of a dictionary are replaced, one for each object. -/
def replaceAll (key : ι → κ) (h : ι → β → β) (ms : List ι) (d : List (κ × β)) : List (κ × β) :=
  ms.foldl (fun d m => match dictGet? d (key m) with
    | none => d
    | some x => dictSet d (key m) (h m x)) d

theorem replaceAll_eq {key : ι → κ} {h : ι → β → β} {ms : List ι} (hms : (ms.map key).Nodup) {d : List (κ × β)}
    (hnd : (d.map (·.1)).Nodup) : replaceAll key h ms d = d.map fun e =>
      (e.1, match ms.find? (fun m => decide (key m = e.1)) with
        | none => e.2
        | some m => h m e.2) := by
  induction ms generalizing d with
  | nil =>
    unfold replaceAll
    simp
  | cons m r ih =>
    rw [List.map_cons, List.nodup_cons] at hms
    have hstep : (match dictGet? d (key m) with
        | none => d
        | some x => dictSet d (key m) (h m x)) = d.map fun e => (e.1, if e.1 = key m then h m e.2 else e.2) := by
      cases hg : dictGet? d (key m) with
      | none =>
        conv_lhs => rw [← List.map_id d]
        apply List.map_congr_left
        intro e he
        rw [if_neg]
        · rfl
        · intro hk
          exact (dictGet?_eq_none_iff _ _).1 hg (hk ▸ List.mem_map_of_mem he)
      | some x =>
        show dictSet _ _ _ = _
        rw [dictSet_map hnd hg]
        apply List.map_congr_left
        intro e he
        by_cases hk : e.1 = key m
        · rw [if_pos hk, if_pos hk]
          have := dictGet?_of_mem hnd (k := e.1) (v := e.2) he
          rw [hk, hg] at this
          cases this
          rfl
        · rw [if_neg hk, if_neg hk]
    have : replaceAll key h (m :: r) d = replaceAll key h r (d.map fun e => (e.1, if e.1 = key m then h m e.2 else e.2)) := by
      unfold replaceAll
      rw [List.foldl_cons, ← hstep]
    rw [this, ih hms.2 (by rw [List.map_map]; exact hnd), List.map_map]
    apply List.map_congr_left
    intro e he
    simp only [Function.comp_apply]
    by_cases hk : e.1 = key m
    · have h1 : r.find? (fun m => decide (key m = e.1)) = none := by
        rw [List.find?_eq_none]
        intro x hx
        simp only [decide_eq_true_eq]
        intro hxe
        exact hms.1 (hk ▸ hxe ▸ List.mem_map_of_mem hx)
      rw [h1, if_pos hk, List.find?_cons_of_pos (by simpa using hk.symm)]
    · rw [if_neg hk, List.find?_cons_of_neg (by simpa using Ne.symm hk)]

theorem renameSignals_eq {ρ : Chars → Chars} {l : List (Chars × α)} (h : (l.map fun e => ρ e.1).Nodup) :
    renameSignals ρ l = l.map fun e => (ρ e.1, e.2) := by
  have : renameSignals ρ l = dictUpdate [] (l.map fun e => (ρ e.1, e.2)) := by
    unfold renameSignals dictUpdate
    rw [List.foldl_map]
  rw [this]
  apply dictUpdate_nil
  rw [List.map_map]
  exact h

end nested

end Cantools.Dbc
