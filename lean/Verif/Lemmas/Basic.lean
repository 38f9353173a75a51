import Verif.Model.Base

namespace Cantools

theorem Except.bind_eq_ok {ε α β : Type} {x : Except ε α} {f : α → Except ε β} {b : β} :
    (x >>= f) = .ok b ↔ ∃ a, x = .ok a ∧ f a = .ok b := by
  cases x <;> simp [bind, Except.bind]

theorem Except.pure_eq_ok {ε α : Type} {a b : α} :
    (pure a : Except ε α) = .ok b ↔ a = b := by
  simp [pure, Except.pure]

theorem Except.map_eq_ok {ε α β : Type} {x : Except ε α} {f : α → β} {b : β} :
    x.map f = .ok b ↔ ∃ a, x = .ok a ∧ f a = b := by
  cases x <;> simp [Except.map]

theorem Except.mapError_eq_ok {ε ε' α : Type} {x : Except ε α} {f : ε → ε'} {b : α} :
    x.mapError f = .ok b ↔ x = .ok b := by
  cases x <;> simp [Except.mapError]

section dict
variable {κ α : Type} [DecidableEq κ]

@[simp] theorem dictGet?_nil (k : κ) : dictGet? ([] : List (κ × α)) k = none := rfl

theorem dictGet?_cons (k' : κ) (v : α) (r : List (κ × α)) (k : κ) :
    dictGet? ((k', v) :: r) k = if k' = k then some v else dictGet? r k := rfl

theorem dictGet_eq_ok {d : List (κ × α)} {k : κ} {v : α} :
    dictGet d k = .ok v ↔ dictGet? d k = some v := by
  unfold dictGet; cases dictGet? d k <;> simp

theorem dictGet?_set (d : List (κ × α)) (k k' : κ) (v : α) :
    dictGet? (dictSet d k v) k' = if k = k' then some v else dictGet? d k' := by
  induction d with
  | nil => simp [dictSet, dictGet?]
  | cons x r ih =>
    obtain ⟨k0, v0⟩ := x
    simp only [dictSet]
    by_cases h : k0 = k
    · subst h
      simp only [if_true, dictGet?_cons]
      by_cases h2 : k0 = k' <;> simp [h2]
    · simp only [h, if_false, dictGet?_cons, ih]
      by_cases h2 : k0 = k'
      · subst h2
        simp [Ne.symm h]
      · simp [h2]

theorem dictGet?_update (d e : List (κ × α)) (k : κ) :
    dictGet? (dictUpdate d e) k =
      match dictGet? (e.reverse) k with
      | some v => some v
      | none => dictGet? d k := by
  unfold dictUpdate
  induction e generalizing d with
  | nil => simp
  | cons x r ih =>
    simp only [List.foldl_cons, List.reverse_cons]
    rw [ih]
    have happ : ∀ (a b : List (κ × α)), dictGet? (a ++ b) k =
        match dictGet? a k with | some v => some v | none => dictGet? b k := by
      intro a b
      induction a with
      | nil => simp
      | cons y t iha =>
        obtain ⟨k1, v1⟩ := y
        simp only [List.cons_append, dictGet?_cons, iha]
        by_cases h : k1 = k <;> simp [h]
    rw [happ]
    cases hr : dictGet? r.reverse k with
    | some v => rfl
    | none =>
      obtain ⟨x1, x2⟩ := x
      simp only [dictGet?_set, dictGet?_cons, dictGet?_nil]
      by_cases h : x1 = k <;> simp [h]

theorem dictGet?_append (a b : List (κ × α)) (k : κ) : dictGet? (a ++ b) k =
    match dictGet? a k with | some v => some v | none => dictGet? b k := by
  induction a with
  | nil => simp
  | cons y t iha =>
    obtain ⟨k1, v1⟩ := y
    simp only [List.cons_append, dictGet?_cons, iha]
    by_cases h : k1 = k <;> simp [h]

theorem dictGet?_eq_none_iff (d : List (κ × α)) (k : κ) :
    dictGet? d k = none ↔ k ∉ d.map (·.1) := by
  induction d with
  | nil => simp
  | cons x r ih =>
    obtain ⟨k0, v0⟩ := x
    simp only [dictGet?_cons, List.map_cons, List.mem_cons, not_or]
    by_cases h : k0 = k
    · simp [h]
    · simp [h, ih, Ne.symm h]

theorem dictGet?_mem {d : List (κ × α)} {k : κ} {v : α} (h : dictGet? d k = some v) :
    (k, v) ∈ d := by
  induction d with
  | nil => simp at h
  | cons x r ih =>
    obtain ⟨k0, v0⟩ := x
    rw [dictGet?_cons] at h
    by_cases hk : k0 = k
    · simp only [hk, if_true, Option.some.injEq] at h
      simp [hk, h]
    · simp only [hk, if_false] at h
      exact List.mem_cons_of_mem _ (ih h)

theorem dictGet?_of_mem {d : List (κ × α)} {k : κ} {v : α} (hnd : (d.map (·.1)).Nodup)
    (h : (k, v) ∈ d) : dictGet? d k = some v := by
  induction d with
  | nil => simp at h
  | cons x r ih =>
    obtain ⟨k0, v0⟩ := x
    simp only [List.map_cons, List.nodup_cons] at hnd
    rw [dictGet?_cons]
    rcases List.mem_cons.1 h with h | h
    · cases h; simp
    · have : k0 ≠ k := by
        intro e; subst e
        exact hnd.1 (List.mem_map.2 ⟨(k0, v), h, rfl⟩)
      simp [this, ih hnd.2 h]

theorem dictSet_keys (d : List (κ × α)) (k : κ) (v : α) :
    (dictSet d k v).map (·.1) = if k ∈ d.map (·.1) then d.map (·.1) else d.map (·.1) ++ [k] := by
  induction d with
  | nil => simp [dictSet]
  | cons x r ih =>
    obtain ⟨k0, v0⟩ := x
    simp only [dictSet]
    by_cases h : k0 = k
    · simp [h]
    · simp only [h, if_false, List.map_cons, ih, List.mem_cons, Ne.symm h, false_or]
      by_cases h2 : k ∈ r.map (·.1) <;> simp [h2]

theorem dictSet_nodup {d : List (κ × α)} (k : κ) (v : α) (h : (d.map (·.1)).Nodup) :
    ((dictSet d k v).map (·.1)).Nodup := by
  rw [dictSet_keys]
  split
  · exact h
  · rename_i hk
    rw [List.nodup_append]
    refine ⟨h, by simp, ?_⟩
    intro a ha b hb hab
    simp at hb
    subst hb; subst hab; exact hk ha

theorem dictUpdate_nodup {d : List (κ × α)} (e : List (κ × α)) (h : (d.map (·.1)).Nodup) :
    ((dictUpdate d e).map (·.1)).Nodup := by
  unfold dictUpdate
  induction e generalizing d with
  | nil => simpa
  | cons x r ih => exact ih (dictSet_nodup _ _ h)

theorem dictSet_append_of_not_mem {d : List (κ × α)} {k : κ} (v : α) (h : k ∉ d.map (·.1)) :
    dictSet d k v = d ++ [(k, v)] := by
  induction d with
  | nil => rfl
  | cons x r ih =>
    obtain ⟨k0, v0⟩ := x
    simp only [List.map_cons, List.mem_cons, not_or] at h
    simp [dictSet, Ne.symm h.1, ih h.2]

end dict

end Cantools
