import Verif.Spec.Similar
import Verif.Lemmas.Basic
import Mathlib.Data.Fintype.Card
import Mathlib.Data.Fintype.Prod

set_option linter.unusedSimpArgs false

namespace Cantools.Similar
open Cantools Cantools.Spec.Similar

variable {α : Type}

theorem mem_insertStr {a x : String} {l : List String} : x ∈ insertStr a l ↔ x = a ∨ x ∈ l := by
  induction l with
  | nil => simp [insertStr]
  | cons b r ih =>
    simp only [insertStr]
    split
    · simp
    · simp only [List.mem_cons, ih]; tauto

theorem mem_sortStr {x : String} {l : List String} : x ∈ sortStr l ↔ x ∈ l := by
  unfold sortStr
  induction l with
  | nil => simp
  | cons a r ih => simp [mem_insertStr, ih]

theorem mem_names {fmt : Bool} {attrs : List (String × α)} (hnd : (attrs.map (·.1)).Nodup) :
    names fmt attrs = (attrs.map (·.1)).filter (listed fmt) := by
  unfold names
  cases fmt with
  | true =>
    have : (listed true) = fun _ => true := by funext n; simp [listed]
    simp [this]
  | false =>
    simp only [Bool.false_eq_true, if_false]
    rw [hnd.erase_eq_filter, (hnd.filter _).erase_eq_filter, List.filter_filter]
    apply List.filter_congr
    intro n _
    by_cases h1 : n = "dbc" <;> by_cases h2 : n = "autosar" <;>
      simp [listed, h1, h2, bne, Bool.and_comm]

/-- No difference is found between two objects exactly if they are compatible. -/
theorem nodeDiffs_nil {h : α → Node α} (hnd : DistinctNames h) {fmt : Bool} {tol : Rat} (a b : α) :
    nodeDiffs fmt tol (h a) (h b) = [] ↔ Compatible fmt tol (h a) (h b) := by
  have ha := hnd a
  have hb := hnd b
  generalize h a = x at *
  generalize h b = y at *
  unfold nodeDiffs
  cases x <;> cases y <;> simp only [Node.type, Compatible, ne_eq, Prod.mk.injEq, reduceCtorEq,
    false_and, not_false_eq_true, if_true, true_and, ite_not, List.cons_ne_nil]
  · split <;> simp_all
  · split
    · split <;> simp_all
    · simp_all
  · unfold Close
    split
    · split
      · rename_i h; simp [not_le.2 h]
      · rename_i h; simp [not_lt.1 h]
    · split
      · rename_i h; simp [not_le.2 h]
      · rename_i h; simp [not_lt.1 h]
  · split
    · split <;> simp_all
    · simp_all
  · rename_i t xs t' ys
    by_cases ht : t = t'
    · simp only [ht, true_and, if_true, List.append_eq_nil_iff, List.map_eq_nil_iff,
        List.filter_eq_nil_iff, mem_sortStr]
      constructor
      · rintro ⟨h1, h2⟩ k
        constructor
        · intro hk
          have := h1 k hk
          simpa using this
        · intro hk
          have := h2 k hk
          simpa using this
      · intro hk
        exact ⟨fun k h1 => by simpa using (hk k).1 h1, fun k h1 => by simpa using (hk k).2 h1⟩
    · simp [ht]
  · rename_i t xs t' ys
    rw [mem_names (ha _ _ rfl), mem_names (hb _ _ rfl)]
    split
    · split <;> simp_all
    · simp_all

theorem hasAttr_eq (attrs : List (String × α)) (n : String) :
    hasAttr attrs n = (attrs.map (·.1)).contains n := by
  unfold hasAttr
  induction attrs with
  | nil => rfl
  | cons x r ih => 
    simp only [List.any_cons, ih, List.map_cons, List.contains_cons]
    congr 1
    exact Bool.beq_comm

/-- The targets of the loop over the attribute names are the compared attributes. -/
theorem target_iff {fmt : Bool} {attrs : List (String × α)} (hnd : (attrs.map (·.1)).Nodup)
    (n : String) :
    (∃ name ∈ names fmt attrs, target attrs name = some n) ↔
      compared fmt attrs n = true ∧ n ∈ attrs.map (·.1) := by
  simp only [mem_names hnd, List.mem_filter, compared, target, hasAttr_eq, List.contains_iff_mem,
    Bool.and_eq_true, beq_iff_eq]
  generalize attrs.map (·.1) = ks
  constructor
  · rintro ⟨name, ⟨h1, h2⟩, h3⟩
    split at h3
    · rename_i hc
      cases h3
      simp [hc.2, ← hc.1, h1]
    · split at h3
      · rename_i hc
        cases h3
        simp [hc.2, ← hc.1, h1]
      · split at h3
        · cases h3
        · rename_i g1 g2 g3
          cases h3
          have e1 : n ≠ "_frame_id_to_message" := by rintro rfl; simp at g3
          have e2 : n ≠ "_signal_dict" := by rintro rfl; simp at g3
          simp only [if_neg e1, if_neg e2, h1, and_true, h2, Bool.not_eq_true', Bool.and_eq_true, true_and]
          refine ⟨⟨?_, ?_⟩, ?_⟩
          · simpa using g3
          · simp; intro he hm hf; exact g1 ⟨he, hf⟩
          · simp; intro he hm hf; exact g2 ⟨he, hf⟩
  · rintro ⟨h1, h2⟩
    split at h1
    · rename_i e
      refine ⟨"messages", ⟨by simp at h1; exact h1.1, by cases fmt <;> decide⟩, ?_⟩
      simp at h1
      simp [h1.2, e]
    · split at h1
      · rename_i e
        refine ⟨"signals", ⟨by simp at h1; exact h1.1, by cases fmt <;> decide⟩, ?_⟩
        simp at h1
        simp [h1.2, e]
      · simp only [Bool.and_eq_true, Bool.not_eq_true'] at h1
        obtain ⟨⟨⟨a1, a2⟩, a3⟩, a4⟩ := h1
        refine ⟨n, ⟨h2, a1⟩, ?_⟩
        rw [if_neg, if_neg, if_neg]
        · simpa using a2
        · rintro ⟨rfl, h⟩; simp [h, h2] at a4
        · rintro ⟨rfl, h⟩; simp [h, h2] at a3

theorem compared_congr {fmt : Bool} {xs ys : List (String × α)}
    (h : (xs.map (·.1)).filter (listed fmt) = (ys.map (·.1)).filter (listed fmt)) (n : String) :
    compared fmt xs n = compared fmt ys n := by
  have key : ∀ k, listed fmt k = true →
      (xs.map (·.1)).contains k = (ys.map (·.1)).contains k := by
    intro k hk
    rw [Bool.eq_iff_iff, List.contains_iff_mem, List.contains_iff_mem]
    have : k ∈ (xs.map (·.1)).filter (listed fmt) ↔ k ∈ (ys.map (·.1)).filter (listed fmt) := by
      rw [h]
    simpa [List.mem_filter, hk] using this
  unfold compared
  simp only [key "messages" (by cases fmt <;> decide), key "signals" (by cases fmt <;> decide),
    key "_signal_dict" (by cases fmt <;> decide),
    key "_frame_id_to_message" (by cases fmt <;> decide)]

/-- The pairs that are compared next are the objects found by one access on both sides. -/
theorem mem_nodePairs {h : α → Node α} (hnd : DistinctNames h) {fmt : Bool} {a b : α}
    {acc : Access} {x y : α} (hp : (acc, x, y) ∈ nodePairs fmt (h a) (h b)) :
    step fmt (h a) acc = some x ∧ step fmt (h b) acc = some y := by
  have ha := hnd a
  have hb := hnd b
  generalize h a = p at *
  generalize h b = q at *
  unfold nodePairs at hp
  split at hp
  · cases hp
  · cases p <;> cases q <;> simp only [List.not_mem_nil] at hp
    · rename_i t xs t' ys _
      simp only [List.mem_map, List.mem_zipIdx_iff_getElem?, Prod.exists, Prod.mk.injEq] at hp
      obtain ⟨u, v, i, h1, rfl, rfl, rfl⟩ := hp
      rw [List.getElem?_zip_eq_some] at h1
      exact h1
    · simp only [List.mem_filterMap] at hp
      obtain ⟨k, _, h2⟩ := hp
      split at h2
      · rename_i h3 h4
        cases h2
        exact ⟨h3, h4⟩
      · cases h2
    · rename_i t xs t' ys _
      split at hp
      · cases hp
      · rename_i hn
        simp only [ne_eq, not_not] at hn
        simp only [List.mem_filterMap] at hp
        obtain ⟨name, hnm, h2⟩ := hp
        rw [Option.bind_eq_some_iff] at h2
        obtain ⟨n, hn', h2⟩ := h2
        split at h2
        · rename_i h3 h4
          cases h2
          have c1 := (target_iff (fmt := fmt) (ha _ _ rfl) n).1 ⟨name, hnm, hn'⟩
          refine ⟨by simp [step, c1.1, h3], ?_⟩
          have : compared fmt ys n = true := by
            rw [mem_names (ha _ _ rfl), mem_names (hb _ _ rfl)] at hn
            rw [← compared_congr hn]; exact c1.1
          simp [step, this, h4]
        · cases h2

theorem dictGet?_isSome_iff {κ β : Type} [DecidableEq κ] {d : List (κ × β)} {k : κ} :
    (dictGet? d k).isSome = true ↔ k ∈ d.map (·.1) := by
  cases hd : dictGet? d k with
  | none => simpa using (dictGet?_eq_none_iff d k).1 hd
  | some v => simpa using ⟨v, dictGet?_mem hd⟩

/-- An access is possible on both sides of compatible objects or on none, and leads to a pair that is
compared. -/
theorem step_nodePairs {h : α → Node α} (hnd : DistinctNames h) {fmt : Bool} {tol : Rat} {a b : α}
    (hc : Compatible fmt tol (h a) (h b)) (acc : Access) :
    (∃ x y, step fmt (h a) acc = some x ∧ step fmt (h b) acc = some y ∧
      (acc, x, y) ∈ nodePairs fmt (h a) (h b)) ∨
    (step fmt (h a) acc = none ∧ step fmt (h b) acc = none) := by
  have ha := hnd a
  have hb := hnd b
  generalize h a = p at *
  generalize h b = q at *
  cases p <;> cases q <;> simp only [Compatible] at hc
  · right; cases acc <;> simp [step]
  · right; cases acc <;> simp [step]
  · right; cases acc <;> simp [step]
  · rename_i t xs t' ys
    obtain ⟨rfl, hl⟩ := hc
    cases acc with
    | index i =>
      by_cases hi : i < xs.length
      · left
        refine ⟨xs[i], ys[i], by simp [step, hi], by simp [step, ← hl, hi], ?_⟩
        simp only [nodePairs, ne_eq, not_true_eq_false, if_false, List.mem_map,
          List.mem_zipIdx_iff_getElem?, Prod.exists, Prod.mk.injEq, Node.type]
        exact ⟨xs[i], ys[i], i, by rw [List.getElem?_zip_eq_some]; simp [hi, ← hl], rfl, rfl, rfl⟩
      · right
        simp [step, ← hl, not_lt.1 hi]
    | key => right; simp [step]
    | attr => right; simp [step]
  · rename_i t xs t' ys
    obtain ⟨rfl, hk⟩ := hc
    cases acc with
    | key k =>
      have h1 := dictGet?_isSome_iff (d := xs) (k := k)
      have h2 := dictGet?_isSome_iff (d := ys) (k := k)
      have h3 := hk k
      cases hx : dictGet? xs k with
      | none =>
        right
        rw [hx] at h1
        have : ¬ (dictGet? ys k).isSome = true := by
          rw [h2, ← h3, ← h1]; simp
        exact ⟨hx, by simpa [step] using this⟩
      | some x =>
        left
        rw [hx] at h1
        have hmem := h1.1 rfl
        have : (dictGet? ys k).isSome = true := by rw [h2, ← h3]; exact hmem
        obtain ⟨y, hy⟩ := Option.isSome_iff_exists.1 this
        refine ⟨x, y, hx, hy, ?_⟩
        simp only [nodePairs, ne_eq, not_true_eq_false, if_false, Node.type, List.mem_filterMap]
        exact ⟨k, mem_sortStr.2 hmem, by simp [hx, hy]⟩
    | index => right; simp [step]
    | attr => right; simp [step]
  · rename_i t xs t' ys
    obtain ⟨rfl, hk⟩ := hc
    cases acc with
    | attr n =>
      have hcmp := compared_congr hk n
      by_cases hcm : compared fmt xs n = true
      · have hcm' : compared fmt ys n = true := by rw [← hcmp]; exact hcm
        have hn : names fmt xs = names fmt ys := by
          rw [mem_names (ha _ _ rfl), mem_names (hb _ _ rfl)]; exact hk
        by_cases hmem : n ∈ xs.map (·.1)
        · left
          obtain ⟨name, hname, htgt⟩ := (target_iff (fmt := fmt) (ha _ _ rfl) n).2 ⟨hcm, hmem⟩
          have hmem' : n ∈ ys.map (·.1) := by
            have hl : listed fmt n = true := by
              unfold compared at hcm
              split at hcm
              · rename_i e; rw [beq_iff_eq] at e; subst e; cases fmt <;> decide
              · split at hcm
                · rename_i e; rw [beq_iff_eq] at e; subst e; cases fmt <;> decide
                · simp only [Bool.and_eq_true] at hcm; exact hcm.1.1.1
            have : n ∈ (xs.map (·.1)).filter (listed fmt) := List.mem_filter.2 ⟨hmem, hl⟩
            rw [hk] at this
            exact (List.mem_filter.1 this).1
          obtain ⟨x, hx⟩ := Option.isSome_iff_exists.1 (dictGet?_isSome_iff.2 hmem)
          obtain ⟨y, hy⟩ := Option.isSome_iff_exists.1 (dictGet?_isSome_iff.2 hmem')
          refine ⟨x, y, by simp [step, hcm, hx], by simp [step, hcm', hy], ?_⟩
          simp only [nodePairs, ne_eq, not_true_eq_false, if_false, Node.type, hn,
            List.mem_filterMap]
          rw [← hn]
          exact ⟨name, hname, by simp [htgt, hx, hy]⟩
        · right
          have hmem' : n ∉ ys.map (·.1) := by
            intro hm
            obtain ⟨name, hname, htgt⟩ := (target_iff (fmt := fmt) (hb _ _ rfl) n).2 ⟨hcm', hm⟩
            have hl : listed fmt n = true := by
              unfold compared at hcm
              split at hcm
              · rename_i e; rw [beq_iff_eq] at e; subst e; cases fmt <;> decide
              · split at hcm
                · rename_i e; rw [beq_iff_eq] at e; subst e; cases fmt <;> decide
                · simp only [Bool.and_eq_true] at hcm; exact hcm.1.1.1
            have : n ∈ (ys.map (·.1)).filter (listed fmt) := List.mem_filter.2 ⟨hm, hl⟩
            rw [← hk] at this
            exact hmem (List.mem_filter.1 this).1
          simp only [step, hcm, hcm', if_true]
          exact ⟨(dictGet?_eq_none_iff _ _).2 hmem, (dictGet?_eq_none_iff _ _).2 hmem'⟩
      · right
        have hcm' : ¬ compared fmt ys n = true := by rw [← hcmp]; exact hcm
        simp [step, hcm, hcm']
    | index => right; simp [step]
    | key => right; simp [step]

/-! ### The traversal -/

section
variable {h : α → Node α} {ident : α → Nat} {fmt : Bool} {tol : Rat}

/-- What holds after comparing a list of pairs with `f`, if it holds after every single one. -/
theorem foldlM_ind {β : Type} {f : State → β → Option State} {R : State → State → Prop}
    (hrefl : ∀ s, R s s) (htrans : ∀ s t u, R s t → R t u → R s u) :
    ∀ {l : List β} {s s' : State}, (∀ x ∈ l, ∀ t t', f t x = some t' → R t t') →
      l.foldlM f s = some s' → R s s' := by
  intro l
  induction l with
  | nil => intro s s' _ h; simp at h; subst h; exact hrefl _
  | cons x r ih =>
    intro s s' hf h
    simp only [List.foldlM_cons, Option.bind_eq_bind, Option.bind_eq_some_iff] at h
    obtain ⟨t, h1, h2⟩ := h
    exact htrans _ t _ (hf x (by simp) _ _ h1) (ih (fun y hy => hf y (by simp [hy])) h2)

/-- `seen` and `diffs` only grow. -/
theorem compare_mono {fuel : Nat} {a b : α} {path : List Access} {st st' : State}
    (hc : compare h ident fmt tol fuel a b path st = some st') :
    (∀ p ∈ st.seen, p ∈ st'.seen) ∧ st.diffs <+: st'.diffs ∧ (ident a, ident b) ∈ st'.seen := by
  induction fuel generalizing a b path st st' with
  | zero => simp [compare] at hc
  | succ fuel ih =>
    simp only [compare] at hc
    split at hc
    · rename_i hs
      cases hc
      exact ⟨fun p hp => hp, List.prefix_rfl, hs⟩
    · have := foldlM_ind (R := fun s t => (∀ p ∈ s.seen, p ∈ t.seen) ∧ s.diffs <+: t.diffs)
        (fun s => ⟨fun p hp => hp, List.prefix_rfl⟩)
        (fun s t u h1 h2 => ⟨fun p hp => h2.1 p (h1.1 p hp), h1.2.trans h2.2⟩)
        (fun x _ t t' ht => ⟨(ih ht).1, (ih ht).2.1⟩) hc
      refine ⟨fun p hp => this.1 p (by simp [hp]), ?_, this.1 _ (by simp)⟩
      exact (List.prefix_append _ _).trans this.2

/-- Every difference found is one of two objects at the end of its path. -/
theorem compare_sound (hnd : DistinctNames h) {fuel : Nat} {a b : α} {path : List Access}
    {st st' : State} (hc : compare h ident fmt tol fuel a b path st = some st') {d : Diff}
    (hd : d ∈ st'.diffs) :
    d ∈ st.diffs ∨ ∃ suffix x y, d.path = path ++ suffix ∧ walk h fmt a suffix = some x ∧
      walk h fmt b suffix = some y ∧ d.reason ∈ nodeDiffs fmt tol (h x) (h y) := by
  induction fuel generalizing a b path st st' with
  | zero => simp [compare] at hc
  | succ fuel ih =>
    simp only [compare] at hc
    split at hc
    · cases hc; exact .inl hd
    · have := foldlM_ind (R := fun s t => d ∈ t.diffs → d ∈ s.diffs ∨
          ∃ suffix x y, d.path = path ++ suffix ∧ walk h fmt a suffix = some x ∧
            walk h fmt b suffix = some y ∧ d.reason ∈ nodeDiffs fmt tol (h x) (h y))
        (fun s hs => .inl hs)
        (fun s t u h1 h2 hu => by
          rcases h2 hu with h | h
          · exact h1 h
          · exact .inr h)
        (fun p hp t t' ht hdt => by
          obtain ⟨acc, u, v⟩ := p
          obtain ⟨s1, s2⟩ := mem_nodePairs hnd hp
          rcases ih ht hdt with h | ⟨sf, x, y, e1, e2, e3, e4⟩
          · exact .inl h
          · refine .inr ⟨acc :: sf, x, y, by simpa using e1, ?_, ?_, e4⟩
            · simp [walk, s1, e2]
            · simp [walk, s2, e3]) hc hd
      rcases this with h1 | h1
      · simp only [List.mem_append, List.mem_map] at h1
        rcases h1 with h1 | ⟨r, hr, rfl⟩
        · exact .inl h1
        · exact .inr ⟨[], a, b, by simp, rfl, rfl, hr⟩
      · exact .inr h1

/-- If no difference is found, the pairs seen are compatible and closed under access. -/
theorem compare_closed (hinj : Function.Injective ident) {fuel : Nat} {a b : α}
    {path : List Access} {st st' : State}
    (hc : compare h ident fmt tol fuel a b path st = some st') (hd : st'.diffs = st.diffs)
    {p q : α} (hpq : (ident p, ident q) ∈ st'.seen) :
    (ident p, ident q) ∈ st.seen ∨ (nodeDiffs fmt tol (h p) (h q) = [] ∧
      ∀ acc x y, (acc, x, y) ∈ nodePairs fmt (h p) (h q) → (ident x, ident y) ∈ st'.seen) := by
  induction fuel generalizing a b path st st' p q with
  | zero => simp [compare] at hc
  | succ fuel ih =>
    simp only [compare] at hc
    split at hc
    · cases hc; exact .inl hpq
    · -- the loop over the children
      have loop : ∀ (l : List (Access × α × α)) (s s' : State),
          l.foldlM (fun st p => compare h ident fmt tol fuel p.2.1 p.2.2 (path ++ [p.1]) st) s =
            some s' →
          s.diffs <+: s'.diffs ∧ (∀ p ∈ s.seen, p ∈ s'.seen) ∧
          (∀ acc x y, (acc, x, y) ∈ l → (ident x, ident y) ∈ s'.seen) ∧
          (s'.diffs = s.diffs → ∀ p q, (ident p, ident q) ∈ s'.seen →
            (ident p, ident q) ∈ s.seen ∨ (nodeDiffs fmt tol (h p) (h q) = [] ∧
              ∀ acc x y, (acc, x, y) ∈ nodePairs fmt (h p) (h q) →
                (ident x, ident y) ∈ s'.seen)) := by
        intro l
        induction l with
        | nil =>
          intro s s' hl
          simp at hl; subst hl
          exact ⟨List.prefix_rfl, fun p hp => hp, by simp, fun _ p q hp => .inl hp⟩
        | cons z r ihl =>
          intro s s' hl
          simp only [List.foldlM_cons, Option.bind_eq_bind, Option.bind_eq_some_iff] at hl
          obtain ⟨t, h1, h2⟩ := hl
          obtain ⟨m1, m2, m3⟩ := compare_mono h1
          obtain ⟨l1, l2, l3, l4⟩ := ihl t s' h2
          refine ⟨m2.trans l1, fun p hp => l2 p (m1 p hp), ?_, ?_⟩
          · intro acc x y hm
            rw [List.mem_cons] at hm
            rcases hm with rfl | hm
            · exact l2 _ m3
            · exact l3 acc x y hm
          · intro hdd p q hp
            have hts : t.diffs = s.diffs :=
              (m2.eq_of_length (Nat.le_antisymm m2.length_le
                (by rw [← hdd]; exact l1.length_le))).symm
            have hst : s'.diffs = t.diffs := by rw [hdd, hts]
            rcases l4 hst p q hp with h | h
            · rcases ih h1 hts h with h | ⟨g1, g2⟩
              · exact .inl h
              · exact .inr ⟨g1, fun acc x y hm => l2 _ (g2 acc x y hm)⟩
            · exact .inr h
      obtain ⟨l1, l2, l3, l4⟩ := loop _ _ _ hc
      have hlen := l1.length_le
      rw [hd] at hlen
      simp only [List.length_append, List.length_map] at hlen
      have hnil : nodeDiffs fmt tol (h a) (h b) = [] :=
        List.eq_nil_of_length_eq_zero (by omega)
      rcases l4 (by simp [hd, hnil]) p q hpq with h1 | h1
      · rw [List.mem_cons] at h1
        rcases h1 with h1 | h1
        · rw [Prod.mk.injEq] at h1
          have e1 := hinj h1.1
          have e2 := hinj h1.2
          subst e1 e2
          exact .inr ⟨hnil, l3⟩
        · exact .inl h1
      · exact .inr h1

end

/-! ### Termination -/

section
variable {n : Nat} {h : Fin n → Node (Fin n)} {ident : Fin n → Nat} {fmt : Bool} {tol : Rat}

/-- Pairs not yet seen. -/
def unseen (ident : Fin n → Nat) (seen : List (Nat × Nat)) : Nat :=
  (Finset.univ.filter fun p : Fin n × Fin n => (ident p.1, ident p.2) ∉ seen).card

theorem unseen_mono {s t : List (Nat × Nat)} (hst : ∀ p ∈ s, p ∈ t) :
    unseen ident t ≤ unseen ident s := by
  apply Finset.card_le_card
  intro p hp
  simp only [Finset.mem_filter, Finset.mem_univ, true_and] at hp ⊢
  exact fun h => hp (hst _ h)

theorem unseen_lt {s : List (Nat × Nat)} {a b : Fin n} (hs : (ident a, ident b) ∉ s) :
    unseen ident ((ident a, ident b) :: s) < unseen ident s := by
  apply Finset.card_lt_card
  rw [Finset.ssubset_iff_of_subset]
  · refine ⟨(a, b), by simpa using hs, by simp⟩
  · intro p hp
    simp only [Finset.mem_filter, Finset.mem_univ, true_and, List.mem_cons, not_or] at hp ⊢
    exact hp.2

theorem compare_isSome {fuel : Nat} {a b : Fin n} {path : List Access} {st : State}
    (hf : unseen ident st.seen < fuel) :
    (compare h ident fmt tol fuel a b path st).isSome = true := by
  induction fuel generalizing a b path st with
  | zero => omega
  | succ fuel ih =>
    simp only [compare]
    split
    · rfl
    · rename_i hs
      have hlt := unseen_lt hs
      have loop : ∀ (l : List (Access × Fin n × Fin n)) (s : State), unseen ident s.seen < fuel →
          (l.foldlM (fun st p => compare h ident fmt tol fuel p.2.1 p.2.2 (path ++ [p.1]) st)
            s).isSome = true := by
        intro l
        induction l with
        | nil => intro s _; rfl
        | cons z r ihl =>
          intro s hs
          obtain ⟨t, ht⟩ := Option.isSome_iff_exists.1 (ih (a := z.2.1) (b := z.2.2)
            (path := path ++ [z.1]) hs)
          simp only [List.foldlM_cons, ht, Option.bind_eq_bind, Option.bind_some]
          exact ihl t (lt_of_le_of_lt (unseen_mono (compare_mono ht).1) hs)
      exact loop _ _ (by simp only; omega)

theorem unseen_le (seen : List (Nat × Nat)) : unseen ident seen ≤ n * n := by
  refine (Finset.card_le_univ _).trans ?_
  simp [Fintype.card_prod]

end

end Cantools.Similar
