import Verif.Lemmas.Dbc
import Mathlib.Tactic.IntervalCases

namespace Cantools

/-! ### Decimal numbers -/

/-- value of a decimal number -/
def decimalValue (l : Chars) : Nat := l.foldl (fun acc c => 10 * acc + (c.toNat - 48)) 0

theorem digit_toNat {d : Nat} (h : d < 10) : (Char.ofNat (48 + d)).toNat = 48 + d := by
  interval_cases d <;> rfl

theorem digit_ne {d : Nat} (h : d < 10) : Char.ofNat (48 + d) ≠ '_' := by
  interval_cases d <;> decide

theorem decimalValue_decimal (n : Nat) : decimalValue (decimal n) = n := by
  induction n using Nat.strongRecOn with
  | ind n ih =>
    rw [decimal]
    split
    · rename_i h
      simp only [decimalValue, List.foldl_cons, List.foldl_nil, digit_toNat h]
      omega
    · rename_i h
      have := ih (n / 10) (by omega)
      unfold decimalValue at this ⊢
      rw [List.foldl_append, this]
      simp only [List.foldl_cons, List.foldl_nil, digit_toNat (Nat.mod_lt n (by decide : 10 > 0))]
      omega

theorem decimal_no_underscore (n : Nat) : '_' ∉ decimal n := by
  induction n using Nat.strongRecOn with
  | ind n ih =>
    rw [decimal]
    split
    · rename_i h
      simpa using (digit_ne h).symm
    · rename_i h
      simp only [List.mem_append, List.mem_singleton, not_or]
      exact ⟨ih _ (by omega), (digit_ne (Nat.mod_lt n (by decide : 10 > 0))).symm⟩

theorem decimal_length_le {n k : Nat} (hk : 0 < k) : (decimal n).length ≤ k ↔ n < 10 ^ k := by
  induction k generalizing n with
  | zero => omega
  | succ k ih =>
    rw [decimal]
    split
    · rename_i h
      have : 10 ≤ 10 ^ (k + 1) := by
        rw [Nat.pow_succ]; have := Nat.pow_pos (n := k) (by decide : 0 < 10); omega
      simp; omega
    · rename_i h
      simp only [List.length_append, List.length_singleton, Nat.add_le_add_iff_right]
      rcases Nat.eq_zero_or_pos k with rfl | hk'
      · have : (decimal (n / 10)).length ≠ 0 := by
          rw [decimal]; split <;> simp
        simp only [zero_add, pow_one]; omega
      · rw [ih hk', Nat.pow_succ]; omega

theorem decimalValue_decimal4 (n : Nat) : decimalValue (decimal4 n) = n := by
  have h : ∀ k, decimalValue (List.replicate k '0' ++ decimal n) = n := by
    intro k
    unfold decimalValue
    rw [List.foldl_append]
    have : (List.replicate k '0').foldl (fun acc (c : Char) => 10 * acc + (c.toNat - 48)) 0 = 0 := by
      induction k with
      | zero => rfl
      | succ k ih => rw [List.replicate_succ, List.foldl_cons]; exact ih
    rw [this]
    exact decimalValue_decimal n
  exact h _

theorem decimal4_inj {a b : Nat} (h : decimal4 a = decimal4 b) : a = b := by
  rw [← decimalValue_decimal4 a, h, decimalValue_decimal4]

theorem decimal4_no_underscore (n : Nat) : '_' ∉ decimal4 n := by
  unfold decimal4
  simp only [List.mem_append, List.mem_replicate, not_or]
  exact ⟨by rintro ⟨_, h⟩; exact absurd h (by decide), decimal_no_underscore n⟩

theorem decimal4_length {n : Nat} (h : n < 10000) : (decimal4 n).length = 4 := by
  have := (decimal_length_le (n := n) (k := 4) (by decide)).2 (by omega)
  unfold decimal4
  simp; omega

theorem decimal4_length_gt {n : Nat} (h : 10000 ≤ n) : 4 < (decimal4 n).length := by
  have := mt (decimal_length_le (n := n) (k := 4) (by decide)).1 (by omega)
  unfold decimal4
  simp; omega

/-! ### Shortened names -/

/-- the number behind the last underscore -/
def suffixIndex (c : Chars) : Nat := decimalValue (c.reverse.takeWhile (· ≠ '_')).reverse

theorem suffixIndex_eq (p : Chars) (i : Nat) : suffixIndex (p ++ '_' :: decimal4 i) = i := by
  unfold suffixIndex
  rw [List.reverse_append, List.reverse_cons, List.append_assoc, List.takeWhile_append_of_pos]
  · simp [decimalValue_decimal4]
  · intro a ha
    simp only [List.mem_reverse] at ha
    simp only [ne_eq, decide_eq_true_eq]
    rintro rfl
    exact decimal4_no_underscore i ha

theorem findShort_none {taken : List Chars} : ∀ {fuel idx : Nat} {short : Chars},
    findShort taken fuel idx short = none →
      ∃ l : List Chars, l.length = fuel - 1 ∧ (∀ c ∈ l, c ∈ taken) ∧
        l.map suffixIndex = List.range' idx (fuel - 1) := by
  intro fuel
  induction fuel with
  | zero => intro idx short _; exact ⟨[], rfl, by simp, rfl⟩
  | succ fuel ih =>
    intro idx short h
    rw [findShort] at h
    split at h
    · rename_i hin
      cases fuel with
      | zero => exact ⟨[], rfl, by simp, rfl⟩
      | succ fuel =>
        obtain ⟨l, h1, h2, h3⟩ := ih h
        rw [findShort] at h
        split at h
        · rename_i hin2
          refine ⟨(short.take 27 ++ '_' :: decimal4 idx) :: l, by simp [h1], ?_, ?_⟩
          · intro c hc
            rcases List.mem_cons.1 hc with rfl | hc
            · exact hin2
            · exact h2 c hc
          · rw [List.map_cons, h3, suffixIndex_eq]
            simp [List.range'_succ]
        · cases h
    · cases h

theorem findShort_exists (taken : List Chars) (short : Chars) :
    ∃ r, findShort taken (taken.length + 2) 0 short = some r := by
  cases h : findShort taken (taken.length + 2) 0 short with
  | some r => exact ⟨r, rfl⟩
  | none =>
    exfalso
    obtain ⟨l, h1, h2, h3⟩ := findShort_none h
    have hnd : l.Nodup := by
      have : (l.map suffixIndex).Nodup := by rw [h3]; exact List.nodup_range' ..
      exact List.Nodup.of_map _ this
    have := (hnd.subperm h2).length_le
    omega

theorem findShort_spec {taken : List Chars} : ∀ {fuel idx : Nat} {short r : Chars},
    27 ≤ short.length → findShort taken fuel idx short = some r →
      r ∉ taken ∧ (r = short ∨ ∃ i, idx ≤ i ∧ r = short.take 27 ++ '_' :: decimal4 i ∧
        ∀ j, idx ≤ j → j < i → short.take 27 ++ '_' :: decimal4 j ∈ taken) := by
  intro fuel
  induction fuel with
  | zero => intro idx short r _ h; cases h
  | succ fuel ih =>
    intro idx short r hl h
    rw [findShort] at h
    split at h
    · have hl2 : (short.take 27).length = 27 := by rw [List.length_take]; omega
      have htk : (short.take 27 ++ '_' :: decimal4 idx).take 27 = short.take 27 := by
        rw [List.take_append, hl2]; simp [List.take_take]
      obtain ⟨h1, h2⟩ := ih (by rw [List.length_append, hl2]; omega) h
      refine ⟨h1, .inr ?_⟩
      rw [htk] at h2
      rcases h2 with rfl | ⟨i, hi, rfl, hall⟩
      · exact ⟨idx, le_refl _, rfl, fun j _ _ => by omega⟩
      · refine ⟨i, by omega, rfl, fun j hj hji => ?_⟩
        rcases Nat.eq_or_lt_of_le hj with rfl | hlt
        · -- the first candidate was taken as well
          cases fuel with
          | zero => cases h
          | succ fuel =>
            rw [findShort] at h
            split at h
            · assumption
            · exfalso
              simp only [Option.some.injEq] at h
              have := congrArg suffixIndex h
              rw [suffixIndex_eq, suffixIndex_eq] at this
              omega
        · exact hall j hlt hji
    · rename_i hn
      cases h
      exact ⟨hn, .inl rfl⟩

theorem findShort_fresh {taken : List Chars} : ∀ {fuel idx : Nat} {short r : Chars},
    findShort taken fuel idx short = some r → r ∉ taken := by
  intro fuel
  induction fuel with
  | zero => intro idx short r h; cases h
  | succ fuel ih =>
    intro idx short r h
    rw [findShort] at h
    split at h
    · exact ih h
    · rename_i hn; cases h; exact hn

theorem findShort_index_le {taken : List Chars} {p : Chars} {i : Nat}
    (h : ∀ j, j < i → p ++ '_' :: decimal4 j ∈ taken) : i ≤ taken.length := by
  have hnd : ((List.range i).map fun j => p ++ '_' :: decimal4 j).Nodup := by
    apply List.Nodup.map
    · intro a b hab
      have := congrArg suffixIndex hab
      simpa only [suffixIndex_eq] using this
    · exact List.nodup_range
  have := (hnd.subperm (l₂ := taken) (by
    intro c hc
    obtain ⟨j, hj, rfl⟩ := List.mem_map.1 hc
    exact h j (List.mem_range.1 hj))).length_le
  simpa using this

/-- the names in a converter correspond to each other -/
structure Converter (l2s s2l : List (Chars × Chars)) : Prop where
  there : ∀ n s, dictGet? l2s n = some s ↔ dictGet? s2l s = some n

theorem convertNames_exists (l : List Chars) : ∀ l2s s2l, ∃ r, convertNames l l2s s2l = some r := by
  induction l with
  | nil => intro l2s s2l; exact ⟨_, rfl⟩
  | cons a r ih =>
    intro l2s s2l
    obtain ⟨s, hs⟩ := findShort_exists (s2l.map (·.1)) (a.take 32)
    rw [List.length_map] at hs
    obtain ⟨x, hx⟩ := ih (dictSet l2s a s) (dictSet s2l s a)
    exact ⟨x, by rw [convertNames, hs]; exact hx⟩

theorem dictSet_length_le {α β : Type} [DecidableEq α] (d : List (α × β)) (k : α) (v : β) :
    (dictSet d k v).length ≤ d.length + 1 := by
  induction d with
  | nil => simp [dictSet]
  | cons a r ih =>
    simp only [dictSet]
    split <;> simp only [List.length_cons] <;> omega

/-- What the short name of a name looks like. -/
def ShortForm (n s : Chars) : Prop :=
  s = n.take 32 ∨ ∃ i, s = n.take 27 ++ '_' :: decimal4 i

theorem convertNames_spec (l : List Chars) : ∀ (l2s s2l l2s' s2l' : List (Chars × Chars)),
    convertNames l l2s s2l = some (l2s', s2l') → l.Nodup →
    (∀ n ∈ l, dictGet? l2s n = none) → Converter l2s s2l →
    l.Pairwise (fun a b => a.length ≤ b.length) →
    (∀ a ∈ l, a.length ≤ 32 → ∀ s n, dictGet? s2l s = some n → s = n) →
    Converter l2s' s2l' ∧
    (∀ n, n ∉ l → dictGet? l2s' n = dictGet? l2s n) ∧
    (∀ n ∈ l, ∃ s, dictGet? l2s' n = some s ∧ (n.length ≤ 32 → s = n) ∧ ShortForm n s ∧
      (s2l.length + l.length ≤ 10000 → s.length ≤ 32)) := by
  induction l with
  | nil =>
    intro l2s s2l l2s' s2l' h _ _ hc _ _
    simp only [convertNames, Option.some.injEq, Prod.mk.injEq] at h
    obtain ⟨rfl, rfl⟩ := h
    exact ⟨hc, fun _ _ => rfl, by simp⟩
  | cons a r ih =>
    intro l2s s2l l2s' s2l' h hnd hfresh hc hsorted hkeep
    rw [convertNames] at h
    split at h
    · cases h
    · rename_i short hshort
      have hst : dictGet? s2l short = none := by
        rw [dictGet?_eq_none_iff]; exact findShort_fresh hshort
      have ha := hfresh a (by simp)
      rw [List.nodup_cons] at hnd
      rw [List.pairwise_cons] at hsorted
      -- the short name of a name that is not too long is the name
      have hkept : a.length ≤ 32 → short = a := by
        intro hal
        rw [List.take_of_length_le hal, findShort, if_neg] at hshort
        · cases hshort; rfl
        · intro hm
          cases hg : dictGet? s2l a with
          | none => exact absurd hm ((dictGet?_eq_none_iff _ _).1 hg)
          | some n =>
            have hn := hkeep a (by simp) hal a n hg
            subst hn
            rw [(hc.there a a).2 hg] at ha
            cases ha
      have hform : ShortForm a short ∧ (s2l.length + (a :: r).length ≤ 10000 → short.length ≤ 32) := by
        by_cases hal : a.length ≤ 32
        · have := hkept hal
          subst this
          refine ⟨.inl (List.take_of_length_le hal).symm, fun _ => hal⟩
        · have h32 : (a.take 32).length = 32 := by rw [List.length_take]; omega
          have h27 : (a.take 32).take 27 = a.take 27 := by rw [List.take_take]; rfl
          have h27l : (a.take 27).length = 27 := by rw [List.length_take]; omega
          rcases (findShort_spec (by omega) hshort).2 with hs | ⟨i, _, hs, hall⟩
          · subst hs
            exact ⟨.inl rfl, fun _ => by omega⟩
          · rw [h27] at hs hall
            refine ⟨.inr ⟨i, hs⟩, fun hlen => ?_⟩
            have hi := findShort_index_le (taken := s2l.map (·.1)) fun j hj => hall j (by omega) hj
            simp only [List.length_cons, List.length_map] at hlen hi
            rw [hs, List.length_append, List.length_cons, decimal4_length (by omega)]
            omega
      obtain ⟨r1, r2, r3⟩ := ih _ _ _ _ h hnd.2 (by
          intro n hn
          rw [dictGet?_set, if_neg (by rintro rfl; exact hnd.1 hn)]
          exact hfresh n (by simp [hn])) (by
          constructor
          intro n s
          rw [dictGet?_set, dictGet?_set]
          by_cases h1 : a = n
          · subst h1
            rw [if_pos rfl]
            by_cases h2 : short = s
            · simp [h2]
            · rw [if_neg h2]
              constructor
              · intro h; cases h; exact absurd rfl h2
              · intro h; rw [← hc.there, ha] at h; cases h
          · rw [if_neg h1]
            by_cases h2 : short = s
            · subst h2
              rw [if_pos rfl]
              constructor
              · intro h; rw [hc.there, hst] at h; cases h
              · intro h; cases h; exact absurd rfl h1
            · rw [if_neg h2]; exact hc.there n s) hsorted.2 (by
          intro b hb hbl s n hs
          rw [dictGet?_set] at hs
          split at hs
          · rename_i h1
            cases hs
            rw [← h1]
            exact hkept (by have := hsorted.1 b hb; omega)
          · exact hkeep b (by simp [hb]) hbl s n hs)
      refine ⟨r1, ?_, ?_⟩
      · intro n hn
        simp only [List.mem_cons, not_or] at hn
        rw [r2 n hn.2, dictGet?_set, if_neg (Ne.symm hn.1)]
      · intro n hn
        rcases List.mem_cons.1 hn with rfl | hn
        · refine ⟨short, ?_, hkept, hform.1, hform.2⟩
          rw [r2 n hnd.1, dictGet?_set, if_pos rfl]
        · obtain ⟨s, h1, h2, h3, h4⟩ := r3 n hn
          refine ⟨s, h1, h2, h3, fun hlen => h4 ?_⟩
          have := dictSet_length_le s2l short a
          simp only [List.length_cons] at hlen
          omega

/-! ### Sorting -/

theorem nameLe_iff {a b : Chars} : nameLe a b = true ↔ a.length < b.length ∨ (a.length = b.length ∧ @LE.le _ List.instLE a b) := by
  simp [nameLe]

theorem nameLe_total (a b : Chars) : nameLe a b = true ∨ nameLe b a = true := by
  simp only [nameLe_iff]
  rcases lt_trichotomy a.length b.length with h | h | h
  · exact .inl (.inl h)
  · rcases List.le_total a b with h' | h'
    · exact .inl (.inr ⟨h, h'⟩)
    · exact .inr (.inr ⟨h.symm, h'⟩)
  · exact .inr (.inl h)

theorem nameLe_trans {a b c : Chars} (h1 : nameLe a b = true) (h2 : nameLe b c = true) :
    nameLe a c = true := by
  rw [nameLe_iff] at *
  rcases h1 with h1 | ⟨h1, h1'⟩ <;> rcases h2 with h2 | ⟨h2, h2'⟩
  · exact .inl (by omega)
  · exact .inl (by omega)
  · exact .inl (by omega)
  · exact .inr ⟨by omega, List.le_trans h1' h2'⟩

theorem nameLe_antisymm {a b : Chars} (h1 : nameLe a b = true) (h2 : nameLe b a = true) : a = b := by
  rw [nameLe_iff] at *
  rcases h1 with h1 | ⟨h1, h1'⟩ <;> rcases h2 with h2 | ⟨h2, h2'⟩
  · omega
  · omega
  · omega
  · exact List.le_antisymm h1' h2'

theorem ins_perm {α : Type} (le : α → α → Bool) (a : α) (l : List α) :
    List.Perm (pySorted.ins le a l) (a :: l) := by
  induction l with
  | nil => exact List.Perm.refl _
  | cons b r ih =>
    simp only [pySorted.ins]
    split
    · exact List.Perm.refl _
    · exact (List.Perm.cons b ih).trans (List.Perm.swap a b r)

theorem pySorted_perm {α : Type} (le : α → α → Bool) (l : List α) : List.Perm (pySorted le l) l := by
  induction l with
  | nil => exact List.Perm.refl _
  | cons a r ih => exact (ins_perm le a _).trans (List.Perm.cons a ih)

theorem ins_pairwise {α : Type} {le : α → α → Bool} (ht : ∀ a b, le a b = true ∨ le b a = true)
    (htr : ∀ a b c, le a b = true → le b c = true → le a c = true) (a : α) {l : List α}
    (h : l.Pairwise fun x y => le x y = true) :
    (pySorted.ins le a l).Pairwise fun x y => le x y = true := by
  induction l with
  | nil => simp [pySorted.ins]
  | cons b r ih =>
    have h' := List.pairwise_cons.1 h
    simp only [pySorted.ins]
    split
    · rename_i hab
      refine List.pairwise_cons.2 ⟨fun c hc => ?_, h⟩
      rcases List.mem_cons.1 hc with rfl | hc
      · exact hab
      · exact htr _ _ _ hab (h'.1 c hc)
    · rename_i hab
      refine List.pairwise_cons.2 ⟨fun c hc => ?_, ih h'.2⟩
      rcases List.mem_cons.1 ((ins_perm le a r).mem_iff.1 hc) with rfl | hc
      · exact (ht c b).resolve_left hab
      · exact h'.1 c hc

theorem pySorted_pairwise {α : Type} {le : α → α → Bool} (ht : ∀ a b, le a b = true ∨ le b a = true)
    (htr : ∀ a b c, le a b = true → le b c = true → le a c = true) (l : List α) :
    (pySorted le l).Pairwise fun x y => le x y = true := by
  induction l with
  | nil => simp [pySorted]
  | cons a r ih => exact ins_pairwise ht htr a ih

theorem pySorted_nameLe_pairwise (l : List Chars) :
    (pySorted nameLe l).Pairwise fun x y => nameLe x y = true :=
  pySorted_pairwise nameLe_total (fun _ _ _ => nameLe_trans) l

theorem pySorted_nameLe_congr {l l' : List Chars} (h : List.Perm l l') :
    pySorted nameLe l = pySorted nameLe l' := by
  refine List.Perm.eq_of_pairwise (fun a b _ _ => nameLe_antisymm)
    (pySorted_nameLe_pairwise l) (pySorted_nameLe_pairwise l') ?_
  exact (pySorted_perm _ l).trans (h.trans (pySorted_perm _ l').symm)

theorem longNames_spec {names : List Chars} {l2s s2l : List (Chars × Chars)}
    (h : longNamesConverter names = some (l2s, s2l)) (hnd : names.Nodup) :
    (∀ n s, dictGet? l2s n = some s ↔ dictGet? s2l s = some n) ∧
    (∀ n, n ∉ names → dictGet? l2s n = none) ∧
    (∀ n ∈ names, ∃ s, dictGet? l2s n = some s ∧ (n.length ≤ 32 → s = n) ∧ ShortForm n s ∧
      (names.length ≤ 10000 → s.length ≤ 32)) := by
  have hp := pySorted_perm nameLe names
  obtain ⟨h1, h2, h3⟩ := convertNames_spec _ _ _ _ _ h (hp.nodup_iff.2 hnd) (fun _ _ => rfl)
    ⟨fun n s => by simp [dictGet?]⟩
    ((pySorted_nameLe_pairwise names).imp fun {a b} hab => by
      rcases nameLe_iff.1 hab with h | ⟨h, _⟩ <;> omega)
    (fun _ _ _ s n hs => by simp [dictGet?] at hs)
  refine ⟨h1.there, fun n hn => by rw [h2 n (fun hm => hn (hp.mem_iff.1 hm))]; rfl, fun n hn => ?_⟩
  obtain ⟨s, g1, g2, g3, g4⟩ := h3 n (hp.mem_iff.2 hn)
  refine ⟨s, g1, g2, g3, fun hl => g4 ?_⟩
  simp only [List.length_nil, zero_add, hp.length_eq]
  exact hl

end Cantools
