import Verif.Model.Regex
import Mathlib.Data.List.Basic

set_option linter.unusedSimpArgs false

namespace Cantools.Regex
open Re

/-- `k` fails on every text starting with a character of `p`. -/
def Avoids (p : Char → Bool) (k : Cont) : Prop := ∀ x r g, p x = true → k (x :: r) g = none

/-- `s` does not start with a character of `p`. -/
def NotHead (p : Char → Bool) (s : Chars) : Prop := ∀ c r, s = c :: r → p c = false

theorem NotHead.nil {p : Char → Bool} : NotHead p [] := by intro c r h; cases h

theorem NotHead.cons {p : Char → Bool} {c : Char} {r : Chars} (h : p c = false) :
    NotHead p (c :: r) := by intro c' r' e; cases e; exact h

theorem NotHead.append {p : Char → Bool} {a b : Chars} (ha : a ≠ [])
    (h : ∀ c ∈ a, p c = false) : NotHead p (a ++ b) := by
  cases a with
  | nil => exact absurd rfl ha
  | cons c r => exact .cons (h c (by simp))

@[simp] theorem run_cls_nil (p : Char → Bool) (k : Cont) (g : Groups) :
    (cls p).run k [] g = none := rfl

theorem run_cls_cons (p : Char → Bool) (k : Cont) (c : Char) (r : Chars) (g : Groups) :
    (cls p).run k (c :: r) g = if p c then k r g else none := rfl

theorem run_cls_ok {p : Char → Bool} {k : Cont} {c : Char} {r : Chars} {g : Groups}
    (h : p c = true) : (cls p).run k (c :: r) g = k r g := by simp [run_cls_cons, h]

theorem run_cls_fail {p : Char → Bool} {k : Cont} {s : Chars} {g : Groups}
    (h : NotHead p s) : (cls p).run k s g = none := by
  cases s with
  | nil => rfl
  | cons c r => simp [run_cls_cons, h c r rfl]

theorem run_chr (c : Char) (k : Cont) (r : Chars) (g : Groups) :
    (chr c).run k (c :: r) g = k r g := by simp [chr, run_cls_cons]

theorem run_chr_ne {c x : Char} (h : x ≠ c) (k : Cont) (r : Chars) (g : Groups) :
    (chr c).run k (x :: r) g = none := by simp [chr, run_cls_cons, h]

@[simp] theorem run_all_cons (r : Re) (l : List Re) (k : Cont) :
    (all (r :: l)).run k = r.run ((all l).run k) := rfl

@[simp] theorem run_all_nil (k : Cont) : (all []).run k = k := rfl

theorem run_all_append (a b : List Re) (k : Cont) :
    (all (a ++ b)).run k = (all a).run ((all b).run k) := by
  induction a with
  | nil => rfl
  | cons x r ih => simp only [List.cons_append, run_all_cons, ih]

theorem run_text (t : Chars) (k : Cont) (r : Chars) (g : Groups) :
    (text t).run k (t ++ r) g = k r g := by
  induction t generalizing g with
  | nil => rfl
  | cons c t ih =>
    simp only [text, List.cons_append, Re.run]
    rw [show (chr c).run ((text t).run k) (c :: (t ++ r)) g = _ from run_chr _ _ _ _]
    exact ih g

theorem run_text_cons_fail {c : Char} {t : Chars} {k : Cont} {s : Chars} {g : Groups}
    (h : ∀ r, s ≠ c :: r) : (text (c :: t)).run k s g = none := by
  simp only [text, Re.run]
  apply run_cls_fail
  intro x r hs
  subst hs
  have : x ≠ c := by rintro rfl; exact h r rfl
  simpa using this

/-! ### Repetition of a class -/

section star
variable {p : Char → Bool} {k : Cont}

theorem iterate_none {greedy : Bool} {fuel : Nat} {s : Chars} {g : Groups} (hs : NotHead p s) :
    iterate (cls p).run greedy k fuel s g = k s g := by
  cases fuel with
  | zero => rfl
  | succ fuel =>
    simp only [iterate]
    rw [run_cls_fail hs]
    cases greedy <;> simp

theorem iterate_cons {greedy : Bool} {fuel : Nat} {c : Char} {s : Chars} {g : Groups}
    (hc : p c = true) :
    iterate (cls p).run greedy k (fuel + 1) (c :: s) g =
      if greedy then (iterate (cls p).run greedy k fuel s g).orElse fun _ => k (c :: s) g
      else (k (c :: s) g).orElse fun _ => iterate (cls p).run greedy k fuel s g := by
  simp only [iterate]
  rw [run_cls_ok hc]
  simp

theorem run_star (r : Re) (greedy : Bool) (k : Cont) (s : Chars) (g : Groups) :
    (star greedy r).run k s g = iterate r.run greedy k s.length s g := rfl

/-- If what follows cannot start with a character of the class, all of them are taken. -/
theorem run_star_avoid {greedy : Bool} (hk : Avoids p k) {w rest : Chars} {g : Groups}
    (hw : ∀ c ∈ w, p c = true) (hr : NotHead p rest) :
    (star greedy (cls p)).run k (w ++ rest) g = k rest g := by
  rw [run_star]
  generalize hf : (w ++ rest).length = fuel
  induction w generalizing fuel with
  | nil => exact iterate_none hr
  | cons c w ih =>
    cases fuel with
    | zero => simp at hf
    | succ fuel =>
      have hc := hw c (by simp)
      simp only [List.cons_append]
      rw [iterate_cons hc, ih (fun x hx => hw x (by simp [hx])) fuel (by simpa using hf),
        hk c _ _ hc]
      cases greedy <;> simp

theorem run_star_none {greedy : Bool} {s : Chars} {g : Groups} (hs : NotHead p s) :
    (star greedy (cls p)).run k s g = k s g := iterate_none hs

/-- A greedy repetition takes the longest text after which the rest succeeds. -/
theorem run_star_greedy {w rest : Chars} {g : Groups} {res : Groups}
    (hw : ∀ c ∈ w, p c = true) (hk : k rest g = some res)
    (hlong : ∀ u v, u ≠ [] → rest = u ++ v → (∀ c ∈ u, p c = true) → k v g = none) :
    (star true (cls p)).run k (w ++ rest) g = some res := by
  rw [run_star]
  generalize hf : (w ++ rest).length = fuel
  -- the characters of the class at the beginning of rest do not help
  have hrest : ∀ (rest : Chars) (fuel : Nat), rest.length = fuel →
      (∀ u v, u ≠ [] → rest = u ++ v → (∀ c ∈ u, p c = true) → k v g = none) →
      iterate (cls p).run true k fuel rest g = k rest g := by
    intro rest
    induction rest with
    | nil => intro fuel _ _; exact iterate_none .nil
    | cons c r ih =>
      intro fuel hf hlong
      by_cases hc : p c = true
      · cases fuel with
        | zero => simp at hf
        | succ fuel =>
          rw [iterate_cons hc, ih fuel (by simpa using hf)]
          · rw [hlong [c] r (by simp) rfl (by simpa using hc)]
            simp
          · intro u v hu he hcs
            exact hlong (c :: u) v (by simp) (by simp [he])
              (by intro x hx; rw [List.mem_cons] at hx; rcases hx with rfl | hx
                  · exact hc
                  · exact hcs x hx)
      · exact iterate_none (.cons (by simpa using hc))
  induction w generalizing fuel with
  | nil =>
    rw [List.nil_append] at hf ⊢
    rw [hrest rest fuel hf hlong]
    exact hk
  | cons c w ih =>
    cases fuel with
    | zero => simp at hf
    | succ fuel =>
      simp only [List.cons_append]
      rw [iterate_cons (hw c (by simp)), ih (fun x hx => hw x (by simp [hx])) fuel
        (by simpa using hf)]
      simp

theorem run_star_greedy' {w rest : Chars} {g : Groups} {res : Groups}
    (hw : ∀ c ∈ w, p c = true) (hr : NotHead p rest) (hk : k rest g = some res) :
    (star true (cls p)).run k (w ++ rest) g = some res := by
  apply run_star_greedy hw hk
  intro u v hu he hcs
  cases u with
  | nil => exact absurd rfl hu
  | cons c u =>
    have := hr c (u ++ v) he
    rw [hcs c (by simp)] at this; cases this

/-- A repetition fails if what follows fails after every number of characters. -/
theorem run_star_fail {greedy : Bool} {w rest : Chars} {g : Groups} (hr : NotHead p rest)
    (h : ∀ u v, w = u ++ v → k (v ++ rest) g = none) :
    (star greedy (cls p)).run k (w ++ rest) g = none := by
  rw [run_star]
  generalize (w ++ rest).length = fuel
  induction w generalizing fuel with
  | nil => rw [List.nil_append, iterate_none hr]; exact h [] [] rfl
  | cons c w ih =>
    have hnil := h [] (c :: w) rfl
    have hrec := ih (fun u v e => h (c :: u) v (by rw [e]; rfl))
    cases fuel with
    | zero => exact hnil
    | succ fuel =>
      simp only [iterate, List.cons_append]
      rw [run_cls_cons]
      simp only [List.cons_append] at hnil
      rw [hnil]
      simp only [List.length_cons, Nat.lt_succ_self, if_true, hrec fuel]
      cases greedy <;> simp

/-- A lazy repetition goes on as long as what follows fails. -/
theorem run_star_lazy {u v : Chars} {g : Groups} (hu : ∀ c ∈ u, p c = true)
    (hfail : ∀ a b, u = a ++ b → b ≠ [] → k (b ++ v) g = none) {res : Groups}
    (hk : k v g = some res) : (star false (cls p)).run k (u ++ v) g = some res := by
  rw [run_star]
  generalize hf : (u ++ v).length = fuel
  induction u generalizing fuel with
  | nil =>
    cases fuel with
    | zero => simpa [iterate] using hk
    | succ fuel => simp [iterate, hk]
  | cons c u ih =>
    cases fuel with
    | zero => simp at hf
    | succ fuel =>
      simp only [List.cons_append]
      rw [iterate_cons (hu c (by simp))]
      have h0 := hfail [] (c :: u) rfl (by simp)
      simp only [List.cons_append] at h0
      rw [h0, ih (fun x hx => hu x (by simp [hx]))
        (fun a b he hb => hfail (c :: a) b (by simp [he]) hb) fuel (by simpa using hf)]
      simp

theorem run_plus_avoid {greedy : Bool} (hk : Avoids p k) {w rest : Chars} {g : Groups}
    (hne : w ≠ []) (hw : ∀ c ∈ w, p c = true) (hr : NotHead p rest) :
    (plus greedy (cls p)).run k (w ++ rest) g = k rest g := by
  cases w with
  | nil => exact absurd rfl hne
  | cons c w =>
    show (cls p).run ((star greedy (cls p)).run k) (c :: (w ++ rest)) g = _
    rw [run_cls_ok (hw c (by simp)), run_star_avoid hk (fun x hx => hw x (by simp [hx])) hr]

theorem run_plus_fail_head {greedy : Bool} {s : Chars} {g : Groups} (hs : NotHead p s) :
    (plus greedy (cls p)).run k s g = none := by
  show (cls p).run ((star greedy (cls p)).run k) s g = _
  exact run_cls_fail hs

theorem run_plus_greedy {w rest : Chars} {g : Groups} {res : Groups} (hne : w ≠ [])
    (hw : ∀ c ∈ w, p c = true) (hk : k rest g = some res)
    (hlong : ∀ u v, u ≠ [] → rest = u ++ v → (∀ c ∈ u, p c = true) → k v g = none) :
    (plus true (cls p)).run k (w ++ rest) g = some res := by
  cases w with
  | nil => exact absurd rfl hne
  | cons c w =>
    show (cls p).run ((star true (cls p)).run k) (c :: (w ++ rest)) g = _
    rw [run_cls_ok (hw c (by simp))]
    exact run_star_greedy (fun x hx => hw x (by simp [hx])) hk hlong

theorem run_plus_greedy' {w rest : Chars} {g : Groups} {res : Groups} (hne : w ≠ [])
    (hw : ∀ c ∈ w, p c = true) (hr : NotHead p rest) (hk : k rest g = some res) :
    (plus true (cls p)).run k (w ++ rest) g = some res := by
  cases w with
  | nil => exact absurd rfl hne
  | cons c w =>
    show (cls p).run ((star true (cls p)).run k) (c :: (w ++ rest)) g = _
    rw [run_cls_ok (hw c (by simp))]
    exact run_star_greedy' (fun x hx => hw x (by simp [hx])) hr hk

/-- A repetition fails if what follows fails after every positive number of characters. -/
theorem run_plus_fail {greedy : Bool} {w rest : Chars} {g : Groups} (hr : NotHead p rest)
    (h : ∀ u v, u ≠ [] → w = u ++ v → k (v ++ rest) g = none) :
    (plus greedy (cls p)).run k (w ++ rest) g = none := by
  show (cls p).run ((star greedy (cls p)).run k) (w ++ rest) g = _
  cases w with
  | nil => exact run_cls_fail hr
  | cons c w =>
    rw [List.cons_append, run_cls_cons]
    split
    · exact run_star_fail hr (fun u v e => h (c :: u) v (by simp) (by rw [e]; rfl))
    · rfl

end star

/-! ### Groups -/

theorem run_group (n : String) (r : Re) (k : Cont) (s : Chars) (g : Groups) :
    (group n r).run k s g =
      r.run (fun s' g' => k s' (g' ++ [(n, s.take (s.length - s'.length))])) s g := rfl

theorem take_consumed (w rest : Chars) : (w ++ rest).take ((w ++ rest).length - rest.length) = w := by
  simp

theorem run_group_plus_avoid {p : Char → Bool} {k : Cont} {n : String} {greedy : Bool}
    (hk : Avoids p k) {w rest : Chars} {g : Groups}
    (hne : w ≠ []) (hw : ∀ c ∈ w, p c = true) (hr : NotHead p rest) :
    (group n (plus greedy (cls p))).run k (w ++ rest) g = k rest (g ++ [(n, w)]) := by
  rw [run_group, run_plus_avoid _ hne hw hr, take_consumed]
  intro x r g' hx
  exact hk x r _ hx

theorem run_group_fail {n : String} {r : Re} {k : Cont} {s : Chars} {g : Groups}
    (h : ∀ k', r.run k' s g = none) : (group n r).run k s g = none := h _

theorem run_group_cls {p : Char → Bool} {k : Cont} {n : String} {c : Char} {r : Chars} {g : Groups}
    (h : p c = true) : (group n (cls p)).run k (c :: r) g = k r (g ++ [(n, [c])]) := by
  rw [run_group, run_cls_ok h]
  simp

/-! ### Avoiding a class -/

theorem avoids_cls {p q : Char → Bool} (h : ∀ x, p x = true → q x = false) (k : Cont) :
    Avoids p ((cls q).run k) := by
  intro x r g hx
  exact run_cls_fail (.cons (h x hx))

theorem avoids_chr {p : Char → Bool} {c : Char} (h : p c = false) (k : Cont) :
    Avoids p ((chr c).run k) := by
  apply avoids_cls
  intro x hx
  have : x ≠ c := by rintro rfl; rw [h] at hx; cases hx
  simpa using this

theorem avoids_plus {p q : Char → Bool} {greedy : Bool} (h : ∀ x, p x = true → q x = false)
    (k : Cont) : Avoids p ((plus greedy (cls q)).run k) := avoids_cls h _

theorem avoids_group {p : Char → Bool} {r : Re} (n : String) (h : ∀ k, Avoids p (r.run k)) (k : Cont) :
    Avoids p ((group n r).run k) := by
  intro x s g hx
  exact h _ x s g hx

theorem avoids_seq {p : Char → Bool} {a b : Re} (h : ∀ k, Avoids p (a.run k)) (k : Cont) :
    Avoids p ((seq a b).run k) := h _

/-! ### Necessary characters -/

/-- Every match of `r` consumes the character `c`. -/
def Needs (c : Char) (r : Re) : Prop :=
  ∀ k s g, r.run k s g ≠ none → c ∈ s

/-- A match hands a suffix of the text to what follows. -/
theorem iterate_suffix {f : Cont → Cont}
    (hf : ∀ k s g, f k s g ≠ none → ∃ s' g', s' <:+ s ∧ k s' g' ≠ none) {greedy : Bool} {k : Cont} :
    ∀ {fuel : Nat} {s : Chars} {g : Groups}, iterate f greedy k fuel s g ≠ none →
      ∃ s' g', s' <:+ s ∧ k s' g' ≠ none := by
  intro fuel
  induction fuel with
  | zero => intro s g h; exact ⟨s, g, List.suffix_rfl, h⟩
  | succ fuel ih =>
    intro s g h
    simp only [iterate] at h
    generalize hm : f (fun s' g' => if s'.length < s.length then iterate f greedy k fuel s' g'
      else none) s g = more at h
    by_cases hk : k s g = none
    · have hmore : more ≠ none := by
        rintro rfl; rw [hk] at h; cases greedy <;> simp at h
      rw [← hm] at hmore
      obtain ⟨s', g', h1, h2⟩ := hf _ _ _ hmore
      split at h2
      · obtain ⟨s'', g'', h3, h4⟩ := ih h2
        exact ⟨s'', g'', h3.trans h1, h4⟩
      · exact absurd rfl h2
    · exact ⟨s, g, List.suffix_rfl, hk⟩

theorem run_suffix (r : Re) : ∀ (k : Cont) (s : Chars) (g : Groups), r.run k s g ≠ none →
    ∃ s' g', s' <:+ s ∧ k s' g' ≠ none := by
  induction r with
  | eps => intro k s g h; exact ⟨s, g, List.suffix_rfl, h⟩
  | cls p =>
    intro k s g h
    cases s with
    | nil => exact absurd rfl h
    | cons c r =>
      rw [run_cls_cons] at h
      split at h
      · exact ⟨r, g, List.suffix_cons c r, h⟩
      · exact absurd rfl h
  | seq a b iha ihb =>
    intro k s g h
    obtain ⟨s1, g1, h1, h2⟩ := iha _ s g h
    obtain ⟨s2, g2, h3, h4⟩ := ihb _ s1 g1 h2
    exact ⟨s2, g2, h3.trans h1, h4⟩
  | alt a b iha ihb =>
    intro k s g h
    simp only [Re.run] at h
    by_cases ha : a.run k s g = none
    · rw [ha] at h
      exact ihb k s g (by simpa using h)
    · exact iha k s g ha
  | star greedy r ih => intro k s g h; exact iterate_suffix ih h
  | group n r ih =>
    intro k s g h
    obtain ⟨s', g', h1, h2⟩ := ih _ s g h
    exact ⟨s', _, h1, h2⟩
  | eos =>
    intro k s g h
    simp only [Re.run] at h
    split at h
    · exact ⟨s, g, List.suffix_rfl, h⟩
    · exact absurd rfl h

theorem needs_chr (c : Char) : Needs c (chr c) := by
  intro k s g h
  cases s with
  | nil => exact absurd rfl h
  | cons x r =>
    rw [show (chr c).run k (x :: r) g = _ from run_cls_cons _ _ _ _ _] at h
    split at h
    · rename_i hx
      rw [beq_iff_eq] at hx
      subst hx; simp
    · exact absurd rfl h

theorem needs_all {c : Char} {l : List Re} {r : Re} (hr : r ∈ l) (h : Needs c r) :
    Needs c (all l) := by
  induction l with
  | nil => cases hr
  | cons x l ih =>
    intro k s g hm
    rw [run_all_cons] at hm
    rw [List.mem_cons] at hr
    rcases hr with rfl | hr
    · exact h _ _ _ hm
    · obtain ⟨s', g', h1, h2⟩ := run_suffix x _ s g hm
      exact h1.subset (ih hr _ _ _ h2)

/-- A pattern with a necessary character does not match a text without it. -/
theorem match?_none_of_needs {c : Char} {r : Re} (h : Needs c r) {line : Chars} (hc : c ∉ line) :
    r.match? line = none := by
  by_contra hm
  exact hc (h _ _ _ hm)

end Cantools.Regex
