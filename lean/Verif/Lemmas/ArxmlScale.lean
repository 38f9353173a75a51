import Verif.Lemmas.ArxmlNumber
import Verif.Lemmas.Values
import Verif.Lemmas.DbcSync
import Mathlib.Tactic.Linarith

/-! The scales of ARXML compu methods. -/

namespace Cantools.ArxmlScale

open Cantools.Spec
open Regex (Chars)

theorem parseNumber_float {F : FloatRead} {t : Chars} {q : Rat} (h : PlainNumber F t q) :
    parseNumber F t true = .ok q := by
  rw [parseNumber_plain h]
  simp

theorem loadLimit_text {F : FloatRead} {t : Option Chars} {q : Option Rat} (h : LimitText F t q) :
    loadLimit F t = .ok q := by
  cases t with
  | none =>
    cases q with
    | none => rfl
    | some q => exact absurd h (by simp [LimitText])
  | some t =>
    cases q with
    | none => exact absurd h (by simp [LimitText])
    | some q =>
      change (parseNumber F t true).map some = _
      rw [parseNumber_float h]
      rfl

theorem loadScaleLimits_text {F : FloatRead} {s : CompuScale} {l u : Option Rat}
    (hl : LimitText F s.lower l) (hu : LimitText F s.upper u) :
    loadScaleLimits F s = .ok (l, u) := by
  unfold loadScaleLimits
  rw [loadLimit_text hl, loadLimit_text hu]
  rfl

theorem says_limits {F : FloatRead} {s : CompuScale} {c : ScaleContent} (h : ScaleSays F s c) :
    loadScaleLimits F s = .ok (c.lower, c.upper) := by
  cases h with
  | name hl hu _ => exact loadScaleLimits_text hl hu
  | plain hl hu _ _ => exact loadScaleLimits_text hl hu
  | rational hl hu _ _ _ _ _ _ => exact loadScaleLimits_text hl hu

/-- What a linear scale makes of a signal. -/
def scalingOf (c : ScaleContent) (v0 v1 d : Rat) : Scaling :=
  { minimum := c.lower.map fun l => l * (v1 / d) + v0 / d,
    maximum := c.upper.map fun u => u * (v1 / d) + v0 / d, factor := v1 / d, offset := v0 / d }

/-- What each scale adds to the limits, the scaling and the names. -/
def addScale (acc : Scaling × Choices) (c : ScaleContent) : Scaling × Choices :=
  match c.body with
  | .linear v0 v1 d => (scalingOf c v0 v1 d, acc.2)
  | .name n =>
    match c.lower with
    | some q => (acc.1, dictSet acc.2 q.num (.named { value := q.num, name := n }))
    | none => acc

theorem says_vt {F : FloatRead} {s : CompuScale} {c : ScaleContent} (h : ScaleSays F s c) {n : String}
    (hn : c.body = .name n) : s.vt = some n := by
  cases h with
  | name _ _ hv =>
    rw [hv]
    exact congrArg some (ScaleBody.name.inj hn)
  | plain => exact absurd hn (by simp)
  | rational => exact absurd hn (by simp)

theorem linearScale_text {F : FloatRead} {s : CompuScale} {c : ScaleContent} (h : ScaleSays F s c)
    {v0 v1 d : Rat} (hb : c.body = .linear v0 v1 d)
    (hlu : ∀ l u, c.lower = some l → c.upper = some u → l ≤ u) :
    s.vt = none ∧ loadLinearScale F s = .ok (scalingOf c v0 v1 d) := by
  have hlim := says_limits h
  have hc : s.vt = none ∧ loadCoeffs F s.coeffs = .ok (v1 / d, v0 / d) := by
    cases h with
    | name => exact absurd hb (by simp)
    | plain _ _ hv hc =>
      obtain ⟨rfl, rfl, rfl⟩ := ScaleBody.linear.inj hb
      refine ⟨hv, ?_⟩
      rw [hc]
      simp [loadCoeffs]
    | rational _ _ hv hc h0 h1 hd hne =>
      obtain ⟨rfl, rfl, rfl⟩ := ScaleBody.linear.inj hb
      refine ⟨hv, ?_⟩
      rw [hc]
      unfold loadCoeffs
      dsimp only
      rw [parseNumber_float hd, parseNumber_float h1, parseNumber_float h0]
      change (if _ then _ else _) = _
      rw [if_neg hne]
      rfl
  refine ⟨hc.1, ?_⟩
  unfold loadLinearScale
  rw [hc.2, hlim]
  change Except.ok _ = _
  unfold scalingOf
  cases hl : c.lower with
  | none => cases hu : c.upper <;> rfl
  | some l =>
    cases hu : c.upper with
    | none => rfl
    | some u =>
      have := hlu l u hl hu
      dsimp only
      rw [if_neg (not_lt.2 this)]

theorem addName_int (choices : Choices) (i : Int) (n : String) :
    addName choices (i : Rat) n = .ok (dictSet choices i (.named { value := i, name := n })) := by
  unfold addName
  rw [if_pos (by simp)]
  simp

theorem mixedScale_text {F : FloatRead} {s : CompuScale} {c : ScaleContent} (h : ScaleSays F s c)
    (hc : NamesOne c ∨ Increasing c) (acc : Scaling × Choices) :
    mixedScale F acc s = .ok (addScale acc c) := by
  rcases hc with ⟨n, i, hb, hl, hu⟩ | ⟨v0, v1, d, hb, _, hlu⟩
  · unfold mixedScale addScale
    rw [says_vt h hb, hb, hl]
    dsimp only
    rw [says_limits h, hl, hu]
    change (if (i : Rat) = (i : Rat) then _ else _) = _
    rw [if_pos rfl, addName_int]
    simp
  · obtain ⟨hv, hs⟩ := linearScale_text h hb hlu
    unfold mixedScale addScale
    rw [hv, hb]
    dsimp only
    rw [hs]
    rfl

theorem textScale_text {F : FloatRead} {s : CompuScale} {c : ScaleContent} (h : ScaleSays F s c)
    (hc : NamesOne c) (acc : Scaling × Choices) :
    textScale F acc.2 s = .ok (addScale acc c).2 ∧ (addScale acc c).1 = acc.1 := by
  obtain ⟨n, i, hb, hl, hu⟩ := hc
  unfold textScale addScale
  rw [says_limits h, hb, hl, hu, says_vt h hb]
  refine ⟨?_, rfl⟩
  change (if some (i : Rat) = some (i : Rat) then _ else _) = _
  rw [if_pos rfl, addName_int]
  simp

theorem loadMixed_text {F : FloatRead} {ss : List CompuScale} {cs : List ScaleContent}
    (h : List.Forall₂ (ScaleSays F) ss cs) (hc : ∀ c ∈ cs, NamesOne c ∨ Increasing c)
    (acc : Scaling × Choices) :
    ss.foldlM (mixedScale F) acc = .ok (cs.foldl addScale acc) := by
  induction h generalizing acc with
  | nil => rfl
  | @cons s c ss cs h1 h2 ih =>
    rw [List.foldlM_cons, mixedScale_text h1 (hc c (by simp)) acc]
    exact ih (fun c hc' => hc c (List.mem_cons_of_mem _ hc')) (addScale acc c)

theorem loadTexttable_text {F : FloatRead} {ss : List CompuScale} {cs : List ScaleContent}
    (h : List.Forall₂ (ScaleSays F) ss cs) (hc : ∀ c ∈ cs, NamesOne c) (acc : Scaling × Choices) :
    ss.foldlM (textScale F) acc.2 = .ok (cs.foldl addScale acc).2 ∧
      (cs.foldl addScale acc).1 = acc.1 := by
  induction h generalizing acc with
  | nil => exact ⟨rfl, rfl⟩
  | @cons s c ss cs h1 h2 ih =>
    have h := textScale_text h1 (hc c (by simp)) acc
    rw [List.foldlM_cons, h.1]
    have ih' := ih (fun c hc' => hc c (List.mem_cons_of_mem _ hc')) (addScale acc c)
    exact ⟨ih'.1, ih'.2.trans h.2⟩

theorem namesOne_increasing {c : ScaleContent} (h : NamesOne c) (h' : Increasing c) : False := by
  obtain ⟨n, i, hb, -⟩ := h
  obtain ⟨v0, v1, d, hb', -⟩ := h'
  rw [hb] at hb'
  exact absurd hb' (by simp)

/-- A number no scale names keeps its entry. -/
theorem get_other {cs : List ScaleContent} (hc : ∀ c ∈ cs, NamesOne c ∨ Increasing c) (k : Int)
    (hk : ∀ c ∈ cs, NamesOne c → c.lower ≠ some (k : Rat)) (acc : Scaling × Choices) :
    dictGet? (cs.foldl addScale acc).2 k = dictGet? acc.2 k := by
  induction cs generalizing acc with
  | nil => rfl
  | cons c cs ih =>
    rw [List.foldl_cons, ih (fun c h => hc c (List.mem_cons_of_mem _ h))
      (fun c h => hk c (List.mem_cons_of_mem _ h))]
    rcases hc c (by simp) with hn | ⟨v0, v1, d, hb, -⟩
    · have hne := hk c (by simp) hn
      obtain ⟨n, i, hb, hl, -⟩ := hn
      unfold addScale
      rw [hb, hl]
      dsimp only
      rw [dictGet?_set, if_neg]
      rintro rfl
      exact hne (by rw [hl]; simp)
    · unfold addScale
      rw [hb]

/-- The entry a scale makes is there in the end. -/
theorem get_named {cs : List ScaleContent} (hs : SupportedScales cs) {c : ScaleContent} (hm : c ∈ cs)
    {n : String} {i : Int} (hb : c.body = .name n) (hl : c.lower = some (i : Rat))
    (hu : c.upper = some (i : Rat)) (acc : Scaling × Choices) :
    dictGet? (cs.foldl addScale acc).2 i = some (.named { value := i, name := n }) := by
  obtain ⟨l1, l2, rfl⟩ := List.append_of_mem hm
  have hone : NamesOne c := ⟨n, i, hb, hl, hu⟩
  have hp := (List.pairwise_cons.1 (List.pairwise_append.1 hs.names).2.1).1
  rw [List.foldl_append, List.foldl_cons, get_other
    (fun c h => hs.each c (List.mem_append_right _ (List.mem_cons_of_mem _ h))) i
    (fun c' h hn e => hp c' h hone hn (hl.trans e.symm))]
  unfold addScale
  rw [hb, hl]
  dsimp only
  rw [dictGet?_set]
  simp

/-- Without linear scale the scaling is the one from before. -/
theorem scaling_other {cs : List ScaleContent} (hc : ∀ c ∈ cs, NamesOne c) (acc : Scaling × Choices) :
    (cs.foldl addScale acc).1 = acc.1 := by
  induction cs generalizing acc with
  | nil => rfl
  | cons c cs ih =>
    rw [List.foldl_cons, ih (fun c h => hc c (List.mem_cons_of_mem _ h))]
    obtain ⟨n, i, hb, hl, -⟩ := hc c (by simp)
    unfold addScale
    rw [hb, hl]

theorem scaling_linear {cs : List ScaleContent} (hs : SupportedScales cs) {c : ScaleContent}
    (hm : c ∈ cs) (hi : Increasing c) {v0 v1 d : Rat} (hb : c.body = .linear v0 v1 d)
    (acc : Scaling × Choices) : (cs.foldl addScale acc).1 = scalingOf c v0 v1 d := by
  obtain ⟨l1, l2, rfl⟩ := List.append_of_mem hm
  have hp := (List.pairwise_cons.1 (List.pairwise_append.1 hs.one).2.1).1
  rw [List.foldl_append, List.foldl_cons, scaling_other]
  · unfold addScale
    rw [hb]
  · intro c' h
    rcases hs.each c' (List.mem_append_right _ (List.mem_cons_of_mem _ h)) with h' | h'
    · exact h'
    · exact absurd ⟨hi, h'⟩ (hp c' h)

/-- The entries of the table come from the scales. -/
theorem mem_table {cs : List ScaleContent} (hc : ∀ c ∈ cs, NamesOne c ∨ Increasing c) :
    ∀ e ∈ (cs.foldl addScale (noScaling, [])).2, ∃ c ∈ cs, ∃ n, c.body = .name n ∧
      c.lower = some (e.1 : Rat) ∧ c.upper = some (e.1 : Rat) ∧ e.2 = .named { value := e.1, name := n } := by
  have key : ∀ (acc : Scaling × Choices), ∀ e ∈ (cs.foldl addScale acc).2, e ∈ acc.2 ∨
      ∃ c ∈ cs, ∃ n, c.body = .name n ∧ c.lower = some (e.1 : Rat) ∧ c.upper = some (e.1 : Rat) ∧
        e.2 = .named { value := e.1, name := n } := by
    induction cs with
    | nil => exact fun acc e he => Or.inl he
    | cons c cs ih =>
      intro acc e he
      rcases ih (fun c h => hc c (List.mem_cons_of_mem _ h)) (addScale acc c) e he with h | ⟨c', h, r⟩
      · rcases hc c (by simp) with ⟨n, i, hb, hl, hu⟩ | ⟨v0, v1, d, hb, -⟩
        · unfold addScale at h
          rw [hb, hl] at h
          dsimp only at h
          rcases Dbc.mem_dictSet h with rfl | h
          · exact Or.inr ⟨c, by simp, n, hb, by rw [hl]; simp, by rw [hu]; simp, rfl⟩
          · exact Or.inl h
        · unfold addScale at h
          rw [hb] at h
          exact Or.inl h
      · exact Or.inr ⟨c', List.mem_cons_of_mem _ h, r⟩
  intro e he
  rcases key _ e he with h | h
  · exact absurd h List.not_mem_nil
  · exact h

end Cantools.ArxmlScale
