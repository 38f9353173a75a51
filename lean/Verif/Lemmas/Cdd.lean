import Verif.Model.Cdd
import Verif.Spec.Cdd
import Verif.Lemmas.Kcd
import Verif.Lemmas.KcdText
import Verif.Lemmas.Values
import Verif.Lemmas.Did

/-!
Loading of CDD files.
-/

namespace Cantools.Cdd

open Kcd (Xml NumText readInt readDigits digit?)
open Spec

theorem bind_of_ok {α β : Type} {x : Except Err α} {a : α} {f : α → Except Err β} (h : x = .ok a) :
    (x >>= f) = f a := by rw [h]; rfl

/-! ### Dictionaries made in a loop -/

section
variable {α κ : Type} [DecidableEq κ]

theorem get_fold (k : α → κ) (l : List α) (acc : List (κ × α)) (key : κ) :
    dictGet? (l.foldl (fun d a => dictSet d (k a) a) acc) key =
      ((l.reverse.find? fun a => decide (k a = key)).or (dictGet? acc key)) := by
  induction l generalizing acc with
  | nil => rfl
  | cons a r ih =>
    rw [List.foldl_cons, ih, dictGet?_set, List.reverse_cons, List.find?_append]
    cases hf : (r.reverse.find? fun a => decide (k a = key)) with
    | some b => rfl
    | none =>
      by_cases h : k a = key
      · simp [h]
      · simp [h]

theorem find_last {l : List α} {p : α → Prop} [DecidablePred p] {a : α} :
    (l.reverse.find? fun a => decide (p a)) = some a ↔ IsLast p l a := by
  rw [List.find?_eq_some_iff_append]
  constructor
  · rintro ⟨hp, as, bs, h, hn⟩
    refine ⟨bs.reverse, as.reverse, ?_, by simpa using hp, ?_⟩
    · have := congrArg List.reverse h
      simpa using this
    · intro b hb
      simpa using hn b (by simpa using hb)
  · rintro ⟨as, bs, rfl, hp, hn⟩
    refine ⟨by simpa using hp, bs.reverse, as.reverse, by simp, ?_⟩
    intro b hb
    simpa using hn b (by simpa using hb)

theorem get_unique (k : α → κ) {l : List α} (hnd : (l.map k).Nodup) {a : α} (ha : a ∈ l) :
    dictGet? (l.foldl (fun d a => dictSet d (k a) a) []) (k a) = some a := by
  rw [get_fold]
  obtain ⟨x, y, rfl⟩ := List.append_of_mem ha
  have : ((x ++ a :: y).reverse.find? fun b => decide (k b = k a)) = some a := by
    refine (find_last (p := fun b => k b = k a)).2 ⟨x, y, rfl, rfl, ?_⟩
    intro b hb e
    rw [List.map_append, List.map_cons] at hnd
    have := (List.nodup_cons.1 (List.nodup_append.1 hnd).2.1).1
    exact this (by rw [← e]; exact List.mem_map_of_mem hb)
  rw [this]
  rfl

theorem filter_unique (k : α → κ) {l : List α} (hnd : (l.map k).Nodup) {a : α} (ha : a ∈ l) :
    l.filter (fun b => decide (k b = k a)) = [a] := by
  induction l with
  | nil => exact absurd ha List.not_mem_nil
  | cons b r ih =>
    rw [List.map_cons, List.nodup_cons] at hnd
    rcases List.mem_cons.1 ha with rfl | ha
    · rw [List.filter_cons_of_pos (by simp), List.filter_eq_nil_iff.2]
      intro c hc e
      exact hnd.1 (by rw [← of_decide_eq_true e]; exact List.mem_map_of_mem hc)
    · rw [List.filter_cons_of_neg, ih hnd.2 ha]
      intro e
      exact hnd.1 (by rw [of_decide_eq_true e]; exact List.mem_map_of_mem ha)

end

/-! ### Elements -/

theorem findAll_kids (x : Xml) (t : String) : x.findAll t = kids x t := by
  unfold Xml.findAll kids
  apply List.filter_congr
  intro c _
  exact beq_eq_decide ..

theorem find_kids (x : Xml) (t : String) : x.find? t = (kids x t).head? := by
  rw [← findAll_kids]
  unfold Xml.find? Xml.findAll
  rw [List.head?_filter]

theorem findPath_one (x : Xml) (t : String) : findPath x [t] = kids x t := by
  simp [findPath, findAll_kids]

theorem findPath_two (x : Xml) (t u : String) :
    findPath x [t, u] = (kids x t).flatMap fun c => kids c u := by
  rw [findPath, findAll_kids]
  exact congrArg (fun f => List.flatMap f (kids x t)) (funext fun c => findPath_one c u)

theorem findPath_four (x : Xml) (t u v w : String) :
    findPath x [t, u, v, w] = (kids x t).flatMap fun c => (kids c u).flatMap fun d =>
      (kids d v).flatMap fun e => kids e w := by
  rw [findPath, findAll_kids]
  refine congrArg (fun f => List.flatMap f (kids x t)) (funext fun c => ?_)
  rw [findPath, findAll_kids]
  exact congrArg (fun f => List.flatMap f (kids c u)) (funext fun d => findPath_two d v w)

theorem text_two {x n v : Xml} {t u : String} {r : List Xml} (hn : kids x t = [n])
    (hv : kids n u = v :: r) : findText x [t, u] = some (v.text.getD "") := by
  unfold findText
  rw [findPath_two, hn]
  simp [hv]

theorem text_one {x q : Xml} {t s : String} (hq : kids x t = [q]) (hs : q.text = some s) :
    findText x [t] = some s := by
  unfold findText
  rw [findPath_one, hq]
  simp [hs]

theorem attrib_some {x : Xml} {n v : String} (h : x.attr? n = some v) : attrib x n = .ok v := by
  unfold attrib
  rw [h]

/-! ### Numbers -/

theorem digit_digitChar {d : Nat} (h : d < 10) : digit? (Nat.digitChar d) = some d := by
  interval_cases d <;> rfl

theorem readDigits_digitText {ds : List Nat} (h : ∀ d ∈ ds, d < 10) (n : Nat) :
    readDigits 10 digit? (digitText ds) n = some (n * 10 ^ ds.length + Nat.ofDigits 10 ds.reverse) := by
  induction ds generalizing n with
  | nil => simp [digitText, readDigits]
  | cons d r ih =>
    have hr := ih (fun x hx => h x (List.mem_cons_of_mem _ hx)) (n * 10 + d)
    unfold digitText at hr ⊢
    rw [List.map_cons, readDigits, digit_digitChar (h d (by simp)), Option.bind_some, hr,
      List.reverse_cons, Nat.ofDigits_append, List.length_reverse, List.length_cons]
    congr 1
    simp only [Nat.ofDigits_singleton]
    ring

theorem digitChar_digit {d : Nat} (h : d < 10) : Nat.digitChar d ∈ "0123456789".toList := by
  interval_cases d <;> decide

theorem readInt_decimal {s : String} {i : Int} (h : DecimalText s i) : readInt s = .ok i := by
  cases h with
  | @nat ds hne hds =>
    obtain ⟨d, r, rfl⟩ := List.exists_cons_of_ne_nil hne
    have hd := readDigits_digitText hds 0
    have hc := digitChar_digit (hds d (by simp))
    have hcm : Nat.digitChar d ≠ '-' := by
      intro e
      rw [e] at hc
      exact absurd hc (by decide)
    unfold digitText at hd ⊢
    rw [List.map_cons] at hd ⊢
    unfold readInt
    rw [String.toList_ofList]
    split
    · rename_i e; cases e
    · rename_i e; exact absurd (List.cons.inj e).1 hcm
    · rename_i e; exact absurd (List.cons.inj e).1 hcm
    · rw [hd]; simp
  | @neg ds hne hds =>
    obtain ⟨d, r, rfl⟩ := List.exists_cons_of_ne_nil hne
    have hd := readDigits_digitText hds 0
    unfold digitText at hd ⊢
    rw [List.map_cons] at hd ⊢
    unfold readInt
    rw [String.toList_ofList]
    show (match readDigits 10 digit? (d.digitChar :: List.map Nat.digitChar r) 0 with
      | some n => Except.ok (-(n : Int)) | none => .error Err.valueError) = _
    rw [hd]
    simp

theorem decimal_chars {s : String} {i : Int} (h : DecimalText s i) :
    s.toList ≠ [] ∧ ∀ c ∈ s.toList, c ≠ '(' ∧ c ≠ ')' := by
  have key : ∀ ds : List Nat, (∀ d ∈ ds, d < 10) → ∀ c ∈ digitText ds, c ≠ '(' ∧ c ≠ ')' := by
    intro ds hds c hc
    obtain ⟨d, hd, rfl⟩ := List.mem_map.1 hc
    have := digitChar_digit (hds d hd)
    constructor
    · intro e; rw [e] at this; exact absurd this (by decide)
    · intro e; rw [e] at this; exact absurd this (by decide)
  cases h with
  | @nat ds hne hds =>
    rw [String.toList_ofList]
    exact ⟨by simpa [digitText] using hne, key ds hds⟩
  | @neg ds hne hds =>
    rw [String.toList_ofList]
    refine ⟨by simp, fun c hc => ?_⟩
    rcases List.mem_cons.1 hc with rfl | hc
    · decide
    · exact key ds hds c hc

theorem strip_inner {l a b : List Char} (hl : l ≠ []) (h : ∀ c ∈ l, c ≠ '(' ∧ c ≠ ')')
    (ha : ∀ c ∈ a, c = '(' ∨ c = ')') (hb : ∀ c ∈ b, c = '(' ∨ c = ')') :
    ((((a ++ l ++ b).dropWhile (· ∈ ['(', ')'])).reverse.dropWhile (· ∈ ['(', ')'])).reverse) = l := by
  have hdrop : ∀ (x y : List Char), (∀ c ∈ x, c = '(' ∨ c = ')') →
      (∀ c, y.head? = some c → c ≠ '(' ∧ c ≠ ')') →
      (x ++ y).dropWhile (fun c => decide (c ∈ ['(', ')'])) = y := by
    intro x y hx hy
    rw [List.dropWhile_append_of_pos]
    · cases y with
      | nil => rfl
      | cons c r =>
        rw [List.dropWhile_cons_of_neg]
        have := hy c rfl
        simp [this]
    · intro c hc
      simpa using hx c hc
  rw [List.append_assoc, hdrop a (l ++ b) ha, List.reverse_append, hdrop b.reverse l.reverse, List.reverse_reverse]
  · intro c hc
    exact hb c (List.mem_reverse.1 hc)
  · intro c hc
    exact h c (List.mem_reverse.1 (List.mem_of_mem_head? hc))
  · intro c hc
    cases l with
    | nil => exact absurd rfl hl
    | cons d r =>
      obtain rfl : d = c := by simpa using hc
      exact h d (by simp)

theorem readInt_label {t : String} {i : Int} (h : LabelLimit t i) : readInt (stripParens t) = .ok i := by
  obtain ⟨s, hs, h⟩ := h
  obtain ⟨h1, h2⟩ := decimal_chars hs
  have : stripParens t = s := by
    unfold stripParens
    rcases h with rfl | rfl
    · have := strip_inner (a := []) (b := []) h1 h2 (by simp) (by simp)
      simp only [List.nil_append, List.append_nil] at this
      rw [this, String.ofList_toList]
    · have := strip_inner (a := ['(']) (b := [')']) h1 h2 (by simp) (by simp)
      rw [String.toList_append, String.toList_append]
      exact (congrArg String.ofList this).trans String.ofList_toList
  rw [this]
  exact readInt_decimal hs

/-! ### Data types -/

/-- The names that are kept. -/
def choicesOf (ls : List CddLabel) (acc : Choices) : Choices :=
  ls.foldl (fun cs l => if l.first = l.last then dictSet cs l.first (.str l.text) else cs) acc

theorem addChoice_says {x : Xml} {l : CddLabel} (h : LabelSays x l) (cs : Choices) :
    addChoice cs x = .ok (if l.first = l.last then dictSet cs l.first (.str l.text) else cs) := by
  obtain ⟨⟨t1, h1, h1'⟩, ⟨t2, h2, h2'⟩, n, v, r, hn, hv, ht⟩ := h
  unfold addChoice
  rw [attrib_some h1, attrib_some h2]
  refine (bind_of_ok (rfl : (Except.ok t1 : Except Err String) = .ok t1)).trans ?_
  refine (bind_of_ok (readInt_label h1')).trans ?_
  refine (bind_of_ok (rfl : (Except.ok t2 : Except Err String) = .ok t2)).trans ?_
  refine (bind_of_ok (readInt_label h2')).trans ?_
  rw [text_two hn hv, ht]
  split
  · rfl
  · rfl

theorem loadChoices_says {x : Xml} {ls : List CddLabel}
    (h : List.Forall₂ LabelSays (kids x "TEXTMAP") ls) :
    loadChoices x = .ok (if choicesOf ls [] = [] then none else some (choicesOf ls [])) := by
  unfold loadChoices
  rw [findAll_kids]
  have key : ∀ (xs : List Xml) (ls : List CddLabel) (acc : Choices), List.Forall₂ LabelSays xs ls →
      xs.foldlM addChoice acc = .ok (choicesOf ls acc) := by
    intro xs ls acc h
    induction h generalizing acc with
    | nil => rfl
    | @cons x l xs ls h1 _ ih =>
      rw [List.foldlM_cons, addChoice_says h1]
      exact ih _
  rw [key _ _ _ h]
  rfl

theorem readOpt_some {x : Xml} {n s : String} {i : Int} (h : x.attr? n = some s) (hs : DecimalText s i) :
    readOpt x n = .ok (some i) := by
  unfold readOpt
  rw [h]
  dsimp only
  rw [readInt_decimal hs]
  rfl

theorem readOpt_number {x : Xml} {n : String} (h : NumberAttr x n) : ∃ r, readOpt x n = .ok r := by
  cases e : x.attr? n with
  | none => exact ⟨none, by unfold readOpt; rw [e]⟩
  | some t =>
    obtain ⟨i, hi⟩ := h t e
    exact ⟨_, readOpt_some e hi⟩

/-- What is kept of a data type. -/
structure TypeLoaded (t : CddType) (d : DataType) : Prop where
  bits : d.bitLength = t.bits
  order : d.byteOrder = t.order
  unit : d.unit = t.unit
  factor : d.factor = t.factor
  offset : d.offset = t.offset
  choices : d.choices = if choicesOf t.labels [] = [] then none else some (choicesOf t.labels [])

theorem loadCType_says {T : NumText} {x : Xml} {t : CddType} (h : TypeSays T x t) :
    ∃ enc mn mx, loadCType (x.find? "CVALUETYPE") = .ok (t.bits, enc, mn, mx, t.order) := by
  obtain ⟨c, hc, ⟨s, hs, hb⟩, hbo, -, hmin, hmax, -⟩ := h.ctype
  obtain ⟨mn, hmn⟩ := readOpt_number hmin
  obtain ⟨mx, hmx⟩ := readOpt_number hmax
  refine ⟨c.attr? "enc", mn, mx, ?_⟩
  rw [find_kids, hc]
  unfold loadCType
  dsimp only [List.head?_cons]
  refine (bind_of_ok (readOpt_some hs hb)).trans ?_
  refine (bind_of_ok hmn).trans ?_
  refine (bind_of_ok hmx).trans ?_
  refine (bind_of_ok (attrib_some hbo)).trans ?_
  cases t.order <;> rfl

theorem loadComp_says {T : NumText} {x : Xml} {t : CddType} (h : TypeSays T x t) :
    loadComp T (x.find? "COMP") = .ok (t.factor, t.offset) := by
  rw [find_kids]
  rcases h.comp with ⟨h1, h2, h3⟩ | ⟨c, f, o, hc, hf, ho, hf', ho'⟩
  · rw [h1, h2, h3]
    rfl
  · rw [hc]
    unfold loadComp
    dsimp only [List.head?_cons]
    rw [attrib_some hf, attrib_some ho]
    refine (bind_of_ok (rfl : (Except.ok f : Except Err String) = .ok f)).trans ?_
    refine (bind_of_ok hf').trans ?_
    refine (bind_of_ok (rfl : (Except.ok o : Except Err String) = .ok o)).trans ?_
    refine (bind_of_ok ho').trans ?_
    rfl

theorem unit_says {T : NumText} {x : Xml} {t : CddType} (h : TypeSays T x t) :
    findText x ["PVALUETYPE", "UNIT"] = t.unit := by
  have hu := h.unit
  cases e : t.unit with
  | none =>
    rw [e] at hu
    unfold findText
    rw [findPath_two]
    rcases hu with hu | ⟨p, hp, hq⟩
    · rw [hu]; rfl
    · rw [hp]; simp [hq]
  | some u =>
    rw [e] at hu
    obtain ⟨p, q, hp, hq, ht⟩ := hu
    rw [text_two hp hq, ht]
    rfl

theorem loadDataType_says {T : NumText} {x : Xml} {t : CddType} (h : TypeSays T x t) :
    ∃ d, loadDataType T x = .ok d ∧ x.attr? "id" = some d.id ∧ TypeLoaded t d := by
  obtain ⟨i, hi⟩ := h.id
  obtain ⟨n, v, r, hn, hv⟩ := h.name
  obtain ⟨enc, mn, mx, hc⟩ := loadCType_says h
  refine ⟨{ name := v.text.getD "", id := i, bitLength := t.bits, encoding := enc, minimum := mn, maximum := mx
            choices := if choicesOf t.labels [] = [] then none else some (choicesOf t.labels [])
            byteOrder := t.order, unit := t.unit, factor := t.factor, offset := t.offset }, ?_, hi,
    ⟨rfl, rfl, rfl, rfl, rfl, rfl⟩⟩
  unfold loadDataType
  rw [text_two hn hv, attrib_some hi]
  refine (bind_of_ok (rfl : required (some _) = .ok _)).trans ?_
  refine (bind_of_ok (rfl : (Except.ok i : Except Err String) = .ok i)).trans ?_
  refine (bind_of_ok hc).trans ?_
  dsimp only
  refine (bind_of_ok (loadChoices_says h.labels)).trans ?_
  refine (bind_of_ok (loadComp_says h)).trans ?_
  dsimp only
  rw [if_neg (Nat.pos_iff_ne_zero.1 h.pos), unit_says h]
  rfl

theorem typeElements_eq (doc : Xml) : typeElements doc = typeDefs doc := by
  unfold typeElements typeDefs
  rw [findAll_kids]

theorem loadDataTypes_says {T : NumText} {doc : Xml} (h : ∀ d ∈ typeDefs doc, ∃ t, TypeSays T d t)
    (hnd : ((typeDefs doc).map fun d => d.attr? "id").Nodup) :
    ∃ types, loadDataTypes T doc = .ok types ∧ ∀ x ∈ typeDefs doc, ∀ i, x.attr? "id" = some i →
      ∃ d, dictGet? types i = some d ∧ loadDataType T x = .ok d := by
  obtain ⟨ds, -, hds⟩ := Kcd.mapM_exists (f := loadDataType T)
    (P := fun x d => loadDataType T x = .ok d ∧ x.attr? "id" = some d.id) (l := typeDefs doc)
    (fun x hx => by
      obtain ⟨t, ht⟩ := h x hx
      obtain ⟨d, h1, h2, -⟩ := loadDataType_says ht
      exact ⟨d, h1, h1, h2⟩)
  have hfold : ∀ (xs : List Xml) (ds : List DataType) (acc : List (String × DataType)),
      List.Forall₂ (fun x d => loadDataType T x = .ok d ∧ x.attr? "id" = some d.id) xs ds →
      xs.foldlM (fun types x => do
        let t ← loadDataType T x
        pure (dictSet types t.id t)) acc = (.ok (ds.foldl (fun d a => dictSet d a.id a) acc) : Except Err _) := by
    intro xs ds acc h
    induction h generalizing acc with
    | nil => rfl
    | @cons x d xs ds h1 _ ih =>
      rw [List.foldlM_cons]
      refine (bind_of_ok (a := dictSet acc d.id d) ?_).trans (ih _)
      rw [h1.1]
      rfl
  have hids : (typeDefs doc).map (fun d => d.attr? "id") = ds.map fun d => some d.id := by
    clear hnd hfold h
    generalize typeDefs doc = xs at hds
    induction hds with
    | nil => rfl
    | cons h1 _ ih => rw [List.map_cons, List.map_cons, h1.2, ih]
  have hnd' : (ds.map fun d => d.id).Nodup := by
    rw [hids] at hnd
    have : (ds.map fun d => some d.id) = (ds.map fun d => d.id).map some := by rw [List.map_map]; rfl
    rw [this] at hnd
    exact List.Nodup.of_map _ hnd
  refine ⟨ds.foldl (fun d a => dictSet d a.id a) [], ?_, ?_⟩
  · unfold loadDataTypes
    rw [typeElements_eq]
    exact hfold _ _ _ hds
  · intro x hx i hi
    obtain ⟨n, hn, rfl⟩ := List.mem_iff_getElem.1 hx
    have hlen := hds.length_eq
    have := List.Forall₂.get hds hn (by omega)
    simp only [List.get_eq_getElem] at this
    refine ⟨ds[n], ?_, this.1⟩
    rw [this.2] at hi
    rw [← Option.some.inj hi]
    exact get_unique (fun d : DataType => d.id) hnd' (List.getElem_mem _)

/-! ### Fields -/

theorem choicesOf_get {ls : List CddLabel} (hs : ∀ l ∈ ls, l.first = l.last)
    (hnd : (ls.map (·.first)).Nodup) (acc : Choices) (k : Int) :
    dictGet? (choicesOf ls acc) k = match ls.find? fun l => decide (l.first = k) with
      | some l => some (.str l.text)
      | none => dictGet? acc k := by
  induction ls generalizing acc with
  | nil => rfl
  | cons l r ih =>
    rw [List.map_cons, List.nodup_cons] at hnd
    have ih := ih (fun x hx => hs x (List.mem_cons_of_mem _ hx)) hnd.2 (dictSet acc l.first (.str l.text))
    have : choicesOf (l :: r) acc = choicesOf r (dictSet acc l.first (.str l.text)) := by
      unfold choicesOf
      rw [List.foldl_cons, if_pos (hs l (by simp))]
    rw [this, ih, dictGet?_set]
    by_cases h : l.first = k
    · rw [List.find?_cons_of_pos (by simpa using h)]
      have : (r.find? fun l => decide (l.first = k)) = none := by
        rw [List.find?_eq_none]
        intro x hx e
        exact hnd.1 (by rw [h, ← of_decide_eq_true e]; exact List.mem_map_of_mem hx)
      rw [this, if_pos h]
    · rw [List.find?_cons_of_neg (by simpa using h), if_neg h]

theorem factory_shows {t : CddType} (h : SupportedType t) (raw : Int) :
    ObjectShows t raw ((Conversion.factory t.factor t.offset
      (if choicesOf t.labels [] = [] then none else some (choicesOf t.labels [])) false).rawToScaled raw true) := by
  have hf := factory_scale t.factor t.offset false
  have hnum : (BaseConv.factory t.factor t.offset false).rawToScaled (raw : Rat) = t.factor * raw + t.offset := by
    rw [rawToScaled_eq, hf.1, hf.2.1]
    ring
  have hget := choicesOf_get h.labels h.unique [] raw
  have hnone : (t.labels.find? fun l => decide (l.first = raw)) = none →
      ∀ l ∈ t.labels, ¬ (l.first ≤ raw ∧ raw ≤ l.last) := by
    intro e l hl hr
    have := h.labels l hl
    have := List.find?_eq_none.1 e l hl
    exact this (by simp; omega)
  by_cases he : choicesOf t.labels [] = []
  · rw [if_pos he]
    rw [he] at hget
    refine .inr ⟨?_, ?_⟩
    · apply hnone
      cases e : t.labels.find? fun l => decide (l.first = raw) with
      | none => rfl
      | some l => rw [e] at hget; cases hget
    · show Value.num _ = _
      rw [hnum]
  · rw [if_neg he]
    dsimp only [Conversion.factory, Conversion.rawToScaled]
    rw [pyInt_int, if_pos rfl, hget]
    cases e : t.labels.find? fun l => decide (l.first = raw) with
    | none =>
      refine .inr ⟨hnone e, ?_⟩
      show Value.num _ = _
      rw [hnum]
    | some l =>
      have hm := List.mem_of_find?_eq_some e
      have hp := List.find?_some e
      have := h.labels l hm
      simp only [decide_eq_true_eq] at hp
      exact .inl ⟨l, hm, by omega, by omega, rfl⟩

/-- A field made of a data object. -/
structure FieldLoaded (o : CddObject) (f : CddField) : Prop where
  name : f.name = o.name
  bits : f.bitLength = o.type.size
  pos : 0 < f.bitLength
  order : f.byteOrder = o.type.order
  unit : f.unit = o.type.unit
  built : Built f.conversion
  isInt : f.conversion.isFloat = false
  shows_ : ∀ raw : Int, ObjectShows o.type raw (f.conversion.rawToScaled raw true)

theorem factory_isFloat (s o : Rat) (c : Option Choices) :
    (Conversion.factory s o c false).isFloat = false := by
  have := (factory_scale s o false).2.2
  cases c <;> exact this

theorem loadField_says {T : NumText} {doc x : Xml} {o : CddObject} (h : ObjectSays T doc x o)
    (hs : SupportedType o.type) {types : List (String × DataType)}
    (ht : ∀ x ∈ typeDefs doc, ∀ i, x.attr? "id" = some i →
      ∃ d, dictGet? types i = some d ∧ loadDataType T x = .ok d) :
    ∃ f, loadField types x = .ok f ∧ FieldLoaded o f := by
  obtain ⟨⟨q, hq, hn⟩, d, hd, ⟨i, hi, hdi⟩, hts⟩ := h
  obtain ⟨t, hget, hload⟩ := ht d hd i hdi
  obtain ⟨t', hload', -, hl⟩ := loadDataType_says hts
  rw [hload] at hload'
  obtain rfl := Except.ok.inj hload'
  refine ⟨{ name := o.name, bitLength := t.bitLength, byteOrder := t.byteOrder
            conversion := Conversion.factory t.factor t.offset t.choices false
            minimum := t.minimum.map fun i : Int => (i : Rat)
            maximum := t.maximum.map fun i : Int => (i : Rat), unit := t.unit }, ?_, ?_⟩
  · unfold loadField
    rw [attrib_some hi, text_one hq hn]
    refine (bind_of_ok (rfl : (Except.ok i : Except Err String) = .ok i)).trans ?_
    refine (bind_of_ok (dictGet_eq_ok.2 hget)).trans ?_
    rfl
  · refine ⟨rfl, ?_, ?_, hl.order, hl.unit, ⟨_, _, _, _, rfl⟩, factory_isFloat _ _ _, ?_⟩
    · show t.bitLength = _
      rw [hl.bits, CddType.size, hs.single, Nat.mul_one]
    · show 0 < t.bitLength
      rw [hl.bits]
      exact hts.pos
    · intro raw
      show ObjectShows _ _ ((Conversion.factory t.factor t.offset t.choices false).rawToScaled raw true)
      rw [hl.factor, hl.offset, hl.choices]
      exact factory_shows hs raw

/-! ### The parts of a DID -/

theorem sorted_split (rank : Xml → Nat) (g0 g1 g2 : Xml → List Xml) (f : Xml → List Xml)
    (h0 : ∀ c, rank c = 0 → f c = g0 c) (h1 : ∀ c, rank c = 1 → f c = g1 c)
    (h2 : ∀ c, rank c = 2 → f c = g2 c) (l : List Xml) (hr : ∀ c ∈ l, rank c < 3)
    (hp : l.Pairwise fun a b => rank a ≤ rank b) :
    l.flatMap f = (l.filter fun c => decide (rank c = 0)).flatMap g0 ++
      ((l.filter fun c => decide (rank c = 1)).flatMap g1 ++
        (l.filter fun c => decide (rank c = 2)).flatMap g2) := by
  induction l with
  | nil => rfl
  | cons c r ih =>
    rw [List.pairwise_cons] at hp
    have ih := ih (fun x hx => hr x (List.mem_cons_of_mem _ hx)) hp.2
    rw [List.flatMap_cons, ih]
    have hc := hr c (by simp)
    have hempty : ∀ k, k < rank c → (r.filter fun x => decide (rank x = k)) = [] := by
      intro k hk
      rw [List.filter_eq_nil_iff]
      intro x hx e
      have := hp.1 x hx
      have := of_decide_eq_true e
      omega
    rcases (show rank c = 0 ∨ rank c = 1 ∨ rank c = 2 by omega) with e | e | e
    · simp [e, h0 c e]
    · simp [e, h1 c e, hempty 0 (by omega)]
    · simp [e, h2 c e, hempty 0 (by omega), hempty 1 (by omega)]

theorem loadRefs_says {doc : Xml} (h1 : (kids doc "DIDS").length ≤ 1)
    (hid : ∀ d ∈ sharedDids doc, ∃ i, d.attr? "id" = some i)
    (hnd : ((sharedDids doc).map fun d => d.attr? "id").Nodup) :
    ∃ lib, loadDidDataRefs doc = .ok lib ∧ ∀ d ∈ sharedDids doc, ∀ i, d.attr? "id" = some i →
      dictGet? lib i = some d := by
  have hfold : ∀ (ds : List Xml) (acc : List (String × Xml)), (∀ d ∈ ds, ∃ i, d.attr? "id" = some i) →
      ds.foldlM (fun lib d => do pure (dictSet lib (← attrib d "id") d)) acc =
        (.ok (ds.foldl (fun lib d => dictSet lib ((d.attr? "id").getD "") d) acc) : Except Err _) := by
    intro ds acc h
    induction ds generalizing acc with
    | nil => rfl
    | cons d r ih =>
      obtain ⟨i, hi⟩ := h d (by simp)
      rw [List.foldlM_cons]
      refine (bind_of_ok (a := dictSet acc i d) (by rw [attrib_some hi]; rfl)).trans ?_
      rw [ih _ fun x hx => h x (List.mem_cons_of_mem _ hx), List.foldl_cons, hi]
      rfl
  refine ⟨(sharedDids doc).foldl (fun lib d => dictSet lib ((d.attr? "id").getD "") d) [], ?_, ?_⟩
  · unfold loadDidDataRefs
    rw [find_kids]
    match hk : kids doc "DIDS" with
    | [] =>
      have : sharedDids doc = [] := by unfold sharedDids; rw [hk]; rfl
      rw [this]
      rfl
    | [x] =>
      have : sharedDids doc = kids x "DID" := by unfold sharedDids; rw [hk]; simp
      rw [this] at hid ⊢
      dsimp only [List.head?_cons]
      rw [findAll_kids]
      exact hfold _ _ hid
    | x :: y :: r => rw [hk] at h1; simp at h1
  · intro d hd i hi
    have hnd' : ((sharedDids doc).map fun d => (d.attr? "id").getD "").Nodup := by
      rw [List.Nodup, List.pairwise_map] at hnd ⊢
      refine List.Pairwise.imp_of_mem ?_ hnd
      intro a b ha hb hab e
      obtain ⟨i, hi⟩ := hid a ha
      obtain ⟨j, hj⟩ := hid b hb
      rw [hi, hj] at e hab
      exact hab (congrArg some e)
    have := get_unique (fun d : Xml => (d.attr? "id").getD "") hnd' hd
    rw [hi] at this
    exact this

theorem dataObjects_says {doc x : Xml} {lib : List (String × Xml)}
    (hlib : ∀ d ∈ sharedDids doc, ∀ i, d.attr? "id" = some i → dictGet? lib i = some d)
    (hnd : ((sharedDids doc).map fun d => d.attr? "id").Nodup)
    (hknown : ∀ c ∈ didParts x, c.tag = "DIDDATAREF" →
      ∃ s ∈ sharedDids doc, ∃ i, s.attr? "id" = some i ∧ c.attr? "didRef" = some i)
    (hord : PartsOrdered x) :
    dataObjects lib x = (didParts x).flatMap (standsFor doc) := by
  have hkids : ∀ t, (kids x "SIMPLECOMPCONT").flatMap (fun c => kids c t) =
      (didParts x).filter fun c => decide (c.tag = t) := by
    intro t
    unfold didParts
    rw [List.filter_flatMap]
    rfl
  have h3 : (didParts x).flatMap (standsFor doc) =
      ((didParts x).filter fun c => partRank c < 3).flatMap (standsFor doc) := by
    induction didParts x with
    | nil => rfl
    | cons c r ih =>
      rw [List.flatMap_cons, ih]
      by_cases h : partRank c < 3
      · rw [List.filter_cons_of_pos (by simpa using h), List.flatMap_cons]
      · rw [List.filter_cons_of_neg (by simpa using h)]
        have : standsFor doc c = [] := by
          unfold partRank at h
          unfold standsFor
          split at h
          · omega
          split at h
          · omega
          split at h
          · omega
          rename_i a b d
          rw [if_neg a, if_neg b, if_neg d]
        rw [this, List.nil_append]
  have r0 : ∀ c : Xml, partRank c = 0 ↔ c.tag = "DATAOBJ" := by
    intro c
    unfold partRank
    split
    · simp_all
    · split
      · simp_all
      · split <;> simp_all
  have r1 : ∀ c : Xml, partRank c = 1 ↔ c.tag = "UNION" := by
    intro c
    unfold partRank
    split
    · simp_all
    · split
      · simp_all
      · split <;> simp_all
  have r2 : ∀ c : Xml, partRank c = 2 ↔ c.tag = "DIDDATAREF" := by
    intro c
    unfold partRank
    split
    · simp_all
    · split
      · simp_all
      · split <;> simp_all
  have hfil : ∀ k t, k < 3 → (∀ c : Xml, partRank c = k ↔ c.tag = t) →
      ((didParts x).filter fun c => decide (partRank c < 3)).filter (fun c => decide (partRank c = k)) =
        (didParts x).filter fun c => decide (c.tag = t) := by
    intro k t hk h
    rw [List.filter_filter]
    apply List.filter_congr
    intro c _
    have := h c
    by_cases e : c.tag = t
    · have e' := this.2 e
      simp [e, e', hk]
    · have e' : partRank c ≠ k := fun a => e (this.1 a)
      simp [e, e']
  rw [h3, sorted_split partRank (fun c => [c])
    (fun c => (kids c "STRUCT").flatMap fun s => kids s "DATAOBJ")
    (standsFor doc) (standsFor doc) ?_ ?_ (fun _ _ => rfl) _ ?_ hord]
  · rw [hfil 0 _ (by omega) r0, hfil 1 _ (by omega) r1, hfil 2 _ (by omega) r2]
    unfold dataObjects
    rw [findPath_two, findPath_two, findPath_four, hkids, hkids]
    congr 1
    · simp
    congr 1
    · rw [← hkids, List.flatMap_assoc]
    · rw [List.flatMap_def, List.flatMap_def]
      congr 1
      apply List.map_congr_left
      intro c hc
      rw [List.mem_filter] at hc
      have ht : c.tag = "DIDDATAREF" := of_decide_eq_true hc.2
      obtain ⟨s, hs, i, hi, hci⟩ := hknown c hc.1 ht
      unfold refObjects standsFor
      rw [hci, Option.bind_some, hlib s hs i hi, ht, if_neg (by decide), if_neg (by decide), if_pos rfl]
      have := filter_unique (fun d : Xml => d.attr? "id") hnd hs
      rw [hi] at this
      rw [this]
      simp [findPath_two]
  · intro c hc
    unfold standsFor
    rw [(r0 c).1 hc, if_pos rfl]
  · intro c hc
    unfold standsFor
    rw [(r1 c).1 hc, if_neg (by decide), if_pos rfl]
  · intro c hc
    exact of_decide_eq_true (List.mem_filter.1 hc).2

end Cantools.Cdd
