import Verif.Lemmas.KcdText
import Verif.Lemmas.DbcMux
import Mathlib.Data.List.Perm.Basic
import Mathlib.Data.List.Flatten

/-
KCD files: what is loaded from the elements that were dumped.
-/

set_option linter.unusedSimpArgs false

namespace Cantools.Kcd
open Cantools Spec

theorem Except.ok_bind' {ε α β : Type} (a : α) (f : α → Except ε β) : ((.ok a : Except ε α) >>= f) = f a := rfl

theorem Except.pure_def' {ε α : Type} (a : α) : (pure a : Except ε α) = .ok a := rfl

/-! ### Elements -/

theorem reparseAll_eq (l : List Xml) : reparseAll l = l.map Xml.reparse := by
  induction l with
  | nil => rfl
  | cons a r ih => rw [reparseAll, ih]; rfl

@[simp] theorem tag_reparse (x : Xml) : x.reparse.tag = x.tag := by cases x; rfl
@[simp] theorem attrs_reparse (x : Xml) : x.reparse.attrs = x.attrs := by cases x; rfl
@[simp] theorem children_reparse (x : Xml) : x.reparse.children = x.children.map Xml.reparse := by
  cases x; exact reparseAll_eq _
theorem attr?_reparse (x : Xml) (n : String) : x.reparse.attr? n = x.attr? n := by
  unfold Xml.attr?; rw [attrs_reparse]

theorem find?_reparse (x : Xml) (t : String) :
    x.reparse.find? t = (x.find? t).map Xml.reparse := by
  unfold Xml.find?
  rw [children_reparse, List.find?_map]
  congr 2
  funext c; exact congrArg (· == t) (tag_reparse c)

theorem findAll_reparse (x : Xml) (t : String) :
    x.reparse.findAll t = (x.findAll t).map Xml.reparse := by
  unfold Xml.findAll
  rw [children_reparse, List.filter_map]
  congr 2
  funext c; exact congrArg (· == t) (tag_reparse c)

/-- All elements of a list have a tag. -/
def Tagged (t : String) (l : List Xml) : Prop := ∀ x ∈ l, x.tag = t

theorem find?_tagged_ne {t t' : String} {l : List Xml} (h : Tagged t l) (hne : t ≠ t') :
    l.find? (fun c => c.tag == t') = none := by
  rw [List.find?_eq_none]
  intro x hx
  rw [h x hx]; simpa using hne

theorem find?_tagged {t : String} {l : List Xml} (h : Tagged t l) :
    l.find? (fun c => c.tag == t) = l.head? := by
  cases l with
  | nil => rfl
  | cons x r => rw [List.find?_cons_of_pos (by simp [h x List.mem_cons_self])]; rfl

theorem filter_tagged {t : String} {l : List Xml} (h : Tagged t l) :
    l.filter (fun c => c.tag == t) = l := by
  rw [List.filter_eq_self]; intro x hx; simp [h x hx]

theorem filter_tagged_ne {t t' : String} {l : List Xml} (h : Tagged t l) (hne : t ≠ t') :
    l.filter (fun c => c.tag == t') = [] := by
  rw [List.filter_eq_nil_iff]; intro x hx; rw [h x hx]; simpa using hne

/-! ### Lists of results -/

theorem mapM_exists {α β : Type} {f : α → Except Err β} {P : α → β → Prop} {l : List α}
    (h : ∀ a ∈ l, ∃ b, f a = .ok b ∧ P a b) : ∃ bs, l.mapM f = .ok bs ∧ List.Forall₂ P l bs := by
  induction l with
  | nil => exact ⟨[], rfl, .nil⟩
  | cons a r ih =>
    obtain ⟨b, h1, h2⟩ := h a List.mem_cons_self
    obtain ⟨bs, h3, h4⟩ := ih fun x hx => h x (List.mem_cons_of_mem _ hx)
    refine ⟨b :: bs, ?_, .cons h2 h4⟩
    rw [List.mapM_cons, h1, h3]; rfl

theorem mapM_of_forall₂ {α β γ : Type} {g : β → Except Err γ} {h : α → γ} {l : List α}
    {bs : List β} (hf : List.Forall₂ (fun a b => g b = .ok (h a)) l bs) :
    bs.mapM g = .ok (l.map h) := by
  induction hf with
  | nil => rfl
  | cons h1 _ ih => rw [List.mapM_cons, h1, ih]; rfl

theorem forall₂_tagged {α : Type} {P : α → Xml → Prop} {t : String} {l : List α} {bs : List Xml}
    (hf : List.Forall₂ P l bs) (h : ∀ a b, P a b → b.tag = t) : Tagged t bs := by
  induction hf with
  | nil => intro x hx; cases hx
  | cons h1 _ ih =>
    intro x hx
    rcases List.mem_cons.1 hx with rfl | hx
    · exact h _ _ h1
    · exact ih x hx

/-! ### References to nodes -/

/-- The attributes of the dumped nodes. -/
def nodeAttrs (nodes : List String) : List (List (String × String)) :=
  (dumpNodes nodes).map (·.attrs)

theorem nodeName_zipIdx {nodes : List String} {j k : Nat} {r : String}
    (h : (r, k) ∈ nodes.zipIdx j) :
    nodeNameById ((nodes.zipIdx j).map fun p => [("id", showInt p.2), ("name", p.1)]) (showInt k) =
      .ok (some r) := by
  induction nodes generalizing j with
  | nil => cases h
  | cons n ns ih =>
    rw [List.zipIdx_cons] at h ⊢
    simp only [List.map_cons, nodeNameById, dictGet, dictGet?_cons, bind, Except.bind, if_true]
    rcases List.mem_cons.1 h with h | h
    · cases h; simp [Except.map]
    · have hk := List.le_snd_of_mem_zipIdx h
      rw [if_neg]
      · exact ih h
      · intro e
        have := (readInt_showInt j).symm.trans ((congrArg readInt e).trans (readInt_showInt k))
        injection this with this
        simp only at hk
        omega

theorem nodeRef_ok {nodes : List String} {r : String} (h : r ∈ nodes) :
    ∃ k, nodeRef (nodeRefs nodes) (some r) = .ok k ∧
      nodeNameById (nodeAttrs nodes) (showInt k) = .ok (some r) := by
  have hu : nodeRefs nodes = dictUpdate [] (nodes.zipIdx 1) := rfl
  have hsome : dictGet? (nodeRefs nodes) r ≠ none := by
    rw [hu, dictGet?_update]
    intro hn
    split at hn
    · cases hn
    · rename_i h0
      rw [dictGet?_eq_none_iff, List.map_reverse, List.mem_reverse] at h0
      refine h0 ?_
      have : (nodes.zipIdx 1).map (·.1) = nodes := by simp
      rw [this]; exact h
  obtain ⟨k, hk⟩ := Option.ne_none_iff_exists'.1 hsome
  refine ⟨k, by unfold nodeRef; exact dictGet_eq_ok.2 hk, ?_⟩
  have hmem : (r, k) ∈ nodes.zipIdx 1 := by
    rw [hu, dictGet?_update] at hk
    split at hk
    · rename_i v h0
      cases hk
      exact List.mem_reverse.1 (dictGet?_mem h0)
    · cases hk
  have := nodeName_zipIdx hmem
  unfold nodeAttrs dumpNodes
  rw [List.map_map]
  exact this

theorem dumpRefs_ok {nodes : List String} {names : List (Option String)} (tag : String)
    (h : ∀ r ∈ names, ∃ n ∈ nodes, r = some n) :
    ∃ cs, dumpRefs tag (nodeRefs nodes) names = .ok cs ∧ Tagged tag cs ∧
      ∀ x, x.find? tag = cs.head?.map Xml.reparse → loadRefs (nodeAttrs nodes) tag x = .ok names := by
  by_cases hn : names = []
  · subst hn
    refine ⟨[], rfl, (fun x hx => nomatch hx), fun x hx => ?_⟩
    unfold loadRefs; rw [hx]; rfl
  · obtain ⟨ids, h1, h2⟩ := mapM_exists (f := nodeRef (nodeRefs nodes))
      (P := fun r k => nodeNameById (nodeAttrs nodes) (showInt (k : Nat)) = .ok r) (l := names)
      (by
        intro r hr
        obtain ⟨n, hn, rfl⟩ := h r hr
        exact nodeRef_ok hn)
    refine ⟨_, by unfold dumpRefs; rw [if_neg hn, h1]; rfl, ?_, ?_⟩
    · intro x hx; rw [List.mem_singleton.1 hx]; rfl
    · intro x hx
      unfold loadRefs
      rw [hx]
      simp only [List.head?_cons, Option.map_some, findAll_reparse]
      unfold Xml.findAll
      rw [filter_tagged (t := "NodeRef")]
      · rw [Xml.children, List.map_map]
        clear hx x h h1 hn
        induction h2 with
        | nil => rfl
        | @cons a b l₁ l₂ h1 h2 ih =>
          rw [List.map_cons, List.mapM_cons, ih]
          have : (Xml.reparse (.elem "NodeRef" [("id", showInt b)] none [])).attrs =
            [("id", showInt b)] := rfl
          simp only [Function.comp, this, dictGet, dictGet?_cons, bind, Except.bind, if_true, h1]
          rfl
      · intro y hy
        rw [Xml.children] at hy
        obtain ⟨i, _, rfl⟩ := List.mem_map.1 hy
        rfl

/-! ### Parts of a signal -/

theorem loadNotes_dump {x : Xml} {c : Option String}
    (h : x.find? "Notes" = (dumpNotes c).head?.map Xml.reparse) :
    loadNotes x = if c = some "" then none else c := by
  unfold loadNotes
  rw [h]
  cases c with
  | none => rfl
  | some c => rfl

theorem tagged_notes (c : Option String) : Tagged "Notes" (dumpNotes c) := by
  intro x hx
  cases c with
  | none => cases hx
  | some c => rw [List.mem_singleton.1 hx]; rfl

theorem tagged_labels (c : Option Choices) : Tagged "LabelSet" (dumpLabels c) := by
  intro x hx
  unfold dumpLabels at hx
  split at hx
  · cases hx
  · cases hx
  · rw [List.mem_singleton.1 hx]; rfl

theorem loadLabels_fold (cs acc : Choices) (hnd : ((acc ++ cs).map (·.1)).Nodup) :
    (cs.map fun c => Xml.reparse (.elem "Label" [("name", c.2.toStr), ("value", showInt c.1)] none
      [])).foldlM (fun (acc : Choices) l => do
        let v ← (dictGet l.attrs "value").bind readInt
        let n ← dictGet l.attrs "name"
        pure (dictSet acc v (.named { value := v, name := n }))) acc =
      (.ok (acc ++ cs.map fun e => (e.1, .named { value := e.1, name := e.2.toStr })) :
        Except Err Choices) := by
  induction cs generalizing acc with
  | nil => simp [pure, Except.pure]
  | cons c r ih =>
    rw [List.map_cons, List.foldlM_cons]
    have ha : (Xml.reparse (.elem "Label" [("name", c.2.toStr), ("value", showInt c.1)] none
      [])).attrs = [("name", c.2.toStr), ("value", showInt c.1)] := rfl
    have hk : c.1 ∉ acc.map (·.1) := by
      rw [List.map_append, List.nodup_append] at hnd
      intro hmem
      exact hnd.2.2 _ hmem c.1 (by simp) rfl
    have hv : (dictGet [("name", c.2.toStr), ("value", showInt c.1)] "value").bind readInt = .ok c.1 := by
      simp only [dictGet, dictGet?_cons, show ¬ ("name" = "value") by decide, if_false, if_true,
        Except.bind, readInt_showInt]
    have hn : dictGet [("name", c.2.toStr), ("value", showInt c.1)] "name" = .ok c.2.toStr := by
      simp only [dictGet, dictGet?_cons, if_true]
    simp only [ha, hv, hn, Except.ok_bind', Except.pure_def'] at ih ⊢
    rw [dictSet_append_of_not_mem _ hk, ih]
    · simp
    · simpa [List.map_append] using hnd

theorem loadLabels_dump {x : Xml} {c : Option Choices}
    (h : x.find? "LabelSet" = (dumpLabels c).head?.map Xml.reparse)
    (hnd : ∀ cs, c = some cs → (cs.map (·.1)).Nodup) : loadLabels x = .ok (keptChoices c) := by
  unfold loadLabels
  rw [h]
  match c, hnd with
  | none, _ => rfl
  | some [], _ => rfl
  | some (e :: r), hnd =>
    have hc : (dumpLabels (some (e :: r))).head?.map Xml.reparse =
      some (Xml.reparse (.elem "LabelSet" [] none
        ((e :: r).map fun c => Xml.elem "Label" [("name", c.2.toStr), ("value", showInt c.1)] none []))) :=
      rfl
    rw [hc]
    simp only [findAll_reparse]
    unfold Xml.findAll
    rw [filter_tagged (t := "Label")]
    · rw [Xml.children, List.map_map]
      have := loadLabels_fold (e :: r) [] (by simpa using hnd _ rfl)
      simp only [Function.comp_def]
      rw [this]
      rfl
    · intro y hy
      rw [Xml.children] at hy
      obtain ⟨i, _, rfl⟩ := List.mem_map.1 hy
      rfl

theorem startBitKcd_startBitKcd (n : Nat) (b : ByteOrder) :
    startBitKcd (startBitKcd n b) b = n := by
  cases b
  · simp only [startBitKcd]; try omega
  · simp only [startBitKcd]; try omega

/-! ### Signals -/

/-- A signal without its multiplexing. -/
def bare (k : KSignal) : KSignal :=
  { k with core := { k.core with isMultiplexer := false, multiplexerIds := none, multiplexerSignal := none } }

theorem dictGet?_attrIf (b : Bool) (n v k : String) :
    dictGet? (attrIf b n v) k = if n = k ∧ b = true then some v else none := by
  cases b <;> simp [attrIf, dictGet?_cons]

theorem dictGet?_attrOpt (n k : String) (v : Option String) :
    dictGet? (attrOpt n v) k = if n = k then v else none := by
  cases v <;> simp [attrOpt, dictGet?_cons]

theorem dictGet?_append_or {κ α : Type} [DecidableEq κ] (a b : List (κ × α)) (k : κ) :
    dictGet? (a ++ b) k = (dictGet? a k).or (dictGet? b k) := by
  rw [dictGet?_append]; cases dictGet? a k <;> rfl

theorem readOpt_map {α : Type} {read : String → Except Err α} {sh : α → String}
    (h : ∀ a, read (sh a) = .ok a) (o : Option α) : readOpt read (o.map sh) = .ok o := by
  cases o with
  | none => rfl
  | some a => simp [readOpt, h, Except.map]

theorem readOpt_if {α : Type} {read : String → Except Err α} {sh : α → String}
    (h : ∀ a, read (sh a) = .ok a) (a : α) (p : Prop) [Decidable p] :
    readOpt read (if p then some (sh a) else none) = .ok (if p then some a else none) := by
  split <;> simp [readOpt, h, Except.map]

theorem loadSignal_dump {T : NumText} (hT : T.Faithful) {nodes : List String} {k : KSignal}
    (hw : Writable nodes k) :
    ∃ r, dumpSignal T (nodeRefs nodes) k = .ok r ∧
      ∀ tag extra, Tagged "MuxGroup" extra →
        (loadSignal T (nodeAttrs nodes) (Xml.reparse (.elem tag r.1 none (r.2 ++ extra))) =
          .ok (bare (keptSignal k)) ∧
        Xml.findAll (Xml.reparse (.elem tag r.1 none (r.2 ++ extra))) "MuxGroup" =
          extra.map Xml.reparse) := by
  obtain ⟨cs, hc, ht, hl⟩ := dumpRefs_ok "Consumer" hw.1
  refine ⟨_, by unfold dumpSignal; rw [hc]; rfl, ?_⟩
  intro tag extra hx
  generalize hval : (if valueAttrs T k = [] then ([] : List Xml) else [Xml.elem "Value" (valueAttrs T k) none []]) = vs
  have htv : Tagged "Value" vs := by
    subst hval
    intro x hx
    split at hx
    · cases hx
    · rw [List.mem_singleton.1 hx]; rfl
  have htn := tagged_notes k.comment
  have htl := tagged_labels k.core.conversion.choices
  refine ⟨?_, ?_⟩
  swap
  · rw [findAll_reparse]
    unfold Xml.findAll
    simp only [Xml.children, List.filter_append, filter_tagged_ne htn (show "Notes" ≠ "MuxGroup" by decide),
      filter_tagged_ne ht (show "Consumer" ≠ "MuxGroup" by decide),
      filter_tagged_ne htv (show "Value" ≠ "MuxGroup" by decide),
      filter_tagged_ne htl (show "LabelSet" ≠ "MuxGroup" by decide), filter_tagged hx,
      List.nil_append]
  generalize hy : Xml.elem tag _ none (_ ++ extra) = y
  have hattr : ∀ n, y.reparse.attr? n = dictGet? y.attrs n := fun n => attr?_reparse y n
  have hfind : ∀ t, y.reparse.find? t = (y.children.find? fun c => c.tag == t).map Xml.reparse :=
    fun t => find?_reparse y t
  have hch : y.children = dumpNotes k.comment ++ cs ++ vs ++
      dumpLabels k.core.conversion.choices ++ extra := by subst hy; rfl
  have hnotes : y.reparse.find? "Notes" = (dumpNotes k.comment).head?.map Xml.reparse := by
    rw [hfind, hch]
    simp only [List.find?_append, find?_tagged htn,
      find?_tagged_ne ht (show "Consumer" ≠ "Notes" by decide),
      find?_tagged_ne htv (show "Value" ≠ "Notes" by decide),
      find?_tagged_ne htl (show "LabelSet" ≠ "Notes" by decide),
      find?_tagged_ne hx (show "MuxGroup" ≠ "Notes" by decide), Option.or_none]
  have hcons : y.reparse.find? "Consumer" = cs.head?.map Xml.reparse := by
    rw [hfind, hch]
    simp only [List.find?_append, find?_tagged ht,
      find?_tagged_ne htn (show "Notes" ≠ "Consumer" by decide),
      find?_tagged_ne htv (show "Value" ≠ "Consumer" by decide),
      find?_tagged_ne htl (show "LabelSet" ≠ "Consumer" by decide),
      find?_tagged_ne hx (show "MuxGroup" ≠ "Consumer" by decide), Option.or_none, Option.none_or]
  have hvalue : y.reparse.find? "Value" = vs.head?.map Xml.reparse := by
    rw [hfind, hch]
    simp only [List.find?_append, find?_tagged htv,
      find?_tagged_ne htn (show "Notes" ≠ "Value" by decide),
      find?_tagged_ne ht (show "Consumer" ≠ "Value" by decide),
      find?_tagged_ne htl (show "LabelSet" ≠ "Value" by decide),
      find?_tagged_ne hx (show "MuxGroup" ≠ "Value" by decide), Option.or_none, Option.none_or]
  have hlabels : y.reparse.find? "LabelSet" =
      (dumpLabels k.core.conversion.choices).head?.map Xml.reparse := by
    rw [hfind, hch]
    simp only [List.find?_append, find?_tagged htl,
      find?_tagged_ne htn (show "Notes" ≠ "LabelSet" by decide),
      find?_tagged_ne ht (show "Consumer" ≠ "LabelSet" by decide),
      find?_tagged_ne htv (show "Value" ≠ "LabelSet" by decide),
      find?_tagged_ne hx (show "MuxGroup" ≠ "LabelSet" by decide), Option.or_none, Option.none_or]
  have hva : ∀ n, ((y.reparse.find? "Value").getD (.elem "Value" [] none [])).attr? n =
      dictGet? (valueAttrs T k) n := by
    intro n
    rw [hvalue]
    subst hval
    split
    · rename_i h; rw [h]; rfl
    · exact attr?_reparse _ n
  have hya : y.attrs = [("name", k.core.name),
        ("offset", showInt (startBitKcd k.core.start k.core.byteOrder))] ++
      attrIf (decide (k.core.length ≠ 1)) "length" (showInt k.core.length) ++
      attrIf (decide (k.core.byteOrder ≠ .little)) "endianess" "big" := by subst hy; rfl
  have a1 : y.reparse.attr? "offset" = some (showInt (startBitKcd k.core.start k.core.byteOrder)) := by
    rw [hattr, hya]; simp [dictGet?_append_or, dictGet?_cons]
  have a2 : y.reparse.attr? "length" = if k.core.length ≠ 1 then some (showInt k.core.length) else none := by
    rw [hattr, hya]; simp [dictGet?_append_or, dictGet?_cons, dictGet?_attrIf]
  have a3 : y.reparse.attr? "endianess" = if k.core.byteOrder ≠ .little then some "big" else none := by
    rw [hattr, hya]; simp [dictGet?_append_or, dictGet?_cons, dictGet?_attrIf]
  have a4 : y.reparse.attr? "name" = some k.core.name := by
    rw [hattr, hya]; simp [dictGet?_append_or, dictGet?_cons]
  have v1 : dictGet? (valueAttrs T k) "min" = k.core.minimum.map T.show_ := by
    simp [valueAttrs, dictGet?_append_or, dictGet?_attrIf, dictGet?_attrOpt]
  have v2 : dictGet? (valueAttrs T k) "max" = k.core.maximum.map T.show_ := by
    simp [valueAttrs, dictGet?_append_or, dictGet?_attrIf, dictGet?_attrOpt]
  have v3 : dictGet? (valueAttrs T k) "slope" =
      if k.core.conversion.scale ≠ 1 then some (T.show_ k.core.conversion.scale) else none := by
    simp [valueAttrs, dictGet?_append_or, dictGet?_attrIf, dictGet?_attrOpt]
  have v4 : dictGet? (valueAttrs T k) "intercept" =
      if k.core.conversion.offset ≠ 0 then some (T.show_ k.core.conversion.offset) else none := by
    simp [valueAttrs, dictGet?_append_or, dictGet?_attrIf, dictGet?_attrOpt]
  have v5 : dictGet? (valueAttrs T k) "unit" = k.unit := by
    simp [valueAttrs, dictGet?_append_or, dictGet?_attrIf, dictGet?_attrOpt]
  have v6 : dictGet? (valueAttrs T k) "type" = typeName k.core := by
    simp [valueAttrs, dictGet?_append_or, dictGet?_attrIf, dictGet?_attrOpt]
  have b3 : (if (if k.core.byteOrder ≠ .little then some "big" else none) = some "big" then
      ByteOrder.big else .little) = k.core.byteOrder := by
    cases k.core.byteOrder <;> decide
  have t1 : decide (typeName k.core = some "signed") =
      (k.core.isSigned && !k.core.conversion.isFloat) := by
    unfold typeName
    cases k.core.conversion.isFloat <;> cases k.core.isSigned <;>
      by_cases h : k.core.length = 32 <;> simp [h]
  have t2 : decide (typeName k.core = some "single" ∨ typeName k.core = some "double") =
      k.core.conversion.isFloat := by
    unfold typeName
    cases k.core.conversion.isFloat <;> cases k.core.isSigned <;>
      by_cases h : k.core.length = 32 <;> simp [h]
  have r2 := readOpt_if (read := readInt) readInt_showInt (k.core.length : Int) (k.core.length ≠ 1)
  unfold loadSignal
  simp only [hva, a1, a2, a3, a4, v1, v2, v3, v4, v5, v6, b3, t1, t2, r2, readOpt_map hT,
    readOpt_if hT, loadLabels_dump hlabels hw.2, hl _ hcons, loadNotes_dump hnotes, bind,
    Except.bind, pure, Except.pure]
  simp only [readOpt, readInt_showInt, Except.map, Int.toNat_natCast, startBitKcd_startBitKcd]
  have e1 : (((if k.core.length ≠ 1 then some (k.core.length : Int) else none).getD 1).toNat) =
      k.core.length := by
    by_cases h : k.core.length = 1 <;> simp [h]
  have e2 : (if k.core.conversion.scale ≠ 1 then some k.core.conversion.scale else none).getD 1 =
      k.core.conversion.scale := by
    by_cases h : k.core.conversion.scale = 1 <;> simp [h]
  have e3 : (if k.core.conversion.offset ≠ 0 then some k.core.conversion.offset else none).getD 0 =
      k.core.conversion.offset := by
    by_cases h : k.core.conversion.offset = 0 <;> simp [h]
  rw [e1, e2, e3]
  rfl

end Cantools.Kcd

namespace Cantools.Kcd
open Cantools Spec

theorem dumpPlainSignal_ok {T : NumText} (hT : T.Faithful) {nodes : List String} {k : KSignal}
    (hw : Writable nodes k) :
    ∃ x, dumpPlainSignal T (nodeRefs nodes) k = .ok x ∧ x.tag = "Signal" ∧
      loadSignal T (nodeAttrs nodes) x.reparse = .ok (bare (keptSignal k)) := by
  obtain ⟨r, h1, h2⟩ := loadSignal_dump hT hw
  refine ⟨.elem "Signal" r.1 none r.2, by unfold dumpPlainSignal; rw [h1]; rfl, rfl, ?_⟩
  have := (h2 "Signal" [] (fun x hx => nomatch hx)).1
  rwa [List.append_nil] at this

/-! ### Multiplexers -/

/-- The signals of the groups. -/
def groupSignals (g : List (Int × List KSignal)) : List KSignal := g.flatMap (·.2)

theorem groupSignals_set (acc : List (Int × List KSignal)) (i : Int) (k : KSignal) :
    (groupSignals (dictSet acc i ((dictGet? acc i).getD [] ++ [k]))).Perm
      (groupSignals acc ++ [k]) := by
  induction acc with
  | nil => simp [dictSet, groupSignals]
  | cons a r ih =>
    obtain ⟨j, l⟩ := a
    by_cases h : j = i
    · subst h
      simp only [dictSet, if_true, dictGet?_cons, Option.getD_some, groupSignals,
        List.flatMap_cons]
      rw [List.append_assoc, List.append_assoc]
      exact List.Perm.append_left _ List.perm_append_comm
    · simp only [dictSet, h, if_false, dictGet?_cons, groupSignals, List.flatMap_cons] at ih ⊢
      rw [List.append_assoc]
      exact List.Perm.append_left _ ih

/-- Every signal is in the group of its id. -/
def Grouped (mux : String) (sigs : List KSignal) (g : List (Int × List KSignal)) : Prop :=
  ∀ e ∈ g, ∀ k ∈ e.2, k ∈ sigs ∧ k.core.multiplexerSignal = some mux ∧
    ∃ r, k.core.multiplexerIds = some (e.1 :: r)

theorem grouped_set {mux : String} {sigs : List KSignal} {acc : List (Int × List KSignal)}
    (h : Grouped mux sigs acc) {i : Int} {k : KSignal} (hk : k ∈ sigs)
    (hm : k.core.multiplexerSignal = some mux) {r : List Int}
    (hi : k.core.multiplexerIds = some (i :: r)) :
    Grouped mux sigs (dictSet acc i ((dictGet? acc i).getD [] ++ [k])) := by
  induction acc with
  | nil =>
    intro e he x hx
    simp only [dictSet, dictGet?_nil, Option.getD_none, List.nil_append, List.mem_singleton] at he
    subst he
    rw [List.mem_singleton] at hx; subst hx
    exact ⟨hk, hm, r, hi⟩
  | cons a t ih =>
    obtain ⟨j, l⟩ := a
    have ht : Grouped mux sigs t := fun e he => h e (List.mem_cons_of_mem _ he)
    by_cases hj : j = i
    · subst hj
      intro e he x hx
      simp only [dictSet, if_true, dictGet?_cons, Option.getD_some] at he
      rcases List.mem_cons.1 he with rfl | he
      · rcases List.mem_append.1 hx with hx | hx
        · exact h _ List.mem_cons_self x hx
        · rw [List.mem_singleton] at hx; subst hx
          exact ⟨hk, hm, r, hi⟩
      · exact ht e he x hx
    · intro e he x hx
      simp only [dictSet, hj, if_false, dictGet?_cons] at he
      rcases List.mem_cons.1 he with rfl | he
      · exact h _ List.mem_cons_self x hx
      · exact ih ht e he x hx

theorem signalsPerCount_ok {mux : String} {all : List KSignal} (sigs : List KSignal)
    (acc : List (Int × List KSignal)) (hall : ∀ k ∈ sigs, k ∈ all)
    (h : ∀ k ∈ sigs, k.core.multiplexerSignal = some mux →
      ∃ i r, k.core.multiplexerIds = some (i :: r)) (hacc : Grouped mux all acc) :
    ∃ g, signalsPerCount mux sigs acc = .ok g ∧ Grouped mux all g ∧
      (groupSignals g).Perm
        (groupSignals acc ++ sigs.filter fun k => k.core.multiplexerSignal == some mux) := by
  induction sigs generalizing acc with
  | nil => exact ⟨acc, rfl, hacc, by simp⟩
  | cons k t ih =>
    have hall' : ∀ k ∈ t, k ∈ all := fun x hx => hall x (List.mem_cons_of_mem _ hx)
    have h' : ∀ k ∈ t, k.core.multiplexerSignal = some mux →
      ∃ i r, k.core.multiplexerIds = some (i :: r) := fun x hx => h x (List.mem_cons_of_mem _ hx)
    by_cases hm : k.core.multiplexerSignal = some mux
    · obtain ⟨i, r, hi⟩ := h k List.mem_cons_self hm
      obtain ⟨g, h1, h2, h3⟩ := ih (dictSet acc i ((dictGet? acc i).getD [] ++ [k])) hall' h'
        (grouped_set hacc (hall k List.mem_cons_self) hm hi)
      refine ⟨g, ?_, h2, ?_⟩
      · simp only [signalsPerCount, hm, ne_eq, not_true_eq_false, if_false, hi]
        exact h1
      · rw [List.filter_cons_of_pos (by simp [hm])]
        refine h3.trans ?_
        refine (List.Perm.append_right _ (groupSignals_set acc i k)).trans ?_
        rw [List.append_assoc]; exact List.Perm.refl _
    · obtain ⟨g, h1, h2, h3⟩ := ih acc hall' h' hacc
      refine ⟨g, ?_, h2, ?_⟩
      · simp only [signalsPerCount, hm, ne_eq, not_false_eq_true, if_true]
        exact h1
      · rw [List.filter_cons_of_neg (by simp [hm])]
        exact h3

theorem keptSignal_isMultiplexer (k : KSignal) : (keptSignal k).core.isMultiplexer = k.core.isMultiplexer := rfl
theorem keptSignal_multiplexerIds (k : KSignal) : (keptSignal k).core.multiplexerIds = k.core.multiplexerIds := rfl
theorem keptSignal_multiplexerSignal (k : KSignal) :
    (keptSignal k).core.multiplexerSignal = k.core.multiplexerSignal := rfl

/-- A multiplexed signal of a flat message is loaded completely. -/
theorem muxed_bare {k : KSignal} {i : Int} {mux : String} (h1 : k.core.isMultiplexer = false)
    (h2 : k.core.multiplexerIds = some [i]) (h3 : k.core.multiplexerSignal = some mux) :
    ({ bare (keptSignal k) with core := { (bare (keptSignal k)).core with
        multiplexerIds := some [i], multiplexerSignal := some mux } } : KSignal) = keptSignal k := by
  rw [← h2, ← h3]
  simp only [bare]
  rw [← h1]
  rfl

theorem mux_bare {k : KSignal} (h1 : k.core.isMultiplexer = true)
    (h2 : k.core.multiplexerIds = none) (h3 : k.core.multiplexerSignal = none) :
    ({ bare (keptSignal k) with core := { (bare (keptSignal k)).core with isMultiplexer := true } } : KSignal) =
      keptSignal k := by
  simp only [bare]
  rw [← h1]
  show _ = keptSignal k
  rw [← h2, ← h3]
  rfl

theorem plain_bare {k : KSignal} (h1 : k.core.isMultiplexer = false)
    (h2 : k.core.multiplexerIds = none) (h3 : k.core.multiplexerSignal = none) :
    bare (keptSignal k) = keptSignal k := by
  simp only [bare]
  rw [← h1, ← h2, ← h3]
  rfl

theorem dumpMuxGroup_ok {T : NumText} (hT : T.Faithful) {nodes : List String} {mux : String}
    {g : Int × List KSignal} (hw : ∀ k ∈ g.2, Writable nodes k)
    (hg : ∀ k ∈ g.2, k.core.isMultiplexer = false ∧ k.core.multiplexerIds = some [g.1] ∧
      k.core.multiplexerSignal = some mux) :
    ∃ x, dumpMuxGroup T (nodeRefs nodes) g = .ok x ∧ x.tag = "MuxGroup" ∧
      loadMuxGroup T (nodeAttrs nodes) mux x.reparse = .ok (g.2.map keptSignal) := by
  obtain ⟨cs, h1, h2⟩ := mapM_exists (f := dumpPlainSignal T (nodeRefs nodes))
    (P := fun k x => k ∈ g.2 ∧ x.tag = "Signal" ∧
      loadSignal T (nodeAttrs nodes) x.reparse = .ok (bare (keptSignal k))) (l := g.2)
    (fun k hk => by
      obtain ⟨x, a, b, c⟩ := dumpPlainSignal_ok hT (hw k hk)
      exact ⟨x, a, hk, b, c⟩)
  refine ⟨.elem "MuxGroup" [("count", showInt g.1)] none cs, by
    unfold dumpMuxGroup; rw [h1]; rfl, rfl, ?_⟩
  unfold loadMuxGroup
  rw [attrs_reparse, findAll_reparse]
  have hc : dictGet (Xml.elem "MuxGroup" [("count", showInt g.1)] none cs).attrs "count" =
      .ok (showInt g.1) := rfl
  have ht : Tagged "Signal" cs := forall₂_tagged h2 fun _ _ h => h.2.1
  have hf : (Xml.elem "MuxGroup" [("count", showInt g.1)] none cs).findAll "Signal" = cs :=
    filter_tagged ht
  rw [hc, hf, Except.ok_bind']
  refine mapM_of_forall₂ (h := keptSignal) ?_
  rw [List.forall₂_map_right_iff]
  refine h2.imp ?_
  rintro k x ⟨hk, _, hl⟩
  obtain ⟨a, b, c⟩ := hg k hk
  rw [hl, readInt_showInt]
  exact congrArg Except.ok (muxed_bare a b c)

theorem loadMultiplex_ok {T : NumText} (hT : T.Faithful) {nodes : List String}
    {sigs : List KSignal} (hflat : Flat sigs) (hw : ∀ k ∈ sigs, Writable nodes k) {p : KSignal}
    (hp : p ∈ sigs) (hmx : p.core.isMultiplexer = true) :
    ∃ x l, dumpTopSignal T (nodeRefs nodes) sigs p = .ok [x] ∧ x.tag = "Multiplex" ∧
      loadMultiplex T (nodeAttrs nodes) x.reparse = .ok (keptSignal p :: l) ∧
      l.Perm ((sigs.filter fun k => k.core.multiplexerSignal == some p.core.name).map keptSignal) := by
  have hids : p.core.multiplexerIds = none := by
    cases h : p.core.multiplexerIds with
    | none => rfl
    | some ids => exact absurd ((hflat.multiplexed p hp ids h).1.symm.trans hmx) (by decide)
  have hms := hflat.plain p hp hids
  have hid : ∀ k ∈ sigs, k.core.multiplexerSignal = some p.core.name →
      ∃ i, k.core.multiplexerIds = some [i] ∧ k.core.isMultiplexer = false := by
    intro k hk hm
    cases h : k.core.multiplexerIds with
    | none => rw [hflat.plain k hk h] at hm; cases hm
    | some ids =>
      obtain ⟨a, ⟨i, rfl⟩, _⟩ := hflat.multiplexed k hk ids h
      exact ⟨i, rfl, a⟩
  obtain ⟨g, g1, g2, g3⟩ := signalsPerCount_ok (mux := p.core.name) (all := sigs) sigs []
    (fun k hk => hk) (fun k hk hm => by
      obtain ⟨i, h, _⟩ := hid k hk hm
      exact ⟨i, [], h⟩) (fun e he => nomatch he)
  have hgroup : ∀ e ∈ g, (∀ k ∈ e.2, Writable nodes k) ∧ ∀ k ∈ e.2,
      k.core.isMultiplexer = false ∧ k.core.multiplexerIds = some [e.1] ∧
      k.core.multiplexerSignal = some p.core.name := by
    intro e he
    refine ⟨fun k hk => hw k (g2 e he k hk).1, fun k hk => ?_⟩
    obtain ⟨a, b, r, c⟩ := g2 e he k hk
    obtain ⟨i, d, f⟩ := hid k a b
    rw [c] at d
    injection d with d
    injection d with d1 d2
    subst d1; subst d2
    exact ⟨f, c, b⟩
  obtain ⟨xs, x1, x2⟩ := mapM_exists (f := dumpMuxGroup T (nodeRefs nodes))
    (P := fun e x => x.tag = "MuxGroup" ∧
      loadMuxGroup T (nodeAttrs nodes) p.core.name x.reparse = .ok (e.2.map keptSignal)) (l := g)
    (fun e he => dumpMuxGroup_ok hT (hgroup e he).1 (hgroup e he).2)
  obtain ⟨r, r1, r2⟩ := loadSignal_dump hT (hw p hp)
  obtain ⟨r3, r4⟩ := r2 "Multiplex" xs (forall₂_tagged x2 fun _ _ h => h.1)
  refine ⟨.elem "Multiplex" r.1 none (r.2 ++ xs), (g.map fun e => e.2.map keptSignal).flatten, ?_, rfl, ?_,
    ?_⟩
  · unfold dumpTopSignal dumpMuxGroups
    rw [if_pos hmx, r1, g1, Except.ok_bind', Except.ok_bind', x1]
    rfl
  · unfold loadMultiplex
    rw [r3, Except.ok_bind', r4]
    have hname : (bare (keptSignal p)).core.name = p.core.name := rfl
    rw [hname, mapM_of_forall₂ (h := fun e : Int × List KSignal => e.2.map keptSignal) (l := g)
      (List.forall₂_map_right_iff.2 (x2.imp fun _ _ h => h.2)), Except.ok_bind']
    exact congrArg (fun y => Except.ok (y :: _)) (mux_bare hmx hids hms)
  · have : (g.map fun e => e.2.map keptSignal).flatten = (groupSignals g).map keptSignal := by
      unfold groupSignals
      rw [List.map_flatMap, List.flatMap]
    rw [this]
    exact g3.map keptSignal

/-! ### Messages -/

/-- The elements of a list that belong to one of several keys, collected by key. -/
theorem perm_flatMap_filter {α β : Type} (P : List α) (q : α → β → Bool) (l : List β)
    (h : ∀ b ∈ l, ∃ A p B, P = A ++ p :: B ∧ q p b = true ∧ (∀ a ∈ A, q a b = false) ∧
      ∀ a ∈ B, q a b = false) :
    (P.flatMap fun p => l.filter (q p)).Perm l := by
  induction l with
  | nil => simp
  | cons b r ih =>
    have ih := ih fun x hx => h x (List.mem_cons_of_mem _ hx)
    obtain ⟨A, p, B, rfl, hp, hA, hB⟩ := h b List.mem_cons_self
    have cA : (A.flatMap fun p => (b :: r).filter (q p)) = A.flatMap fun p => r.filter (q p) := by
      apply List.flatMap_congr
      intro a ha; rw [List.filter_cons_of_neg (by simp [hA a ha])]
    have cB : (B.flatMap fun p => (b :: r).filter (q p)) = B.flatMap fun p => r.filter (q p) := by
      apply List.flatMap_congr
      intro a ha; rw [List.filter_cons_of_neg (by simp [hB a ha])]
    rw [List.flatMap_append, List.flatMap_cons, cA, cB, List.filter_cons_of_pos (by simp [hp])]
    rw [List.flatMap_append, List.flatMap_cons] at ih
    exact List.perm_middle.trans (ih.cons b)

theorem flat_perm {sigs : List KSignal} (hflat : Flat sigs) :
    ((sigs.filter (·.core.isMultiplexer)).flatMap (fun p =>
        p :: sigs.filter fun k => k.core.multiplexerSignal == some p.core.name) ++
      sigs.filter fun k => !k.core.isMultiplexer && k.core.multiplexerIds.isNone).Perm sigs := by
  have s1 : ((sigs.filter (·.core.isMultiplexer)).flatMap (fun p =>
        p :: sigs.filter fun k => k.core.multiplexerSignal == some p.core.name)).Perm
      (sigs.filter (·.core.isMultiplexer) ++ (sigs.filter (·.core.isMultiplexer)).flatMap fun p =>
        sigs.filter fun k => k.core.multiplexerSignal == some p.core.name) := by
    have := List.flatMap_append_perm (sigs.filter (·.core.isMultiplexer)) (fun p => [p])
      (fun p => sigs.filter fun k => k.core.multiplexerSignal == some p.core.name)
    rw [List.flatMap_singleton'] at this
    exact this.symm
  have s2 : ((sigs.filter (·.core.isMultiplexer)).flatMap fun p =>
        sigs.filter fun k => k.core.multiplexerSignal == some p.core.name).Perm
      (sigs.filter fun k => k.core.multiplexerIds.isSome) := by
    have hcongr : ((sigs.filter (·.core.isMultiplexer)).flatMap fun p =>
        sigs.filter fun k => k.core.multiplexerSignal == some p.core.name) =
      ((sigs.filter (·.core.isMultiplexer)).flatMap fun p =>
        (sigs.filter fun k => k.core.multiplexerIds.isSome).filter fun k =>
          k.core.multiplexerSignal == some p.core.name) := by
      apply List.flatMap_congr
      intro p _
      rw [List.filter_filter]
      apply List.filter_congr
      intro k hk
      cases hm : k.core.multiplexerIds with
      | none => simp [hflat.plain k hk hm]
      | some _ => simp
    rw [hcongr]
    refine perm_flatMap_filter _ (fun p k : KSignal => k.core.multiplexerSignal == some p.core.name) _ ?_
    intro k hk
    rw [List.mem_filter] at hk
    obtain ⟨ids, hids⟩ := Option.isSome_iff_exists.1 hk.2
    obtain ⟨_, _, p, hp, hpm, hkp⟩ := hflat.multiplexed k hk.1 ids hids
    obtain ⟨A, B, hAB⟩ := List.append_of_mem
      (List.mem_filter (p := fun k : KSignal => k.core.isMultiplexer).2 ⟨hp, hpm⟩)
    have hnd : ((sigs.filter (·.core.isMultiplexer)).map (·.core.name)).Nodup :=
      hflat.names.sublist (List.filter_sublist.map _)
    rw [hAB, List.map_append, List.map_cons, List.nodup_append, List.nodup_cons] at hnd
    refine ⟨A, p, B, hAB, by simp [hkp], ?_, ?_⟩
    · intro a ha
      simp only [hkp, beq_eq_false_iff_ne, ne_eq, Option.some.injEq]
      intro e
      exact hnd.2.2 _ (List.mem_map_of_mem ha) _ List.mem_cons_self e.symm
    · intro a ha
      simp only [hkp, beq_eq_false_iff_ne, ne_eq, Option.some.injEq]
      intro e
      exact hnd.2.1.1 (e ▸ List.mem_map_of_mem (f := fun k : KSignal => k.core.name) ha)
  have e1 : (sigs.filter fun k => k.core.multiplexerIds.isSome) =
      (sigs.filter fun k => !k.core.isMultiplexer).filter fun k => !k.core.multiplexerIds.isNone := by
    rw [List.filter_filter]
    apply List.filter_congr
    intro k hk
    cases hm : k.core.multiplexerIds with
    | none => simp
    | some ids => simp [(hflat.multiplexed k hk ids hm).1]
  have e2 : (sigs.filter fun k => !k.core.isMultiplexer && k.core.multiplexerIds.isNone) =
      (sigs.filter fun k => !k.core.isMultiplexer).filter fun k => k.core.multiplexerIds.isNone := by
    rw [List.filter_filter]
    apply List.filter_congr
    intro k _; rw [Bool.and_comm]
  refine (List.Perm.append_right _ (s1.trans (List.Perm.append_left _ s2))).trans ?_
  rw [e1, e2, List.append_assoc]
  refine (List.Perm.append_left _ ?_).trans (List.filter_append_perm (fun k : KSignal => k.core.isMultiplexer) sigs)
  exact List.perm_append_comm.trans
    (List.filter_append_perm (fun k : KSignal => k.core.multiplexerIds.isNone) _)

/-- What is dumped for the signals of a message. -/
theorem dumpTop_ok {T : NumText} (hT : T.Faithful) {nodes : List String} {sigs : List KSignal}
    (hflat : Flat sigs) (hw : ∀ k ∈ sigs, Writable nodes k) (l : List KSignal)
    (hl : ∀ k ∈ l, k ∈ sigs) :
    ∃ els muxed plain, l.mapM (dumpTopSignal T (nodeRefs nodes) sigs) = .ok els ∧
      (∀ x ∈ els.flatten, x.tag = "Multiplex" ∨ x.tag = "Signal") ∧
      ((els.flatten.filter fun x => x.tag == "Multiplex").map Xml.reparse).mapM
        (loadMultiplex T (nodeAttrs nodes)) = .ok muxed ∧
      ((els.flatten.filter fun x => x.tag == "Signal").map Xml.reparse).mapM
        (loadSignal T (nodeAttrs nodes)) = .ok plain ∧
      muxed.flatten.Perm (((l.filter (·.core.isMultiplexer)).flatMap fun p =>
        p :: sigs.filter fun k => k.core.multiplexerSignal == some p.core.name).map keptSignal) ∧
      plain = (l.filter fun k => !k.core.isMultiplexer && k.core.multiplexerIds.isNone).map keptSignal := by
  induction l with
  | nil => exact ⟨[], [], [], rfl, (fun x hx => nomatch hx), rfl, rfl, by simp, rfl⟩
  | cons k r ih =>
    obtain ⟨els, muxed, plain, h1, h2, h3, h4, h5, h6⟩ :=
      ih fun x hx => hl x (List.mem_cons_of_mem _ hx)
    have hk := hl k List.mem_cons_self
    cases hmx : k.core.isMultiplexer with
    | true =>
      obtain ⟨x, ms, x1, x2, x3, x4⟩ := loadMultiplex_ok hT hflat hw hk hmx
      refine ⟨[x] :: els, (keptSignal k :: ms) :: muxed, plain, ?_, ?_, ?_, ?_, ?_, ?_⟩
      · rw [List.mapM_cons, x1, h1]; rfl
      · intro y hy
        rw [List.flatten_cons, List.singleton_append] at hy
        rcases List.mem_cons.1 hy with rfl | hy
        · exact .inl x2
        · exact h2 y hy
      · rw [List.flatten_cons, List.singleton_append, List.filter_cons_of_pos (by simp [x2]),
          List.map_cons, List.mapM_cons, x3, h3]; rfl
      · rw [List.flatten_cons, List.singleton_append, List.filter_cons_of_neg (by simp [x2]), h4]
      · rw [List.filter_cons_of_pos (by exact hmx), List.flatMap_cons, List.map_append, List.flatten_cons]
        exact List.Perm.append (by rw [List.map_cons]; exact x4.cons _) h5
      · rw [List.filter_cons_of_neg (by simp [hmx]), h6]
    | false =>
      cases hids : k.core.multiplexerIds with
      | none =>
        obtain ⟨x, x1, x2, x3⟩ := dumpPlainSignal_ok hT (hw k hk)
        refine ⟨[x] :: els, muxed, keptSignal k :: plain, ?_, ?_, ?_, ?_, ?_, ?_⟩
        · rw [List.mapM_cons, h1]
          unfold dumpTopSignal
          rw [if_neg (by simp [hmx]), if_pos hids, x1]; rfl
        · intro y hy
          rw [List.flatten_cons, List.singleton_append] at hy
          rcases List.mem_cons.1 hy with rfl | hy
          · exact .inr x2
          · exact h2 y hy
        · rw [List.flatten_cons, List.singleton_append, List.filter_cons_of_neg (by simp [x2]), h3]
        · rw [List.flatten_cons, List.singleton_append, List.filter_cons_of_pos (by simp [x2]),
            List.map_cons, List.mapM_cons, x3, h4, plain_bare hmx hids (hflat.plain k hk hids)]; rfl
        · rw [List.filter_cons_of_neg (by simp [hmx])]; exact h5
        · rw [List.filter_cons_of_pos (by simp [hmx, hids]), h6]; rfl
      | some ids =>
        refine ⟨[] :: els, muxed, plain, ?_, ?_, ?_, ?_, ?_, ?_⟩
        · rw [List.mapM_cons, h1]
          unfold dumpTopSignal
          rw [if_neg (by simp [hmx]), if_neg (by simp [hids])]; rfl
        · rw [List.flatten_cons, List.nil_append]; exact h2
        · rw [List.flatten_cons, List.nil_append]; exact h3
        · rw [List.flatten_cons, List.nil_append]; exact h4
        · rw [List.filter_cons_of_neg (by simp [hmx])]; exact h5
        · rw [List.filter_cons_of_neg (by simp [hids]), h6]

theorem flat_of_perm {a b : List KSignal} (h : a.Perm b) (hf : Flat b) : Flat a where
  names := (h.map _).nodup_iff.2 hf.names
  plain := fun k hk => hf.plain k (h.mem_iff.1 hk)
  multiplexed := fun k hk ids hi => by
    obtain ⟨x, y, p, hp, z⟩ := hf.multiplexed k (h.mem_iff.1 hk) ids hi
    exact ⟨x, y, p, h.mem_iff.2 hp, z⟩

theorem showInt_ne_auto (i : Int) : showInt i ≠ "auto" := by
  intro h
  have := readInt_showInt i
  rw [h] at this
  exact absurd this (by
    have : readInt "auto" = .error .valueError := by decide +kernel
    rw [this]; intro h; cases h)

theorem loadLength_some (i : Int) (l : List KSignal) :
    loadLength (some (showInt i)) l = .ok i.toNat := by
  unfold loadLength
  split
  · rename_i h; cases h
  · rename_i h; injection h with h; exact absurd h (showInt_ne_auto i)
  · rename_i h; cases h; rw [readInt_showInt]; rfl

theorem loadMessage_dump {T : NumText} (hT : T.Faithful) {nodes : List String}
    {sort : List KSignal → List KSignal} {m : KMessage} (hsort : (sort m.signals).Perm m.signals)
    (hflat : Flat m.signals) (hw : ∀ k ∈ m.signals, Writable nodes k)
    (hs : ∀ s ∈ m.senders, ∃ n ∈ nodes, s = some n) :
    ∃ x signals, dumpMessage T (nodeRefs nodes) sort m = .ok x ∧ x.tag = "Message" ∧
      loadMessage T (nodeAttrs nodes) x.reparse = .ok { m with
        unusedBitPattern := 0xff
        comment := if m.comment = some "" then none else m.comment
        signals } ∧
      signals.Perm (m.signals.map keptSignal) := by
  have hflat' := flat_of_perm hsort hflat
  have hw' : ∀ k ∈ sort m.signals, Writable nodes k := fun k hk => hw k (hsort.mem_iff.1 hk)
  obtain ⟨els, muxed, plain, h1, h2, h3, h4, h5, h6⟩ := dumpTop_ok hT hflat' hw' _ fun k hk => hk
  obtain ⟨cs, hc, ht, hl⟩ := dumpRefs_ok "Producer" hs
  have htn := tagged_notes m.comment
  have hdump : dumpMessage T (nodeRefs nodes) sort m = .ok (.elem "Message"
      ([("id", showFrameId m.frameId), ("name", m.name), ("length", showInt m.length)] ++
        attrOpt "interval" (m.cycleTime.map showInt) ++
        attrIf m.isExtendedFrame "format" "extended") none
      (dumpNotes m.comment ++ cs ++ els.flatten)) := by
    unfold dumpMessage
    rw [hc, Except.ok_bind']
    show (List.mapM (dumpTopSignal T (nodeRefs nodes) (sort m.signals)) (sort m.signals) >>= _) = _
    rw [h1]; rfl
  refine ⟨_, muxed.flatten ++ plain, hdump, rfl, ?_, ?_⟩
  swap
  · rw [h6]
    refine (List.Perm.append_right _ h5).trans ?_
    rw [← List.map_append]
    exact ((flat_perm hflat').trans hsort).map keptSignal
  generalize hy : Xml.elem "Message" _ none _ = y
  have hattr : ∀ n, y.reparse.attr? n = dictGet? y.attrs n := fun n => attr?_reparse y n
  have hfind : ∀ t, y.reparse.find? t = (y.children.find? fun c => c.tag == t).map Xml.reparse :=
    fun t => find?_reparse y t
  have hch : y.children = dumpNotes m.comment ++ cs ++ els.flatten := by subst hy; rfl
  have hya : y.attrs = [("id", showFrameId m.frameId), ("name", m.name),
      ("length", showInt m.length)] ++ attrOpt "interval" (m.cycleTime.map showInt) ++
        attrIf m.isExtendedFrame "format" "extended" := by subst hy; rfl
  have hels : ∀ t, t ≠ "Multiplex" → t ≠ "Signal" →
      els.flatten.find? (fun c => c.tag == t) = none := by
    intro t t1 t2
    rw [List.find?_eq_none]
    intro x hx
    rcases h2 x hx with h | h <;> rw [h]
    · simpa using Ne.symm t1
    · simpa using Ne.symm t2
  have hnotes : y.reparse.find? "Notes" = (dumpNotes m.comment).head?.map Xml.reparse := by
    rw [hfind, hch]
    simp only [List.find?_append, find?_tagged htn,
      find?_tagged_ne ht (show "Producer" ≠ "Notes" by decide),
      hels "Notes" (by decide) (by decide), Option.or_none]
  have hprod : y.reparse.find? "Producer" = cs.head?.map Xml.reparse := by
    rw [hfind, hch]
    simp only [List.find?_append, find?_tagged ht,
      find?_tagged_ne htn (show "Notes" ≠ "Producer" by decide),
      hels "Producer" (by decide) (by decide), Option.or_none, Option.none_or]
  have hall : ∀ t, "Notes" ≠ t → "Producer" ≠ t →
      y.reparse.findAll t = (els.flatten.filter fun x => x.tag == t).map Xml.reparse := by
    intro t t1 t2
    rw [findAll_reparse]
    unfold Xml.findAll
    rw [hch]
    simp only [List.filter_append, filter_tagged_ne htn t1, filter_tagged_ne ht t2, List.nil_append]
  have a1 : y.reparse.attr? "id" = some (showFrameId m.frameId) := by
    rw [hattr, hya]; simp [dictGet?_append_or, dictGet?_cons]
  have a2 : y.reparse.attr? "name" = some m.name := by
    rw [hattr, hya]; simp [dictGet?_append_or, dictGet?_cons]
  have a3 : y.reparse.attr? "length" = some (showInt m.length) := by
    rw [hattr, hya]; simp [dictGet?_append_or, dictGet?_cons]
  have a4 : y.reparse.attr? "interval" = m.cycleTime.map showInt := by
    rw [hattr, hya]; simp [dictGet?_append_or, dictGet?_cons, dictGet?_attrIf, dictGet?_attrOpt]
  have a5 : y.reparse.attr? "format" = if m.isExtendedFrame then some "extended" else none := by
    rw [hattr, hya]; simp [dictGet?_append_or, dictGet?_cons, dictGet?_attrIf, dictGet?_attrOpt]
  have b5 : decide ((if m.isExtendedFrame then some "extended" else none) = some "extended") =
      m.isExtendedFrame := by
    cases m.isExtendedFrame <;> decide
  unfold loadMessage
  rw [a1, a2, a3, a4, a5, b5, hl _ hprod, loadNotes_dump hnotes,
    hall "Multiplex" (by decide) (by decide), hall "Signal" (by decide) (by decide), h3, h4,
    readOpt_map readInt_showInt]
  simp only [readOpt, readFrameId_showFrameId, Except.map, loadLength_some, bind, Except.bind, pure,
    Except.pure, Int.toNat_natCast, Option.getD_some]

/-! ### Databases -/

theorem load_dump {T : NumText} (hT : T.Faithful) {sort : List KSignal → List KSignal}
    {db : KDatabase} (hsort : ∀ m ∈ db.messages, (sort m.signals).Perm m.signals)
    (hflat : ∀ m ∈ db.messages, Flat m.signals)
    (hw : ∀ m ∈ db.messages, ∀ k ∈ m.signals, Writable db.nodes k)
    (hs : ∀ m ∈ db.messages, ∀ s ∈ m.senders, ∃ n ∈ db.nodes, s = some n) :
    ∃ x db', dump T sort db = .ok x ∧ load T x.reparse = .ok db' ∧
      db'.version = some (db.version.getD "") ∧ db'.nodes = db.nodes ∧
      List.Forall₂ (fun m m' => ∃ signals, signals.Perm (m.signals.map keptSignal) ∧
        m' = { m with
          unusedBitPattern := 0xff
          comment := if m.comment = some "" then none else m.comment
          signals }) db.messages db'.messages := by
  obtain ⟨xs, x1, x2⟩ := mapM_exists (f := dumpMessage T (nodeRefs db.nodes) sort)
    (P := fun m x => x.tag = "Message" ∧ ∃ signals, signals.Perm (m.signals.map keptSignal) ∧
      loadMessage T (nodeAttrs db.nodes) x.reparse = .ok { m with
        unusedBitPattern := 0xff
        comment := if m.comment = some "" then none else m.comment
        signals }) (l := db.messages)
    (fun m hm => by
      obtain ⟨x, s, a, b, c, d⟩ := loadMessage_dump hT (hsort m hm) (hflat m hm) (hw m hm) (hs m hm)
      exact ⟨x, a, b, s, d, c⟩)
  have htx : Tagged "Message" xs := forall₂_tagged x2 fun _ _ h => h.1
  obtain ⟨ms, m1, m2⟩ : ∃ ms, (xs.map Xml.reparse).mapM (loadMessage T (nodeAttrs db.nodes)) = .ok ms ∧
      List.Forall₂ (fun m m' => ∃ signals, signals.Perm (m.signals.map keptSignal) ∧
        m' = { m with
          unusedBitPattern := 0xff
          comment := if m.comment = some "" then none else m.comment
          signals }) db.messages ms := by
    clear x1 htx hs hw hflat hsort
    generalize db.messages = l at x2
    induction x2 with
    | nil => exact ⟨[], rfl, .nil⟩
    | cons h _ ih =>
      obtain ⟨_, s, hp, hl⟩ := h
      obtain ⟨ms, m1, m2⟩ := ih
      exact ⟨_, by rw [List.map_cons, List.mapM_cons, hl, m1]; rfl, .cons ⟨s, hp, rfl⟩ m2⟩
  have htn : Tagged "Node" (dumpNodes db.nodes) := by
    intro x hx
    obtain ⟨p, _, rfl⟩ := List.mem_map.1 hx
    rfl
  refine ⟨_, ⟨some (db.version.getD ""), db.nodes, ms⟩, by unfold dump; rw [x1]; rfl, ?_, rfl, rfl, m2⟩
  have hnodes : ∀ (d b : Xml), d.tag = "Document" → b.tag = "Bus" →
      (Xml.elem "NetworkDefinition" [] none ([d] ++ dumpNodes db.nodes ++ [b])).findAll "Node" =
        dumpNodes db.nodes := by
    intro d b hd hb
    unfold Xml.findAll
    simp only [Xml.children, List.filter_append, filter_tagged htn]
    rw [List.filter_cons_of_neg (by simp [hd]), List.filter_cons_of_neg (by simp [hb])]
    simp
  have hbus : ∀ (d b : Xml), d.tag = "Document" → b.tag = "Bus" →
      (Xml.elem "NetworkDefinition" [] none ([d] ++ dumpNodes db.nodes ++ [b])).findAll "Bus" =
        [b] := by
    intro d b hd hb
    unfold Xml.findAll
    simp only [Xml.children, List.filter_append, filter_tagged_ne htn (show "Node" ≠ "Bus" by decide)]
    rw [List.filter_cons_of_neg (by simp [hd]), List.filter_cons_of_pos (by simp [hb])]
    simp
  have hdoc : ∀ (d b : Xml), d.tag = "Document" →
      (Xml.elem "NetworkDefinition" [] none ([d] ++ dumpNodes db.nodes ++ [b])).find? "Document" =
        some d := by
    intro d b hd
    unfold Xml.find?
    simp [Xml.children, hd]
  have hnames : ((dumpNodes db.nodes).map Xml.reparse).map (·.attrs) = nodeAttrs db.nodes := by
    unfold nodeAttrs
    rw [List.map_map]
    apply List.map_congr_left
    intro x _; exact attrs_reparse x
  have hnm : (nodeAttrs db.nodes).mapM (fun n => dictGet n "name") = .ok db.nodes := by
    unfold nodeAttrs dumpNodes
    rw [List.map_map]
    have : ∀ (l : List String) (j : Nat), ((l.zipIdx j).map (Xml.attrs ∘ fun p : String × Nat =>
        Xml.elem "Node" [("id", showInt p.2), ("name", p.1)] none [])).mapM
        (fun n => dictGet n "name") = .ok l := by
      intro l
      induction l with
      | nil => intro j; rfl
      | cons a r ih =>
        intro j
        rw [List.zipIdx_cons, List.map_cons, List.mapM_cons, ih]
        rfl
    exact this _ _
  generalize hd : Xml.elem "Document" [("version", db.version.getD "")] none [] = d at *
  generalize hb : Xml.elem "Bus" [("name", "Bus")] none xs = b at *
  have hdt : d.tag = "Document" := by rw [← hd]; rfl
  have hbt : b.tag = "Bus" := by rw [← hb]; rfl
  unfold load
  rw [if_neg (by rw [tag_reparse]; exact not_not.2 rfl)]
  simp only [findAll_reparse, find?_reparse, hnodes d b hdt hbt, hbus d b hdt hbt, hdoc d b hdt, hnames,
    List.map_cons, List.map_nil, List.mapM_cons, List.mapM_nil, attrs_reparse]
  subst hd hb
  have hf : (Xml.elem "Bus" [("name", "Bus")] none xs).findAll "Message" = xs := filter_tagged htx
  rw [hf, m1, hnm]
  simp [dictGet, Xml.attrs, dictGet?_cons, bind, Except.bind, pure, Except.pure, attr?_reparse, Xml.attr?]
  simp [Xml.reparse, dictGet?_cons]

end Cantools.Kcd
