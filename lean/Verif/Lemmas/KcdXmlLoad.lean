import Verif.Lemmas.KcdXml
import Verif.Lemmas.Kcd
import Verif.Lemmas.SpreadFrame
import Verif.Lemmas.DbcSync
import Verif.Spec.KcdXml

/-
KCD files: what is loaded from the text that was written.
-/

namespace Cantools.Kcd
open Cantools Spec

/-! ### The characters that are written -/

theorem plain_newLine (level : Nat) : ∀ c ∈ newLine level, plainChar c = true := by
  intro c hc
  rcases List.mem_cons.1 hc with rfl | hc
  · decide
  · rw [(List.mem_replicate.1 hc).2]
    decide

theorem plain_escapeText {s : Chars} (h : ∀ c ∈ s, plainChar c = true) :
    ∀ c ∈ escapeText s, plainChar c = true := by
  intro c hc
  rcases mem_escapeText hc with h' | h'
  · exact (by decide : ∀ c ∈ "&amp;ltg".toList, plainChar c = true) c h'
  · exact h c h'.1

theorem plain_escapeAttr {s : Chars} (h : ∀ c ∈ s, isXmlChar c = true) :
    ∀ c ∈ escapeAttr s, plainChar c = true := by
  intro c hc
  rcases mem_escapeAttr hc with h' | h'
  · exact (by decide : ∀ c ∈ "&amp;ltgquo#01239".toList, plainChar c = true) c h'
  · unfold plainChar
    rw [h c h'.1]
    simpa using h'.2.2.2

theorem plain_append {a b : Chars} (ha : ∀ c ∈ a, plainChar c = true)
    (hb : ∀ c ∈ b, plainChar c = true) : ∀ c ∈ a ++ b, plainChar c = true := by
  intro c hc
  rcases List.mem_append.1 hc with h | h
  · exact ha c h
  · exact hb c h

theorem plain_cons {d : Char} {b : Chars} (hd : plainChar d = true)
    (hb : ∀ c ∈ b, plainChar c = true) : ∀ c ∈ d :: b, plainChar c = true := by
  intro c hc
  rcases List.mem_cons.1 hc with rfl | h
  · exact hd
  · exact hb c h

theorem plain_nil : ∀ c ∈ ([] : Chars), plainChar c = true := fun _ h => absurd h List.not_mem_nil

theorem plain_attrs {attrs : List (String × String)} (h : GoodAttrs attrs) :
    ∀ c ∈ attrsText attrs, plainChar c = true := by
  intro c hc
  obtain ⟨a, ha, hc⟩ := List.mem_flatMap.1 hc
  exact plain_cons (by decide) (plain_append (h.nameChars a ha) (plain_cons (by decide)
    (plain_cons (by decide) (plain_append (plain_escapeAttr (h.valueChars a ha))
      (plain_cons (by decide) plain_nil))))) c hc

theorem plain_indentText {level : Nat} {x : Option String}
    (h : ∀ d ∈ (x.getD "").toList, plainChar d = true) :
    ∀ c ∈ indentText level x, plainChar c = true := by
  unfold indentText
  split
  · exact plain_newLine _
  · exact h

mutual
theorem plain_writeElem (level : Nat) : ∀ (x : Xml), x.Good →
    ∀ c ∈ writeElem level x, plainChar c = true
  | .elem t a x [], h => by
    obtain ⟨-, ha, -, -, ht, hx⟩ := h
    rw [writeElem]
    refine plain_cons (by decide) (plain_append ht (plain_append (plain_attrs ha) ?_))
    split
    · decide
    · exact plain_cons (by decide) (plain_append (plain_escapeText hx) (plain_cons (by decide)
        (plain_cons (by decide) (plain_append ht (plain_cons (by decide) plain_nil)))))
  | .elem t a x (c :: r), h => by
    obtain ⟨-, ha, hc, -, ht, hx⟩ := h
    rw [writeElem]
    exact plain_cons (by decide) (plain_append ht (plain_append (plain_attrs ha)
      (plain_cons (by decide) (plain_append (plain_escapeText (plain_indentText hx))
        (plain_append (plain_writeChildren level (c :: r) hc) (plain_cons (by decide)
        (plain_cons (by decide) (plain_append ht (plain_cons (by decide) plain_nil)))))))))
theorem plain_writeChildren (level : Nat) : ∀ (l : List Xml), GoodAll l →
    ∀ c ∈ writeChildren level l, plainChar c = true
  | [], _ => by rw [writeChildren]; exact plain_nil
  | [c], h => by
    rw [writeChildren]
    exact plain_append (plain_writeElem (level + 1) c h.1) (plain_newLine _)
  | c :: d :: r, h => by
    rw [writeChildren]
    exact plain_append (plain_writeElem (level + 1) c h.1) (plain_append (plain_newLine _)
      (plain_writeChildren level (d :: r) h.2))
end

theorem normalizeLines_plain : ∀ {s : Chars}, (∀ c ∈ s, plainChar c = true) → normalizeLines s = s
  | [], _ => rfl
  | c :: r, h => by
    have hc : c ≠ '\r' := by
      rintro rfl
      exact absurd (h '\r' (by simp)) (by decide)
    rw [normalizeLines, if_neg hc, normalizeLines_plain fun d hd => h d (List.mem_cons_of_mem _ hd)]
    rintro r rfl
    exact absurd rfl hc

/-! ### What is read of a document -/

theorem parseDocument_text {x : Xml} (h : x.Good) :
    parseDocument (writeElem 0 x ++ newLine 0) = some (x.seen 0) := by
  have hp := plain_append (plain_writeElem 0 x h) (plain_newLine 0)
  have hall : (writeElem 0 x ++ newLine 0).all isXmlChar = true := by
    rw [List.all_eq_true]
    intro c hc
    have := hp c hc
    unfold plainChar at this
    exact (Bool.and_eq_true_iff.1 this).1
  have hdrop : (writeElem 0 x ++ newLine 0).dropWhile isXmlSpace = writeElem 0 x ++ newLine 0 := by
    obtain ⟨d, r, e, -⟩ := writeElem_head (level := 0) h
    rw [e]
    exact List.dropWhile_cons_of_neg (by decide)
  unfold parseDocument
  rw [if_pos hall, normalizeLines_plain hp, hdrop]
  dsimp only
  rw [parseElem_text 0 x h _ ((steps_le 0 x).trans (by rw [List.length_append]; omega)), Option.bind_some]
  rfl

/-! ### Only the text of `Notes` matters -/

mutual
def Xml.forget : Xml → Xml
  | .elem t a x c => .elem t a (if t = "Notes" then x else none) (forgetAll c)
def forgetAll : List Xml → List Xml
  | [] => []
  | x :: r => x.forget :: forgetAll r
end

theorem forgetAll_eq (l : List Xml) : forgetAll l = l.map Xml.forget := by
  induction l with
  | nil => rfl
  | cons a r ih => rw [forgetAll, ih]; rfl

theorem tag_forget (x : Xml) : x.forget.tag = x.tag := by cases x; rfl
theorem attrs_forget (x : Xml) : x.forget.attrs = x.attrs := by cases x; rfl
theorem children_forget (x : Xml) : x.forget.children = x.children.map Xml.forget := by
  cases x; exact forgetAll_eq _
theorem attr?_forget (x : Xml) (n : String) : x.forget.attr? n = x.attr? n := by
  unfold Xml.attr?; rw [attrs_forget]

theorem find?_forget (x : Xml) (t : String) : x.forget.find? t = (x.find? t).map Xml.forget := by
  unfold Xml.find?
  rw [children_forget, List.find?_map]
  congr 2
  funext c; exact congrArg (· == t) (tag_forget c)

theorem findAll_forget (x : Xml) (t : String) : x.forget.findAll t = (x.findAll t).map Xml.forget := by
  unfold Xml.findAll
  rw [children_forget, List.filter_map]
  congr 2
  funext c; exact congrArg (· == t) (tag_forget c)

theorem mapM_map_forget {β : Type} (f : Xml → Except Err β) (h : ∀ x, f x.forget = f x) (l : List Xml) :
    (l.map Xml.forget).mapM f = l.mapM f := by
  induction l with
  | nil => rfl
  | cons a r ih => rw [List.map_cons, List.mapM_cons, List.mapM_cons, h, ih]

theorem loadRefs_forget (nodes : List (List (String × String))) (t : String) (x : Xml) :
    loadRefs nodes t x.forget = loadRefs nodes t x := by
  unfold loadRefs
  rw [find?_forget]
  cases x.find? t with
  | none => rfl
  | some c =>
    simp only [Option.map_some]
    rw [findAll_forget]
    exact mapM_map_forget _ (fun y => by rw [attrs_forget]) _

theorem loadNotes_forget (x : Xml) : loadNotes x.forget = loadNotes x := by
  unfold loadNotes
  rw [find?_forget]
  cases hx : x.find? "Notes" with
  | none => rfl
  | some c =>
    have ht : c.tag = "Notes" := by
      have := List.find?_some hx
      simpa using this
    cases c with
    | elem t a y cs =>
      obtain rfl : t = "Notes" := ht
      rfl

theorem loadLabels_forget (x : Xml) : loadLabels x.forget = loadLabels x := by
  unfold loadLabels
  rw [find?_forget]
  cases x.find? "LabelSet" with
  | none => rfl
  | some c =>
    simp only [Option.map_some]
    rw [findAll_forget, List.foldlM_map]
    simp only [attrs_forget]

theorem loadSignal_forget (T : NumText) (nodes : List (List (String × String))) (x : Xml) :
    loadSignal T nodes x.forget = loadSignal T nodes x := by
  have hv : ∀ n, (((x.find? "Value").map Xml.forget).getD (.elem "Value" [] none [])).attr? n =
      ((x.find? "Value").getD (.elem "Value" [] none [])).attr? n := by
    intro n
    cases x.find? "Value" with
    | none => rfl
    | some c => exact attr?_forget c n
  unfold loadSignal
  simp only [attr?_forget, find?_forget, loadLabels_forget, loadRefs_forget, loadNotes_forget, hv]

theorem loadMuxGroup_forget (T : NumText) (nodes : List (List (String × String))) (mux : String) (x : Xml) :
    loadMuxGroup T nodes mux x.forget = loadMuxGroup T nodes mux x := by
  unfold loadMuxGroup
  rw [attrs_forget, findAll_forget]
  cases dictGet x.attrs "count" with
  | error e => rfl
  | ok count => exact mapM_map_forget _ (fun y => by simp only [loadSignal_forget]) _

theorem loadMultiplex_forget (T : NumText) (nodes : List (List (String × String))) (x : Xml) :
    loadMultiplex T nodes x.forget = loadMultiplex T nodes x := by
  unfold loadMultiplex
  rw [loadSignal_forget, findAll_forget]
  simp only [mapM_map_forget _ (loadMuxGroup_forget T nodes _)]

theorem loadMessage_forget (T : NumText) (nodes : List (List (String × String))) (x : Xml) :
    loadMessage T nodes x.forget = loadMessage T nodes x := by
  unfold loadMessage
  simp only [attr?_forget, findAll_forget, loadRefs_forget, loadNotes_forget,
    mapM_map_forget _ (loadMultiplex_forget T nodes), mapM_map_forget _ (loadSignal_forget T nodes)]

theorem load_forget (T : NumText) (x : Xml) : load T x.forget = load T x := by
  unfold load
  simp only [tag_forget, findAll_forget, find?_forget, List.map_map]
  have h1 : ((fun y : Xml => y.attrs) ∘ Xml.forget) = fun y : Xml => y.attrs := by
    funext y; exact attrs_forget y
  have h2 : (((x.find? "Document").map Xml.forget).bind fun d => d.attr? "version") =
      (x.find? "Document").bind fun d => d.attr? "version" := by
    cases x.find? "Document" with
    | none => rfl
    | some c => exact attr?_forget c _
  rw [h1, h2, mapM_map_forget _ (fun b => by
    rw [attrs_forget, findAll_forget, mapM_map_forget _ (loadMessage_forget T _)])]

mutual
theorem forget_seen (level : Nat) : ∀ x : Xml, x.Good → (x.seen level).forget = x.reparse.forget
  | .elem t a x c, h => by
    rw [Xml.seen, Xml.forget, Xml.reparse, Xml.forget, forgetAll_seen (level + 1) c h.2.2.1]
    congr 1
    by_cases ht : t = "Notes"
    · rw [if_pos ht, if_pos ht, h.2.2.2.1 ht, seenText]
      cases x with
      | none => rfl
      | some s =>
        by_cases hs : s = ""
        · subst hs; rfl
        · rw [if_neg, if_neg]
          · simpa using hs
          · simpa using hs
    · rw [if_neg ht, if_neg ht]
theorem forgetAll_seen (level : Nat) : ∀ l : List Xml, GoodAll l →
    forgetAll (seenAll level l) = forgetAll (reparseAll l)
  | [], _ => rfl
  | x :: r, h => by
    rw [seenAll, reparseAll, forgetAll, forgetAll, forget_seen level x h.1, forgetAll_seen level r h.2]
end

theorem load_withAttrs (T : NumText) (attrs : List (String × String)) (x : Xml) :
    load T (withAttrs attrs x).reparse = load T x.reparse := by
  cases x; rfl

/-- Loading the text of a document gives what its elements say. -/
theorem loadString_text {T : NumText} {x : Xml} (h : (withAttrs rootAttrs x).Good) :
    loadString T (writeElem 0 (withAttrs rootAttrs x) ++ newLine 0) = load T x.reparse := by
  unfold loadString
  rw [parseDocument_text h]
  dsimp only
  have ha : ((withAttrs rootAttrs x).seen 0).attr? "xmlns" = some namespace_ := by
    cases x; rfl
  rw [if_pos ha, ← load_forget, forget_seen 0 _ h, load_forget, load_withAttrs]

/-! ### The elements of a database are well formed -/

theorem goodAll_iff {l : List Xml} : GoodAll l ↔ ∀ x ∈ l, x.Good := by
  induction l with
  | nil => simp [GoodAll]
  | cons a r ih => rw [GoodAll, ih]; simp

theorem isXmlChar_of {c : Char} (h : XmlChar c) : isXmlChar c = true := by
  unfold isXmlChar
  have hc : ∀ d : Char, c.toNat = d.toNat → c = d := fun d e => Char.toNat_inj.1 e
  rcases h with h | h | h | ⟨h1, h2, h3⟩
  · rw [hc '\t' h]; rfl
  · rw [hc '\n' h]; rfl
  · rw [hc '\r' h]; rfl
  · have h4 : ' ' ≤ c := by
      show (' ' : Char).val ≤ c.val
      rw [UInt32.le_iff_toNat_le]
      exact h1
    simp [h2, h3, h4]

theorem plain_of {c : Char} (h : XmlChar c ∧ c.toNat ≠ 13) : plainChar c = true := by
  unfold plainChar
  rw [isXmlChar_of h.1, Bool.true_and, bne_iff_ne]
  rintro rfl
  exact h.2 rfl

theorem good_leaf {t : String} {a : List (String × String)} (ht : isName t.toList = true)
    (hc : ∀ d ∈ t.toList, plainChar d = true) (ha : GoodAttrs a) : (Xml.elem t a none []).Good :=
  ⟨ht, ha, trivial, fun _ => rfl, hc, fun _ h => absurd h (by simp)⟩

theorem good_node {t : String} {a : List (String × String)} {l : List Xml} (ht : isName t.toList = true)
    (hn : t ≠ "Notes") (hc : ∀ d ∈ t.toList, plainChar d = true) (ha : GoodAttrs a)
    (hl : ∀ x ∈ l, x.Good) : (Xml.elem t a none l).Good :=
  ⟨ht, ha, goodAll_iff.2 hl, fun e => absurd e hn, hc, fun _ h => absurd h (by simp)⟩

/-- Attributes whose names are among known ones. -/
theorem good_attrs {attrs : List (String × String)} {names : List String}
    (h : (attrs.map (·.1)).Sublist names) (hd : names.Nodup)
    (hn : ∀ n ∈ names, isName n.toList = true ∧ ∀ c ∈ n.toList, plainChar c = true)
    (hv : ∀ a ∈ attrs, ∀ c ∈ a.2.toList, isXmlChar c = true) : GoodAttrs attrs :=
  ⟨fun _ ha => (hn _ (h.subset (List.mem_map_of_mem ha))).1, h.nodup hd,
    fun _ ha => (hn _ (h.subset (List.mem_map_of_mem ha))).2, hv⟩

theorem attrIf_names (b : Bool) (n v : String) : ((attrIf b n v).map (·.1)).Sublist [n] := by
  cases b with
  | false => exact List.nil_sublist _
  | true => exact List.Sublist.refl _

theorem attrOpt_names (n : String) (v : Option String) : ((attrOpt n v).map (·.1)).Sublist [n] := by
  cases v with
  | none => exact List.nil_sublist _
  | some v => exact List.Sublist.refl _

theorem mem_attrIf {b : Bool} {n v : String} {a : String × String} (h : a ∈ attrIf b n v) : a.2 = v := by
  cases b with
  | false => exact absurd h List.not_mem_nil
  | true => rw [List.mem_singleton.1 h]

theorem mem_attrOpt {n : String} {v : Option String} {a : String × String} (h : a ∈ attrOpt n v) :
    v = some a.2 := by
  cases v with
  | none => exact absurd h List.not_mem_nil
  | some v => rw [List.mem_singleton.1 h]

theorem xml_decimal (n : Nat) : ∀ c ∈ decimal n, isXmlChar c = true := by
  induction n using Nat.strongRecOn with
  | ind n ih =>
    rw [decimal]
    have hd : ∀ k, k < 10 → isXmlChar (Char.ofNat (48 + k)) = true := by decide
    split
    · rename_i h
      intro c hc
      rw [List.mem_singleton.1 hc]
      exact hd n h
    · intro c hc
      rcases List.mem_append.1 hc with h | h
      · exact ih _ (by omega) c h
      · rw [List.mem_singleton.1 h]
        exact hd _ (Nat.mod_lt _ (by decide))

theorem xml_showInt (i : Int) : ∀ c ∈ (showInt i).toList, isXmlChar c = true := by
  unfold showInt
  rw [String.toList_ofList]
  split
  · intro c hc
    rcases List.mem_cons.1 hc with rfl | hc
    · decide
    · exact xml_decimal _ c hc
  · exact xml_decimal _

theorem xml_hexadecimal (n : Nat) : ∀ c ∈ hexadecimal n, isXmlChar c = true := by
  induction n using Nat.strongRecOn with
  | ind n ih =>
    rw [hexadecimal]
    have hd : ∀ k, k < 16 → isXmlChar (hexChar k) = true := by decide
    split
    · rename_i h
      intro c hc
      rw [List.mem_singleton.1 hc]
      exact hd n h
    · intro c hc
      rcases List.mem_append.1 hc with h | h
      · exact ih _ (by omega) c h
      · rw [List.mem_singleton.1 h]
        exact hd _ (Nat.mod_lt _ (by decide))

theorem xml_showFrameId (n : Nat) : ∀ c ∈ (showFrameId n).toList, isXmlChar c = true := by
  unfold showFrameId
  rw [String.toList_ofList]
  intro c hc
  rcases List.mem_cons.1 hc with rfl | hc
  · decide
  rcases List.mem_cons.1 hc with rfl | hc
  · decide
  rcases List.mem_append.1 hc with h | h
  · rw [(List.mem_replicate.1 h).2]; decide
  · exact xml_hexadecimal n c h

theorem xml_of {s : String} (h : XmlText s) : ∀ c ∈ s.toList, isXmlChar c = true :=
  fun c hc => isXmlChar_of (h c hc)

theorem mapM_mem {α β : Type} {f : α → Except Err β} {l : List α} {r : List β} (h : l.mapM f = .ok r) :
    ∀ y ∈ r, ∃ x ∈ l, f x = .ok y := by
  induction l generalizing r with
  | nil =>
    rw [List.mapM_nil] at h
    obtain rfl := Except.ok.inj h
    exact fun _ h => absurd h List.not_mem_nil
  | cons a l ih =>
    rw [List.mapM_cons] at h
    obtain ⟨b, hb, h⟩ := bind_ok_iff.1 h
    obtain ⟨bs, hbs, h⟩ := bind_ok_iff.1 h
    obtain rfl := Except.ok.inj h
    intro y hy
    rcases List.mem_cons.1 hy with rfl | hy
    · exact ⟨a, by simp, hb⟩
    · obtain ⟨x, hx, e⟩ := ih hbs y hy
      exact ⟨x, List.mem_cons_of_mem _ hx, e⟩

theorem good_dumpNotes {c : Option String} (h : ∀ s, c = some s → XmlContent s) :
    ∀ x ∈ dumpNotes c, x.Good := by
  cases c with
  | none => exact fun _ h => absurd h List.not_mem_nil
  | some s =>
    intro x hx
    rw [List.mem_singleton.1 hx]
    exact ⟨by decide, ⟨by simp, by simp, by simp, by simp⟩, trivial, fun _ => rfl, by decide,
      fun d hd => plain_of (h s rfl d hd)⟩

theorem good_dumpRefs {tag : String} (ht : isName tag.toList = true) (hn : tag ≠ "Notes")
    (hc : ∀ d ∈ tag.toList, plainChar d = true) {refs : List (String × Nat)}
    {names : List (Option String)} {l : List Xml} (h : dumpRefs tag refs names = .ok l) :
    ∀ x ∈ l, x.Good := by
  unfold dumpRefs at h
  split at h
  · obtain rfl := Except.ok.inj h
    exact fun _ h => absurd h List.not_mem_nil
  · obtain ⟨ids, -, h⟩ := bind_ok_iff.1 h
    obtain rfl := Except.ok.inj h
    intro x hx
    rw [List.mem_singleton.1 hx]
    refine good_node ht hn hc ⟨by simp, by simp, by simp, by simp⟩ fun y hy => ?_
    obtain ⟨i, -, rfl⟩ := List.mem_map.1 hy
    refine good_leaf (by decide) (by decide) (good_attrs (names := ["id"]) (List.Sublist.refl _) (by decide)
      (by decide) fun a ha => ?_)
    rw [List.mem_singleton.1 ha]
    exact xml_showInt _

theorem good_dumpLabels {c : Option Choices} (h : ∀ cs, c = some cs → ∀ e ∈ cs, XmlText e.2.toStr) :
    ∀ x ∈ dumpLabels c, x.Good := by
  unfold dumpLabels
  split
  · exact fun _ h => absurd h List.not_mem_nil
  · exact fun _ h => absurd h List.not_mem_nil
  · rename_i cs _
    intro x hx
    rw [List.mem_singleton.1 hx]
    refine good_node (by decide) (by decide) (by decide) ⟨by simp, by simp, by simp, by simp⟩ fun y hy => ?_
    obtain ⟨e, he, rfl⟩ := List.mem_map.1 hy
    refine good_leaf (by decide) (by decide) (good_attrs (names := ["name", "value"]) (List.Sublist.refl _)
      (by decide) (by decide) fun a ha => ?_)
    rcases List.mem_cons.1 ha with rfl | ha
    · exact xml_of (h cs rfl e he)
    · rw [List.mem_singleton.1 ha]
      exact xml_showInt _

theorem good_valueAttrs {T : NumText} (hT : T.Plain) {k : KSignal} (h : TextSignal k) :
    GoodAttrs (valueAttrs T k) := by
  refine good_attrs (names := ["min", "max", "slope", "intercept", "unit", "type"]) ?_ (by decide)
    (by decide) fun a ha => ?_
  · unfold valueAttrs
    simp only [List.map_append]
    exact ((((((attrOpt_names _ _).append (attrOpt_names _ _)).append (attrIf_names _ _ _)).append
      (attrIf_names _ _ _)).append (attrOpt_names _ _)).append (attrOpt_names _ _))
  · unfold valueAttrs at ha
    simp only [List.mem_append] at ha
    rcases ha with ((((ha | ha) | ha) | ha) | ha) | ha
    · obtain ⟨q, -, e⟩ := Option.map_eq_some_iff.1 (mem_attrOpt ha)
      rw [← e]; exact xml_of (hT q)
    · obtain ⟨q, -, e⟩ := Option.map_eq_some_iff.1 (mem_attrOpt ha)
      rw [← e]; exact xml_of (hT q)
    · rw [mem_attrIf ha]; exact xml_of (hT _)
    · rw [mem_attrIf ha]; exact xml_of (hT _)
    · exact xml_of (h.unit _ (mem_attrOpt ha))
    · have := mem_attrOpt ha
      unfold typeName at this
      split at this
      · rw [← Option.some.inj this]
        split <;> decide
      · split at this
        · rw [← Option.some.inj this]; decide
        · cases this

theorem good_dumpSignal {T : NumText} (hT : T.Plain) {refs : List (String × Nat)} {k : KSignal}
    (hk : TextSignal k) {r : List (String × String) × List Xml} (h : dumpSignal T refs k = .ok r) :
    GoodAttrs r.1 ∧ ∀ x ∈ r.2, x.Good := by
  unfold dumpSignal at h
  dsimp only at h
  obtain ⟨consumer, hc, h⟩ := bind_ok_iff.1 h
  obtain rfl := Except.ok.inj h
  constructor
  · refine good_attrs (names := ["name", "offset", "length", "endianess"]) ?_ (by decide)
      (by decide) fun a ha => ?_
    · simp only [List.map_append]
      exact ((List.Sublist.refl ["name", "offset"]).append (attrIf_names _ _ _)).append (attrIf_names _ _ _)
    · simp only [List.mem_append] at ha
      rcases ha with (ha | ha) | ha
      · rcases List.mem_cons.1 ha with rfl | ha
        · exact xml_of hk.name
        · rw [List.mem_singleton.1 ha]
          exact xml_showInt _
      · rw [mem_attrIf ha]; exact xml_showInt _
      · rw [mem_attrIf ha]; decide
  · intro x hx
    simp only [List.mem_append] at hx
    rcases hx with ((hx | hx) | hx) | hx
    · exact good_dumpNotes hk.comment x hx
    · exact good_dumpRefs (by decide) (by decide) (by decide) hc x hx
    · split at hx
      · exact absurd hx List.not_mem_nil
      · rw [List.mem_singleton.1 hx]
        exact good_leaf (by decide) (by decide) (good_valueAttrs hT hk)
    · exact good_dumpLabels hk.choices x hx

theorem good_dumpPlainSignal {T : NumText} (hT : T.Plain) {refs : List (String × Nat)} {k : KSignal}
    (hk : TextSignal k) {x : Xml} (h : dumpPlainSignal T refs k = .ok x) : x.Good := by
  obtain ⟨r, hr, h⟩ := bind_ok_iff.1 h
  obtain rfl := Except.ok.inj h
  obtain ⟨h1, h2⟩ := good_dumpSignal hT hk hr
  exact good_node (by decide) (by decide) (by decide) h1 h2

theorem mem_signalsPerCount {mux : String} : ∀ {l : List KSignal} {acc r : List (Int × List KSignal)},
    signalsPerCount mux l acc = .ok r → ∀ g ∈ r, ∀ k ∈ g.2, k ∈ l ∨ ∃ g' ∈ acc, k ∈ g'.2
  | [], acc, r, h, g, hg, k, hk => by
    obtain rfl := Except.ok.inj h
    exact Or.inr ⟨g, hg, hk⟩
  | a :: l, acc, r, h, g, hg, k, hk => by
    rw [signalsPerCount] at h
    split at h
    · rcases mem_signalsPerCount h g hg k hk with h' | h'
      · exact Or.inl (List.mem_cons_of_mem _ h')
      · exact Or.inr h'
    · split at h
      · cases h
      · cases h
      · rename_i i _ _
        rcases mem_signalsPerCount h g hg k hk with h' | ⟨g', hg', h'⟩
        · exact Or.inl (List.mem_cons_of_mem _ h')
        · rcases Dbc.mem_dictSet hg' with rfl | hg'
          · rcases List.mem_append.1 h' with h' | h'
            · right
              cases hx : dictGet? acc i with
              | none => rw [hx] at h'; exact absurd h' List.not_mem_nil
              | some l' =>
                rw [hx] at h'
                exact ⟨(i, l'), dictGet?_mem hx, h'⟩
            · rw [List.mem_singleton.1 h']
              exact Or.inl (List.mem_cons_self ..)
          · exact Or.inr ⟨g', hg', h'⟩

theorem good_dumpTopSignal {T : NumText} (hT : T.Plain) {refs : List (String × Nat)}
    {signals : List KSignal} (hs : ∀ k ∈ signals, TextSignal k) {k : KSignal} (hk : k ∈ signals)
    {l : List Xml} (h : dumpTopSignal T refs signals k = .ok l) : ∀ x ∈ l, x.Good := by
  unfold dumpTopSignal at h
  split at h
  · obtain ⟨r, hr, h⟩ := bind_ok_iff.1 h
    obtain ⟨g, hg, h⟩ := bind_ok_iff.1 h
    obtain rfl := Except.ok.inj h
    intro x hx
    rw [List.mem_singleton.1 hx]
    obtain ⟨h1, h2⟩ := good_dumpSignal hT (hs k hk) hr
    refine good_node (by decide) (by decide) (by decide) h1 fun y hy => ?_
    rcases List.mem_append.1 hy with hy | hy
    · exact h2 y hy
    · obtain ⟨groups, hgr, hg⟩ := bind_ok_iff.1 hg
      obtain ⟨p, hp, hy⟩ := mapM_mem hg y hy
      obtain ⟨c, hc, hy⟩ := bind_ok_iff.1 hy
      obtain rfl := Except.ok.inj hy
      refine good_node (by decide) (by decide) (by decide) (good_attrs (names := ["count"])
        (List.Sublist.refl _) (by decide) (by decide) fun a ha => ?_) fun z hz => ?_
      · rw [List.mem_singleton.1 ha]
        exact xml_showInt _
      · obtain ⟨k', hk', hz⟩ := mapM_mem hc z hz
        rcases mem_signalsPerCount hgr p hp k' hk' with hk' | ⟨_, h', _⟩
        · exact good_dumpPlainSignal hT (hs k' hk') hz
        · exact absurd h' List.not_mem_nil
  · split at h
    · obtain ⟨x, hx, h⟩ := bind_ok_iff.1 h
      obtain rfl := Except.ok.inj h
      intro y hy
      rw [List.mem_singleton.1 hy]
      exact good_dumpPlainSignal hT (hs k hk) hx
    · obtain rfl := Except.ok.inj h
      exact fun _ h => absurd h List.not_mem_nil

theorem good_dumpMessage {T : NumText} (hT : T.Plain) {refs : List (String × Nat)}
    {sort : List KSignal → List KSignal} {m : KMessage} (hsort : ∀ k ∈ sort m.signals, k ∈ m.signals)
    (hn : XmlText m.name) (hcm : ∀ c, m.comment = some c → XmlContent c)
    (hs : ∀ k ∈ m.signals, TextSignal k) {x : Xml} (h : dumpMessage T refs sort m = .ok x) : x.Good := by
  unfold dumpMessage at h
  dsimp only at h
  obtain ⟨producer, hp, h⟩ := bind_ok_iff.1 h
  obtain ⟨elements, he, h⟩ := bind_ok_iff.1 h
  obtain rfl := Except.ok.inj h
  refine good_node (by decide) (by decide) (by decide) ?_ fun y hy => ?_
  · refine good_attrs (names := ["id", "name", "length", "interval", "format"]) ?_ (by decide)
      (by decide) fun a ha => ?_
    · simp only [List.map_append]
      exact ((List.Sublist.refl ["id", "name", "length"]).append (attrOpt_names _ _)).append (attrIf_names _ _ _)
    · simp only [List.mem_append] at ha
      rcases ha with (ha | ha) | ha
      · rcases List.mem_cons.1 ha with rfl | ha
        · exact xml_showFrameId _
        rcases List.mem_cons.1 ha with rfl | ha
        · exact xml_of hn
        · rw [List.mem_singleton.1 ha]
          exact xml_showInt _
      · obtain ⟨q, -, e⟩ := Option.map_eq_some_iff.1 (mem_attrOpt ha)
        rw [← e]; exact xml_showInt q
      · rw [mem_attrIf ha]; decide
  · simp only [List.mem_append, List.mem_flatten] at hy
    rcases hy with (hy | hy) | ⟨l, hl, hy⟩
    · exact good_dumpNotes hcm y hy
    · exact good_dumpRefs (by decide) (by decide) (by decide) hp y hy
    · obtain ⟨k, hk, hl⟩ := mapM_mem he l hl
      exact good_dumpTopSignal hT (fun k hk => hs k (hsort k hk)) hk hl y hy

theorem good_dump {T : NumText} (hT : T.Plain) {sort : List KSignal → List KSignal} {db : KDatabase}
    (hsort : ∀ m ∈ db.messages, (sort m.signals).Perm m.signals) (hdb : TextDatabase db) {x : Xml}
    (h : dump T sort db = .ok x) : (withAttrs rootAttrs x).Good := by
  unfold dump at h
  obtain ⟨messages, hm, h⟩ := bind_ok_iff.1 h
  obtain rfl := Except.ok.inj h
  refine good_node (by decide) (by decide) (by decide) ?_ fun y hy => ?_
  · exact good_attrs (names := rootAttrs.map (·.1)) (List.Sublist.refl _) (by decide) (by decide)
      (by decide)
  · simp only [List.mem_append] at hy
    rcases hy with (hy | hy) | hy
    · rw [List.mem_singleton.1 hy]
      refine good_leaf (by decide) (by decide) (good_attrs (names := ["version"]) (List.Sublist.refl _)
        (by decide) (by decide) fun a ha => ?_)
      rw [List.mem_singleton.1 ha]
      cases hv : db.version with
      | none => exact fun _ h => absurd h (by simp)
      | some v => exact xml_of (hdb.version v hv)
    · obtain ⟨p, hp, rfl⟩ := List.mem_map.1 hy
      refine good_leaf (by decide) (by decide) (good_attrs (names := ["id", "name"]) (List.Sublist.refl _)
        (by decide) (by decide) fun a ha => ?_)
      rcases List.mem_cons.1 ha with rfl | ha
      · exact xml_showInt _
      · rw [List.mem_singleton.1 ha]
        refine xml_of (hdb.nodes _ ?_)
        exact (List.mem_zipIdx hp).2.2 ▸ List.getElem_mem _
    · rw [List.mem_singleton.1 hy]
      refine good_node (by decide) (by decide) (by decide) (good_attrs (names := ["name"])
        (List.Sublist.refl _) (by decide) (by decide) (by decide)) fun z hz => ?_
      obtain ⟨m, hmm, hz⟩ := mapM_mem hm z hz
      exact good_dumpMessage hT (fun k hk => (hsort m hmm).mem_iff.1 hk) (hdb.names m hmm)
        (hdb.comments m hmm) (hdb.signals m hmm) hz

end Cantools.Kcd
