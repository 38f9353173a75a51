import Verif.Model.KcdXml
import Verif.Lemmas.Kcd
import Mathlib.Data.List.TakeDrop

/-! What was written to an XML text is read again. -/

namespace Cantools.Kcd

open Regex (Chars)

/-! ### Escaped text -/

theorem resolve_plain {attr : Bool} {c : Char} {r : Chars} (h : c ≠ '&')
    (ha : attr = true → isXmlSpace c = false) :
    resolve attr none (c :: r) = (resolve attr none r).map (c :: ·) := by
  rw [resolve, if_neg h]
  cases attr with
  | false => rfl
  | true => simp [ha rfl]

theorem resolve_escapeTextChar (c : Char) (t : Chars) :
    resolve false none (escapeTextChar c ++ t) = (resolve false none t).map (c :: ·) := by
  by_cases h1 : c = '&'
  · subst h1; rfl
  by_cases h2 : c = '<'
  · subst h2; rfl
  by_cases h3 : c = '>'
  · subst h3; rfl
  · have : escapeTextChar c = [c] := by
      unfold escapeTextChar
      rw [if_neg h1, if_neg h2, if_neg h3]
    rw [this]
    exact resolve_plain h1 (by simp)

theorem resolve_escapeAttrChar (c : Char) (t : Chars) :
    resolve true none (escapeAttrChar c ++ t) = (resolve true none t).map (c :: ·) := by
  by_cases h1 : c = '&'
  · subst h1; rfl
  by_cases h2 : c = '<'
  · subst h2; rfl
  by_cases h3 : c = '>'
  · subst h3; rfl
  by_cases h4 : c = '"'
  · subst h4; rfl
  by_cases h5 : c = '\r'
  · subst h5; rfl
  by_cases h6 : c = '\n'
  · subst h6; rfl
  by_cases h7 : c = '\t'
  · subst h7; rfl
  · have : escapeAttrChar c = [c] := by
      unfold escapeAttrChar
      rw [if_neg h1, if_neg h2, if_neg h3, if_neg h4, if_neg h5, if_neg h6, if_neg h7]
    rw [this]
    by_cases h8 : c = ' '
    · subst h8; rfl
    · exact resolve_plain h1 (fun _ => by simp [isXmlSpace, h5, h6, h7, h8])

theorem resolve_escapeText (s r : Chars) :
    resolve false none (escapeText s ++ r) = (resolve false none r).map (s ++ ·) := by
  induction s with
  | nil => simp [escapeText]
  | cons c s ih =>
    have hc : escapeText (c :: s) = escapeTextChar c ++ escapeText s := List.flatMap_cons ..
    rw [hc, List.append_assoc, resolve_escapeTextChar, ih]
    cases resolve false none r <;> rfl

theorem resolve_escapeAttr (s r : Chars) :
    resolve true none (escapeAttr s ++ r) = (resolve true none r).map (s ++ ·) := by
  induction s with
  | nil => simp [escapeAttr]
  | cons c s ih =>
    have hc : escapeAttr (c :: s) = escapeAttrChar c ++ escapeAttr s := List.flatMap_cons ..
    rw [hc, List.append_assoc, resolve_escapeAttrChar, ih]
    cases resolve true none r <;> rfl

theorem resolve_text (s : Chars) : resolve false none (escapeText s) = some s := by
  have := resolve_escapeText s []
  simpa [resolve] using this

theorem resolve_attr (s : Chars) : resolve true none (escapeAttr s) = some s := by
  have := resolve_escapeAttr s []
  simpa [resolve] using this

/-- The characters of escaped text. -/
theorem mem_escapeText {s : Chars} {c : Char} (hc : c ∈ escapeText s) :
    c ∈ "&amp;ltg".toList ∨ (c ∈ s ∧ c ≠ '<') := by
  obtain ⟨d, hd, hc⟩ := List.mem_flatMap.1 hc
  unfold escapeTextChar at hc
  split at hc
  · exact Or.inl ((by decide : ∀ c ∈ "&amp;".toList, c ∈ "&amp;ltg".toList) c hc)
  split at hc
  · exact Or.inl ((by decide : ∀ c ∈ "&lt;".toList, c ∈ "&amp;ltg".toList) c hc)
  split at hc
  · exact Or.inl ((by decide : ∀ c ∈ "&gt;".toList, c ∈ "&amp;ltg".toList) c hc)
  · rename_i h _
    rw [List.mem_singleton.1 hc]
    exact Or.inr ⟨hd, h⟩

theorem escapeText_lt (s : Chars) : ∀ c ∈ escapeText s, (c != '<') = true := by
  intro c hc
  rcases mem_escapeText hc with h | h
  · exact (by decide : ∀ c ∈ "&amp;ltg".toList, (c != '<') = true) c h
  · simpa using h.2

/-- The characters of an escaped value. -/
theorem mem_escapeAttr {s : Chars} {c : Char} (hc : c ∈ escapeAttr s) :
    c ∈ "&amp;ltgquo#01239".toList ∨ (c ∈ s ∧ c ≠ '<' ∧ c ≠ '"' ∧ c ≠ '\r') := by
  obtain ⟨d, hd, hc⟩ := List.mem_flatMap.1 hc
  unfold escapeAttrChar at hc
  split at hc
  · exact Or.inl ((by decide : ∀ c ∈ "&amp;".toList, c ∈ "&amp;ltgquo#01239".toList) c hc)
  split at hc
  · exact Or.inl ((by decide : ∀ c ∈ "&lt;".toList, c ∈ "&amp;ltgquo#01239".toList) c hc)
  split at hc
  · exact Or.inl ((by decide : ∀ c ∈ "&gt;".toList, c ∈ "&amp;ltgquo#01239".toList) c hc)
  split at hc
  · exact Or.inl ((by decide : ∀ c ∈ "&quot;".toList, c ∈ "&amp;ltgquo#01239".toList) c hc)
  split at hc
  · exact Or.inl ((by decide : ∀ c ∈ "&#13;".toList, c ∈ "&amp;ltgquo#01239".toList) c hc)
  split at hc
  · exact Or.inl ((by decide : ∀ c ∈ "&#10;".toList, c ∈ "&amp;ltgquo#01239".toList) c hc)
  split at hc
  · exact Or.inl ((by decide : ∀ c ∈ "&#09;".toList, c ∈ "&amp;ltgquo#01239".toList) c hc)
  · rename_i _ h2 _ h4 h5 _ _
    rw [List.mem_singleton.1 hc]
    exact Or.inr ⟨hd, h2, h4, h5⟩

theorem escapeAttr_chars (s : Chars) : ∀ c ∈ escapeAttr s, c ≠ '<' ∧ c ≠ '"' := by
  intro c hc
  rcases mem_escapeAttr hc with h | h
  · exact (by decide : ∀ c ∈ "&amp;ltgquo#01239".toList, c ≠ '<' ∧ c ≠ '"') c h
  · exact ⟨h.2.1, h.2.2.1⟩

/-! ### Elements -/

theorem span_append {p : Char → Bool} {a : Chars} (ha : ∀ c ∈ a, p c = true) {c : Char} {r : Chars}
    (hc : p c = false) : (a ++ c :: r).span p = (a, c :: r) := by
  rw [List.span_eq_takeWhile_dropWhile]
  induction a with
  | nil => simp [hc]
  | cons d a ih =>
    have hd := ha d (by simp)
    have ih := ih fun c h => ha c (List.mem_cons_of_mem _ h)
    simp only [Prod.mk.injEq] at ih ⊢
    constructor
    · rw [List.cons_append, List.takeWhile_cons_of_pos hd, ih.1]
    · rw [List.cons_append, List.dropWhile_cons_of_pos hd, ih.2]

theorem isName_chars {n : Chars} (h : isName n = true) : ∀ c ∈ n, isNameChar c = true := by
  cases n with
  | nil => exact fun c hc => absurd hc List.not_mem_nil
  | cons c r =>
    unfold isName at h
    rw [Bool.and_eq_true, List.all_eq_true] at h
    exact h.1

/-- The characters that are read as they are written. -/
def plainChar (c : Char) : Bool := isXmlChar c && c != '\r'

/-- The names and values of attributes that can be written. -/
structure GoodAttrs (attrs : List (String × String)) : Prop where
  names : ∀ a ∈ attrs, isName a.1.toList = true
  distinct : (attrs.map (·.1)).Nodup
  nameChars : ∀ a ∈ attrs, ∀ c ∈ a.1.toList, plainChar c = true
  valueChars : ∀ a ∈ attrs, ∀ c ∈ a.2.toList, isXmlChar c = true

theorem parseAttrs_text {tail tail' : Chars} (htail : tail.dropWhile isXmlSpace = tail')
    (hhead : (∃ r, tail' = '>' :: r) ∨ ∃ r, tail' = '/' :: r) :
    ∀ {attrs : List (String × String)}, GoodAttrs attrs → ∀ {n : Nat}, attrs.length < n →
      parseAttrs n (attrsText attrs ++ tail) = some (attrs, tail')
  | [], _, n, hn => by
    obtain ⟨m, rfl⟩ : ∃ m, n = m + 1 := ⟨n - 1, by simp at hn; omega⟩
    rw [parseAttrs]
    simp only [attrsText, List.flatMap_nil, List.nil_append, htail]
    rcases hhead with ⟨r, rfl⟩ | ⟨r, rfl⟩ <;> rfl
  | a :: attrs, ha, n, hn => by
    obtain ⟨m, rfl⟩ : ∃ m, n = m + 1 := ⟨n - 1, by simp at hn; omega⟩
    have ih := parseAttrs_text htail hhead (attrs := attrs)
      ⟨fun b hb => ha.names b (List.mem_cons_of_mem _ hb), (List.nodup_cons.1 ha.distinct).2,
        fun b hb => ha.nameChars b (List.mem_cons_of_mem _ hb),
        fun b hb => ha.valueChars b (List.mem_cons_of_mem _ hb)⟩
      (n := m) (by simp at hn; omega)
    have hname := ha.names a (by simp)
    generalize hnm : a.1.toList = name at hname
    generalize hrest : attrsText attrs ++ tail = rest at ih
    have htext : attrsText (a :: attrs) ++ tail =
        ' ' :: (name ++ '=' :: '"' :: (escapeAttr a.2.toList ++ '"' :: rest)) := by
      rw [← hrest, ← hnm]
      simp [attrsText]
    obtain ⟨c, nm, rfl⟩ : ∃ c nm, name = c :: nm := by
      cases name with
      | nil => exact absurd hname (by decide)
      | cons c nm => exact ⟨c, nm, rfl⟩
    have hch := isName_chars hname
    have hcn : isNameChar c = true := hch c (by simp)
    have hcs : isXmlSpace c = false := by
      cases hs : isXmlSpace c with
      | false => rfl
      | true =>
        simp only [isXmlSpace, Bool.or_eq_true, beq_iff_eq] at hs
        rcases hs with ((rfl | rfl) | rfl) | rfl <;> exact absurd hcn (by decide)
    have hgt : c ≠ '>' := by rintro rfl; exact absurd hcn (by decide)
    have hsl : c ≠ '/' := by rintro rfl; exact absurd hcn (by decide)
    have hd1 : (' ' :: (c :: nm ++ '=' :: '"' :: (escapeAttr a.2.toList ++ '"' :: rest))).dropWhile
        isXmlSpace = c :: nm ++ '=' :: '"' :: (escapeAttr a.2.toList ++ '"' :: rest) := by
      rw [List.dropWhile_cons_of_pos (by decide), List.cons_append,
        List.dropWhile_cons_of_neg (by simp [hcs])]
    have hsp := span_append (p := isNameChar) hch (c := '=')
      (r := '"' :: (escapeAttr a.2.toList ++ '"' :: rest)) (by decide)
    have hv := span_append (p := (· != '"')) (a := escapeAttr a.2.toList) (c := '"') (r := rest)
      (fun d hd => by simpa using (escapeAttr_chars _ d hd).2) (by decide)
    have hlt : '<' ∉ escapeAttr a.2.toList := fun h => (escapeAttr_chars _ _ h).1 rfl
    have hnot : attrs.any (fun b => b.1 == a.1) = false := by
      rw [List.any_eq_false]
      intro b hb
      have := (List.nodup_cons.1 ha.distinct).1
      simp only [beq_iff_eq]
      exact fun e => this (List.mem_map.2 ⟨b, hb, e⟩)
    have hn1 : String.ofList (c :: nm) = a.1 := by rw [← hnm]; simp
    rw [htext, parseAttrs]
    simp only [hd1]
    rw [List.cons_append] at hsp ⊢
    split
    · rename_i e
      exact absurd (List.cons.inj e).1 hgt
    · rename_i e
      exact absurd (List.cons.inj e).1 hsl
    · rw [if_neg (by simp), hsp]
      dsimp only
      rw [if_neg (by rw [hname]; decide)]
      rw [List.dropWhile_cons_of_neg (by decide)]
      split
      · rename_i r2 e
        obtain rfl := (List.cons.inj e).2
        rw [List.dropWhile_cons_of_neg (by decide)]
        dsimp only
        rw [if_pos (Or.inl rfl), hv]
        dsimp only
        rw [if_neg hlt, resolve_attr, Option.bind_some, ih, Option.bind_some, hn1, hnot]
        simp
      · rename_i hno
        exact absurd rfl (hno _)

theorem endTag_text {tag : Chars} (h : isName tag = true) (rest : Chars) :
    endTag tag (tag ++ '>' :: rest) = some rest := by
  unfold endTag
  rw [span_append (isName_chars h) (by decide)]
  simp [isXmlSpace]

/-- The text of an element that was written and read: indentation becomes the text of an element with
children. -/
def seenText (level : Nat) (text : Option String) : List Xml → Option String
  | [] => if (text.getD "").toList = [] then none else text
  | _ :: _ => some (String.ofList (indentText level text))

mutual
/-- What is read of an element that was written on a level. -/
def Xml.seen (level : Nat) : Xml → Xml
  | .elem t a x c => .elem t a (seenText level x c) (seenAll (level + 1) c)
def seenAll (level : Nat) : List Xml → List Xml
  | [] => []
  | x :: r => x.seen level :: seenAll level r
end

mutual
/-- Names are names, attributes are distinct, `Notes` have no children, and all characters can be
written. -/
def Xml.Good : Xml → Prop
  | .elem t a x c => isName t.toList = true ∧ GoodAttrs a ∧ GoodAll c ∧ (t = "Notes" → c = []) ∧
    (∀ d ∈ t.toList, plainChar d = true) ∧ ∀ d ∈ (x.getD "").toList, plainChar d = true
def GoodAll : List Xml → Prop
  | [] => True
  | x :: r => x.Good ∧ GoodAll r
end

mutual
/-- How many steps the reader needs. -/
def Xml.steps : Xml → Nat
  | .elem _ _ _ c => 1 + stepsAll c
def stepsAll : List Xml → Nat
  | [] => 1
  | x :: r => 1 + x.steps + stepsAll r
end

theorem newLine_lt (level : Nat) : ∀ c ∈ newLine level, (c != '<') = true := by
  intro c hc
  rcases List.mem_cons.1 hc with rfl | hc
  · decide
  · rw [(List.mem_replicate.1 hc).2]
    decide

theorem resolve_newLine (level : Nat) : resolve false none (newLine level) = some (newLine level) := by
  have h : escapeText (newLine level) = newLine level := by
    have key : ∀ s : Chars, (∀ c ∈ s, c = '\n' ∨ c = ' ') → escapeText s = s := by
      intro s hs
      induction s with
      | nil => rfl
      | cons c s ih =>
        have hc : escapeText (c :: s) = escapeTextChar c ++ escapeText s := List.flatMap_cons ..
        rw [hc, ih fun d hd => hs d (List.mem_cons_of_mem _ hd)]
        rcases hs c (by simp) with rfl | rfl <;> rfl
    refine key _ fun c hc => ?_
    rcases List.mem_cons.1 hc with rfl | hc
    · exact Or.inl rfl
    · exact Or.inr (List.mem_replicate.1 hc).2
  have := resolve_text (newLine level)
  rwa [h] at this

theorem indentText_ne (level : Nat) (text : Option String) : indentText level text ≠ [] := by
  unfold indentText
  split
  · simp [newLine]
  · rename_i h
    intro e
    rw [e] at h
    exact h rfl

/-- The contents of an element: text, children and the end tag. -/
theorem parseContent_text {raw : Chars} (hraw : ∀ c ∈ raw, (c != '<') = true) {text : Chars}
    (ht : resolve false none raw = some text) {n : Nat} {rest : Chars} :
    parseContent (n + 1) (raw ++ '<' :: '/' :: rest) = some (text, [], rest) := by
  rw [parseContent]
  rw [span_append hraw (by decide)]
  dsimp only
  rw [ht]
  rfl

theorem parseContent_child {raw : Chars} (hraw : ∀ c ∈ raw, (c != '<') = true) {text : Chars}
    (ht : resolve false none raw = some text) {n : Nat} {r rest : Chars} {d : Char} (hd : d ≠ '/')
    {x : Xml} (hx : parseElem n ('<' :: d :: r) = some (x, rest)) :
    parseContent (n + 1) (raw ++ '<' :: d :: r) =
      (parseContent n rest).bind fun q => some (text, x :: q.2.1, q.2.2) := by
  rw [parseContent]
  rw [span_append hraw (by decide)]
  dsimp only
  rw [ht, Option.bind_some]
  split
  · rename_i e
    exact absurd (List.cons.inj (List.cons.inj e).2).1 hd
  · rename_i r1 _ e
    obtain rfl : d :: r = r1 := (List.cons.inj e).2
    rw [hx]
    rfl
  · rename_i hno
    exact absurd rfl (hno _)

theorem writeElem_head {level : Nat} {x : Xml} (h : x.Good) :
    ∃ d r, writeElem level x = '<' :: d :: r ∧ d ≠ '/' := by
  cases x with
  | elem t a x c =>
    obtain ⟨hn, -⟩ := h
    obtain ⟨d, r, hr⟩ : ∃ d r, t.toList = d :: r := by
      cases ht : t.toList with
      | nil => rw [ht] at hn; exact absurd hn (by decide)
      | cons d r => exact ⟨d, r, rfl⟩
    have hd : d ≠ '/' := by
      rintro rfl
      have := isName_chars hn '/' (by rw [hr]; simp)
      exact absurd this (by decide)
    cases c with
    | nil => exact ⟨d, _, by rw [writeElem, hr]; rfl, hd⟩
    | cons c cs => exact ⟨d, _, by rw [writeElem, hr]; rfl, hd⟩

theorem attrsText_length (attrs : List (String × String)) : attrs.length ≤ (attrsText attrs).length := by
  induction attrs with
  | nil => simp
  | cons a r ih =>
    have : attrsText (a :: r) = (' ' :: (a.1.toList ++ ('=' :: '"' :: (escapeAttr a.2.toList ++ ['"'])))) ++
        attrsText r := List.flatMap_cons ..
    rw [this, List.length_append, List.length_cons, List.length_cons]
    omega

mutual
theorem parseElem_text (level : Nat) : ∀ (x : Xml), x.Good → ∀ (n : Nat), x.steps ≤ n →
    ∀ rest, parseElem n (writeElem level x ++ rest) = some (x.seen level, rest)
  | .elem t a x [], h, n, hn, rest => by
    obtain ⟨hname, hattrs, -⟩ := h
    obtain ⟨m, rfl⟩ : ∃ m, n = m + 1 := ⟨n - 1, by simp [Xml.steps] at hn; omega⟩
    obtain ⟨k, rfl⟩ : ∃ k, m = k + 1 := ⟨m - 1, by simp [Xml.steps, stepsAll] at hn; omega⟩
    rw [writeElem, Xml.seen, seenAll, seenText]
    by_cases he : (x.getD "").toList = []
    · rw [if_pos he, if_pos he]
      have e : '<' :: (t.toList ++ (attrsText a ++ " />".toList)) ++ rest =
          '<' :: (t.toList ++ (attrsText a ++ ' ' :: '/' :: '>' :: rest)) := by simp
      rw [e, parseElem]
      have hsp : (t.toList ++ (attrsText a ++ ' ' :: '/' :: '>' :: rest)).span isNameChar =
          (t.toList, attrsText a ++ ' ' :: '/' :: '>' :: rest) := by
        cases a with
        | nil => exact span_append (isName_chars hname) (by decide)
        | cons b a => exact span_append (isName_chars hname) (by decide)
      rw [hsp]
      dsimp only
      rw [hname, if_neg (by decide), parseAttrs_text (tail := ' ' :: '/' :: '>' :: rest)
        (tail' := '/' :: '>' :: rest) rfl (Or.inr ⟨_, rfl⟩) hattrs
        (by have := attrsText_length a; rw [List.length_append]; omega), Option.bind_some]
      simp
    · rw [if_neg he, if_neg he]
      have e : '<' :: (t.toList ++ (attrsText a ++ '>' :: (escapeText (x.getD "").toList ++
          '<' :: '/' :: (t.toList ++ ['>'])))) ++ rest =
          '<' :: (t.toList ++ (attrsText a ++ '>' :: (escapeText (x.getD "").toList ++
          '<' :: '/' :: (t.toList ++ '>' :: rest)))) := by simp
      rw [e, parseElem]
      generalize hr : escapeText (x.getD "").toList ++ '<' :: '/' :: (t.toList ++ '>' :: rest) = r1
      have hsp : (t.toList ++ (attrsText a ++ '>' :: r1)).span isNameChar =
          (t.toList, attrsText a ++ '>' :: r1) := by
        cases a with
        | nil => exact span_append (isName_chars hname) (by decide)
        | cons b a => exact span_append (isName_chars hname) (by decide)
      rw [hsp]
      dsimp only
      rw [hname, if_neg (by decide), parseAttrs_text (tail := '>' :: r1)
        (tail' := '>' :: r1) rfl (Or.inl ⟨_, rfl⟩) hattrs
        (by have := attrsText_length a; rw [List.length_append]; omega), Option.bind_some]
      show Option.bind (parseContent _ _) _ = _
      rw [← hr, parseContent_text (escapeText_lt _) (resolve_text _), Option.bind_some]
      dsimp only
      rw [endTag_text hname, Option.bind_some, if_neg he]
      have hx : some (String.ofList (x.getD "").toList) = x := by
        cases x with
        | none => exact absurd rfl he
        | some s => simp
      rw [hx]
      simp
  | .elem t a x (c :: r), h, n, hn, rest => by
    obtain ⟨hname, hattrs, hc, -⟩ := h
    obtain ⟨m, rfl⟩ : ∃ m, n = m + 1 := ⟨n - 1, by simp [Xml.steps] at hn; omega⟩
    rw [writeElem]
    have e : '<' :: (t.toList ++ (attrsText a ++ '>' :: (escapeText (indentText level x) ++
        (writeChildren level (c :: r) ++ '<' :: '/' :: (t.toList ++ ['>']))))) ++ rest =
        '<' :: (t.toList ++ (attrsText a ++ '>' :: (escapeText (indentText level x) ++
        (writeChildren level (c :: r) ++ '<' :: '/' :: (t.toList ++ '>' :: rest))))) := by simp
    rw [e, parseElem]
    have hkids := parseChildren_text level (c :: r) (by simp) hc
      (escapeText_lt (indentText level x)) (resolve_text _) m
      (by simp only [Xml.steps] at hn; omega) (t.toList ++ '>' :: rest)
    generalize hr : escapeText (indentText level x) ++ (writeChildren level (c :: r) ++
      '<' :: '/' :: (t.toList ++ '>' :: rest)) = r1 at hkids
    have hsp : (t.toList ++ (attrsText a ++ '>' :: r1)).span isNameChar =
        (t.toList, attrsText a ++ '>' :: r1) := by
      cases a with
      | nil => exact span_append (isName_chars hname) (by decide)
      | cons b a => exact span_append (isName_chars hname) (by decide)
    rw [hsp]
    dsimp only
    rw [hname, if_neg (by decide), parseAttrs_text (tail := '>' :: r1)
      (tail' := '>' :: r1) rfl (Or.inl ⟨_, rfl⟩) hattrs
      (by have := attrsText_length a; rw [List.length_append]; omega), Option.bind_some]
    show Option.bind (parseContent _ _) _ = _
    rw [hkids, Option.bind_some]
    dsimp only
    rw [endTag_text hname, Option.bind_some, if_neg (indentText_ne _ _), Xml.seen, seenText]
    simp
theorem parseChildren_text (level : Nat) : ∀ (l : List Xml), l ≠ [] → GoodAll l →
    ∀ {raw text : Chars}, (∀ c ∈ raw, (c != '<') = true) → resolve false none raw = some text →
    ∀ (n : Nat), stepsAll l ≤ n →
    ∀ rest, parseContent n (raw ++ (writeChildren level l ++ '<' :: '/' :: rest)) =
      some (text, seenAll (level + 1) l, rest)
  | [], hne, _, _, _, _, _, _, _, _ => absurd rfl hne
  | [c], _, h, raw, text, hraw, ht, n, hn, rest => by
    obtain ⟨m, rfl⟩ : ∃ m, n = m + 1 := ⟨n - 1, by simp [stepsAll] at hn; omega⟩
    obtain ⟨k, rfl⟩ : ∃ k, m = k + 1 := ⟨m - 1, by simp [stepsAll] at hn; omega⟩
    have hx := parseElem_text (level + 1) c h.1 (k + 1) (by simp only [stepsAll] at hn; omega)
      (newLine level ++ '<' :: '/' :: rest)
    obtain ⟨d, r, hd, hne⟩ := writeElem_head (level := level + 1) h.1
    have e : writeChildren level [c] ++ '<' :: '/' :: rest =
        writeElem (level + 1) c ++ (newLine level ++ '<' :: '/' :: rest) := by
      rw [writeChildren, List.append_assoc]
    rw [e]
    rw [hd] at hx ⊢
    rw [List.cons_append, List.cons_append] at hx ⊢
    rw [parseContent_child hraw ht hne hx,
      parseContent_text (newLine_lt level) (resolve_newLine level)]
    rfl
  | c :: c' :: l, _, h, raw, text, hraw, ht, n, hn, rest => by
    obtain ⟨m, rfl⟩ : ∃ m, n = m + 1 := ⟨n - 1, by simp [stepsAll] at hn; omega⟩
    have hx := parseElem_text (level + 1) c h.1 m (by simp only [stepsAll] at hn; omega)
      (newLine (level + 1) ++ (writeChildren level (c' :: l) ++ '<' :: '/' :: rest))
    have ih := parseChildren_text level (c' :: l) (by simp) h.2 (newLine_lt (level + 1))
      (resolve_newLine (level + 1)) m (by rw [stepsAll] at hn; omega) rest
    obtain ⟨d, r, hd, hne⟩ := writeElem_head (level := level + 1) h.1
    have e : writeChildren level (c :: c' :: l) ++ '<' :: '/' :: rest =
        writeElem (level + 1) c ++ (newLine (level + 1) ++ (writeChildren level (c' :: l) ++
          '<' :: '/' :: rest)) := by
      rw [writeChildren]
      simp
    rw [e]
    rw [hd] at hx ⊢
    rw [List.cons_append, List.cons_append] at hx ⊢
    rw [parseContent_child hraw ht hne hx, ih]
    rfl
end

mutual
theorem steps_le (level : Nat) : ∀ x : Xml, x.steps ≤ (writeElem level x).length
  | .elem t a x [] => by
    rw [writeElem]
    simp only [Xml.steps, stepsAll, List.length_cons, List.length_append]
    split <;> simp <;> omega
  | .elem t a x (c :: r) => by
    have := stepsAll_le level (c :: r)
    rw [writeElem]
    simp only [Xml.steps, List.length_cons, List.length_append]
    omega
theorem stepsAll_le (level : Nat) : ∀ l : List Xml, stepsAll l ≤ (writeChildren level l).length + 1
  | [] => by simp [stepsAll, writeChildren]
  | [c] => by
    have := steps_le (level + 1) c
    rw [writeChildren]
    simp only [stepsAll, List.length_append, newLine, List.length_cons]
    omega
  | c :: d :: r => by
    have := steps_le (level + 1) c
    have := stepsAll_le level (d :: r)
    rw [writeChildren, stepsAll]
    simp only [List.length_append, newLine, List.length_cons]
    omega
end

end Cantools.Kcd
