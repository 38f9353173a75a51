import Verif.Lemmas.ArxmlRef

/-!
C53: references and locations in ARXML documents.
-/

namespace Cantools

open Kcd (Xml)
open Regex (Chars)
open ArxmlRef
open Spec

/-- C53: exactly the documents with unique paths, unique labels and defaults of the reference bases of
a package and without global reference bases are accepted; the others give a `ValueError`. -/
theorem C53_accepted {root : Xml} (hreg : Regular root) :
    ((∃ r, createDicts root = .ok r) ↔ RefsAccepted root) ∧
      ∀ e, createDicts root = .error e → e = .valueError := by
  obtain ⟨h1, h2⟩ := createDicts_says hreg
  by_cases h : RefsAccepted root
  · obtain ⟨r, hr, -⟩ := h1 h
    exact ⟨⟨fun _ => h, fun _ => ⟨r, hr⟩⟩, fun e he => by rw [hr] at he; cases he⟩
  · have hr := h2 h
    refine ⟨⟨fun ⟨r, h'⟩ => (by rw [hr] at h'; cases h'), fun h' => absurd h' h⟩, fun e he => ?_⟩
    rw [hr] at he
    exact (Except.error.inj he).symm

theorem ArxmlRef.of_ok {root : Xml} (hreg : Regular root) {r : Refs} (h : createDicts root = .ok r) :
    RefsAccepted root ∧ Inv (entries root) (entries root) r := by
  have ha := (C53_accepted hreg).1.1 ⟨r, h⟩
  obtain ⟨r', hr', hi⟩ := (createDicts_says hreg).1 ha
  rw [h] at hr'
  exact ⟨ha, Except.ok.inj hr' ▸ hi⟩

/-- C53: a reference gives the element with its absolute path and the expected tag, nothing if there
is no such element, and a `ValueError` exactly if it is relative and no package around it has the
reference base. -/
theorem C53_follow {root : Xml} (hreg : Regular root) {r : Refs} (hr : createDicts root = .ok r)
    {pos : Pos} {y : Xml} (hy : at? root pos = some y) (text : Chars) (dest : Option String)
    (base : Option Chars) :
    (∀ p, follow root r pos text dest base = .ok (some p) ↔ Leads root pos text dest base p) ∧
    (follow root r pos text dest base = .ok none ↔
      (∃ a, AbsoluteText root pos text base a) ∧ ∀ p, ¬ Leads root pos text dest base p) ∧
    (follow root r pos text dest base = .error .valueError ↔ ∀ a, ¬ AbsoluteText root pos text base a) ∧
    ∀ e, follow root r pos text dest base = .error e → e = .valueError :=
  have ⟨ha, hi⟩ := of_ok hreg hr
  follow_says hreg hi ha hy text dest base

/-- C53, partly: a location gives exactly the elements it describes, in their order, if the elements
do not contain references where the location does not allow them. -/
theorem C53_children_partial {root : Xml} (hreg : Regular root) {r : Refs} (hr : createDicts root = .ok r)
    {loc : List String} {atoms : List LocAtom} (hat : List.Forall₂ AtomText loc atoms)
    (bs l : List Pos) (hstray : NoStrayAt root atoms bs) :
    getChildren root r bs loc = .ok l ↔ Locate root atoms bs l :=
  have ⟨ha, hi⟩ := of_ok hreg hr
  getChildren_says hreg hi ha hat bs hstray l

/-- C53, partly: the unique element at a location. -/
theorem C53_unique_partial {root : Xml} (hreg : Regular root) {r : Refs} (hr : createDicts root = .ok r)
    {loc : List String} {atoms : List LocAtom} (hat : List.Forall₂ AtomText loc atoms)
    (b : Pos) (hstray : NoStrayAt root atoms [b]) :
    (∀ p, getUnique root r b loc = .ok (some p) ↔ Locate root atoms [b] [p]) ∧
    (getUnique root r b loc = .ok none ↔ Locate root atoms [b] []) := by
  have h := fun l => C53_children_partial hreg hr hat [b] l hstray
  unfold getUnique
  refine ⟨fun p => ?_, ?_⟩
  · rw [← h, bind_ok_iff]
    constructor
    · rintro ⟨l, h1, h2⟩
      match l with
      | [] => cases h2
      | [q] => rw [← Option.some.inj (Except.ok.inj h2)]; exact h1
      | _ :: _ :: _ => cases h2
    · intro h1; exact ⟨_, h1, rfl⟩
  · rw [← h, bind_ok_iff]
    constructor
    · rintro ⟨l, h1, h2⟩
      match l with
      | [] => exact h1
      | [q] => cases h2
      | _ :: _ :: _ => cases h2
    · intro h1; exact ⟨_, h1, rfl⟩

/-! ### A document -/

namespace ArxmlRef.Example

def leaf (tag text : String) : Xml := .elem tag [] (some text) []

/-- Package `/A` with the default reference base `b` for `/A/T`, an element `/A/x` with an item
`/A/x/t` and a reference to the item `/A/T/s`, and the package `/A/T`. -/
def doc : Xml :=
  .elem "AUTOSAR" [] none [.elem "AR-PACKAGES" [] none [.elem "AR-PACKAGE" [] none
    [leaf "SHORT-NAME" "A",
     .elem "REFERENCE-BASES" [] none [.elem "REFERENCE-BASE" [] none
      [leaf "SHORT-LABEL" "b", leaf "IS-DEFAULT" "true", leaf "PACKAGE-REF" "/A/T"]],
     .elem "ELEMENTS" [] none [.elem "LIST" [] none
      [leaf "SHORT-NAME" "x",
       .elem "ITEM" [] none [leaf "SHORT-NAME" "t"],
       .elem "ITEM-REF" [("DEST", "ITEM")] (some "s") []]],
     .elem "AR-PACKAGES" [] none [.elem "AR-PACKAGE" [] none
      [leaf "SHORT-NAME" "T",
       .elem "ELEMENTS" [] none [.elem "ITEM" [] none [leaf "SHORT-NAME" "s"]]]]]]]

theorem all_of_entries {root : Xml} {P : Pos → Xml → Prop} (h : ∀ e ∈ entries root, P e.pos e.elem) :
    ∀ p x, at? root p = some x → P p x := fun p x hx =>
  h ⟨p, x, textTo root p, pkgTo root p⟩ (mem_entries.2 ⟨hx, rfl, rfl⟩)

theorem padded_self {s : Chars} (h : ∀ c ∈ s, 33 ≤ c.toNat ∧ c.toNat < 127) : Padded s s :=
  ⟨[], [], by simp, by simp, h⟩

theorem doc_regular : Regular doc := by
  refine ⟨?_, ?_, ?_⟩
  · apply all_of_entries
    have : ∀ e ∈ entries doc, ∀ c ∈ kids e.elem "SHORT-NAME",
        (c.text.any fun t => !t.toList.contains '/') = true := by decide +kernel
    intro e he c hc
    have := this e he c hc
    rw [Option.any_eq_true] at this
    obtain ⟨t, h1, h2⟩ := this
    exact ⟨t, h1, by simpa using h2⟩
  · apply all_of_entries
    have h1 : ∀ e ∈ entries doc, e.elem.tag = "AR-PACKAGE" → shortName e.elem ≠ [] ∧
      ∀ e' ∈ entries doc, e'.pos <+: e.pos → shortName e'.elem ≠ [] → e'.elem.tag = "AR-PACKAGE" := by
      decide +kernel
    intro e he ht
    refine ⟨(h1 e he ht).1, ?_⟩
    intro q y hq hy
    exact (h1 e he ht).2 ⟨q, y, textTo doc q, pkgTo doc q⟩ (mem_entries.2 ⟨hy, rfl, rfl⟩) hq
  · apply all_of_entries
    have h1 : ∀ e ∈ entries doc, e.elem.tag = "REFERENCE-BASE" → e.pos = [0, 0, 1, 0] := by decide +kernel
    intro e he ht
    have hp := h1 e he ht
    have hx := (mem_entries.1 he).1
    rw [hp] at hx ⊢
    refine ⟨⟨[0, 0], ⟨[1, 0], rfl⟩, _, rfl, rfl⟩, ⟨"b".toList, "/A/T".toList, true, false⟩, ?_⟩
    rw [← Option.some.inj hx]
    refine ⟨⟨_, _, _, rfl, rfl, padded_self (by decide +kernel)⟩, ⟨_, _, _, rfl, rfl, padded_self (by decide +kernel)⟩,
      .inr ⟨_, ⟨_, _, _, rfl, rfl, padded_self (s := "true".toList) (by decide +kernel)⟩, by decide +kernel⟩, .inl ⟨rfl, rfl⟩⟩

theorem doc_ok : ∃ r, createDicts doc = .ok r := by
  have : (match createDicts doc with | .ok _ => true | .error _ => false) = true := by decide +kernel
  cases h : createDicts doc with
  | error e => rw [h] at this; cases this
  | ok r => exact ⟨r, rfl⟩

/-- The list `/A/x`. -/
def list : Pos := [0, 0, 2, 0]

theorem doc_locate : getChildren doc (match createDicts doc with | .ok r => r | .error _ => {}) [list] ["*&ITEM"] =
    .ok [[0, 0, 2, 0, 1], [0, 0, 3, 0, 1, 0]] := by decide +kernel

/-- The document meets the hypotheses of the theorems: the list has its own item and the one that the
relative reference leads to through the reference base. -/
example : Regular doc ∧ (∃ r, createDicts doc = .ok r) ∧ List.Forall₂ AtomText ["*&ITEM"] [⟨"ITEM", true, true⟩] ∧
    Locate doc [⟨"ITEM", true, true⟩] [list] [[0, 0, 2, 0, 1], [0, 0, 3, 0, 1, 0]] := by
  have hat : List.Forall₂ AtomText ["*&ITEM"] [⟨"ITEM", true, true⟩] :=
    .cons ⟨by decide +kernel, .inl (by decide +kernel)⟩ .nil
  refine ⟨doc_regular, doc_ok, hat, ?_⟩
  obtain ⟨r, hr⟩ := doc_ok
  have h := doc_locate
  rw [hr] at h
  refine (C53_children_partial doc_regular hr hat _ _ (noStrayAt_of ?_)).1 h
  intro a ha
  obtain rfl := List.mem_singleton.1 ha
  intro h
  cases h

example : RefsAccepted doc := (C53_accepted doc_regular).1.1 doc_ok

example : Leads doc list "s".toList (some "ITEM") none [0, 0, 3, 0, 1, 0] := by
  obtain ⟨r, hr⟩ := doc_ok
  have h : follow doc (match createDicts doc with | .ok r => r | .error _ => {}) list "s".toList (some "ITEM") none =
    .ok (some [0, 0, 3, 0, 1, 0]) := by decide +kernel
  rw [hr] at h
  exact ((C53_follow doc_regular hr (pos := list) rfl _ _ _).1 _).1 h

/-- A base that is not declared: neither an element nor an absolute path. -/
example : ∀ a, ¬ AbsoluteText doc list "s".toList (some "c".toList) a := by
  obtain ⟨r, hr⟩ := doc_ok
  have h : follow doc (match createDicts doc with | .ok r => r | .error _ => {}) list "s".toList (some "ITEM")
    (some "c".toList) = .error .valueError := by decide +kernel
  rw [hr] at h
  exact (C53_follow doc_regular hr (pos := list) rfl _ (some "ITEM") _).2.2.1.1 h

end ArxmlRef.Example

open ArxmlRef.Example in
/-- C53 is false as stated: references are followed although the location does not allow them. -/
theorem C53_references_fails : ∃ (root : Xml) (r : Refs) (b p : Pos),
    Regular root ∧ createDicts root = .ok r ∧ AtomText "*ITEM" ⟨"ITEM", true, false⟩ ∧
      getChildren root r [b] ["*ITEM"] = .ok [b ++ [1], p] ∧
      Locate root [⟨"ITEM", true, false⟩] [b] [b ++ [1]] := by
  obtain ⟨r, hr⟩ := doc_ok
  refine ⟨doc, r, list, [0, 0, 3, 0, 1, 0], doc_regular, hr, ⟨by decide +kernel, .inl (by decide +kernel)⟩, ?_, ?_⟩
  · have h : getChildren doc (match createDicts doc with | .ok r => r | .error _ => {}) [list] ["*ITEM"] =
      .ok [[0, 0, 2, 0, 1], [0, 0, 3, 0, 1, 0]] := by decide +kernel
    rw [hr] at h
    exact h
  · refine .step (parts := [[list ++ [1]]]) (.cons ⟨⟨[1], by simp, ?_, ?_⟩, by simp⟩ .nil) .done
    · intro j
      constructor
      · intro h
        obtain rfl := List.mem_singleton.1 h
        exact ⟨_, rfl, .inl rfl⟩
      · rintro ⟨c, hc, h⟩
        match j with
        | 0 =>
          obtain rfl := Option.some.inj hc
          rcases h with h | h
          · revert h; decide +kernel
          · cases h.1
        | 1 => simp
        | 2 =>
          obtain rfl := Option.some.inj hc
          rcases h with h | h
          · revert h; decide +kernel
          · cases h.1
        | j + 3 =>
          have : at? doc (list ++ [j + 3]) = none := rfl
          rw [this] at hc
          cases hc
    · exact .cons ⟨_, rfl, by rw [if_pos (by rfl)]⟩ .nil

end Cantools
