import Mathlib.Data.List.Pairwise
import Verif.Spec.ArxmlRef
import Verif.Lemmas.Cdd
import Verif.Lemmas.ArxmlNumber

/-!
References in ARXML files.
-/

namespace Cantools.ArxmlRef

open Kcd (Xml)
open Regex (Chars)
open Spec
open Cdd (bind_of_ok find_kids)

/-! ### The elements of a document -/

/-- An element with its position, path and package. -/
structure Entry where
  pos : Pos
  elem : Xml
  path : Chars
  pkg : Chars

mutual
/-- The elements in the order in which they are visited. -/
def walk (pos : Pos) (path pkg : Chars) : Xml → List Entry
  | .elem tag attrs text children =>
    ⟨pos, .elem tag attrs text children, elemPath path (.elem tag attrs text children),
      packagePath pkg (.elem tag attrs text children)⟩ ::
    walks pos (elemPath path (.elem tag attrs text children))
      (packagePath pkg (.elem tag attrs text children)) 0 children
def walks (pos : Pos) (path pkg : Chars) (i : Nat) : List Xml → List Entry
  | [] => []
  | c :: cs => walk (pos ++ [i]) path pkg c ++ walks pos path pkg (i + 1) cs
end

def addEntry (r : Refs) (e : Entry) : Except Err Refs := addElem e.pos e.path e.pkg e.elem r

mutual
theorem addSub_eq (pos : Pos) (path pkg : Chars) (r : Refs) :
    ∀ x, addSub pos path pkg r x = (walk pos path pkg x).foldlM addEntry r
  | .elem tag attrs text children => by
    rw [addSub, walk, List.foldlM_cons]
    dsimp only [addEntry]
    congr 1
    funext r
    exact addSubs_eq pos _ _ 0 r children
theorem addSubs_eq (pos : Pos) (path pkg : Chars) (i : Nat) (r : Refs) :
    ∀ l, addSubs pos path pkg i r l = (walks pos path pkg i l).foldlM addEntry r
  | [] => by rw [addSubs, walks]; rfl
  | c :: cs => by
    rw [addSubs, walks, List.foldlM_append, addSub_eq]
    congr 1
    funext r
    exact addSubs_eq pos path pkg (i + 1) r cs
end

/-- The part of the path that an element adds. -/
def textTo : Xml → Pos → Chars
  | x, [] => elemPath [] x
  | x, i :: p => elemPath [] x ++ ((x.children[i]?).map fun c => textTo c p).getD []

def pkgTo : Xml → Pos → Chars
  | x, [] => packagePath [] x
  | x, i :: p => packagePath [] x ++ ((x.children[i]?).map fun c => pkgTo c p).getD []

theorem elemPath_append (path : Chars) (x : Xml) : elemPath path x = path ++ elemPath [] x := by
  unfold elemPath
  cases x.find? "SHORT-NAME" <;> simp

theorem packagePath_append (pkg : Chars) (x : Xml) : packagePath pkg x = pkg ++ packagePath [] x := by
  unfold packagePath
  split <;> simp

mutual
theorem mem_walk (pos : Pos) (path pkg : Chars) : ∀ x e, e ∈ walk pos path pkg x ↔
    ∃ p, e.pos = pos ++ p ∧ at? x p = some e.elem ∧ e.path = path ++ textTo x p ∧ e.pkg = pkg ++ pkgTo x p
  | .elem tag attrs text children, e => by
    rw [walk, List.mem_cons, mem_walks]
    constructor
    · rintro (rfl | ⟨k, c, p, hc, h1, h2, h3, h4⟩)
      · exact ⟨[], by simp, rfl, elemPath_append _ _, packagePath_append _ _⟩
      · refine ⟨k :: p, by simpa using h1, ?_, ?_, ?_⟩
        · rw [at?, show (Xml.elem tag attrs text children).children = children from rfl, hc]
          exact h2
        · rw [h3, textTo, show (Xml.elem tag attrs text children).children = children from rfl, hc,
            elemPath_append]
          simp
        · rw [h4, pkgTo, show (Xml.elem tag attrs text children).children = children from rfl, hc,
            packagePath_append]
          simp
    · rintro ⟨p, h1, h2, h3, h4⟩
      cases p with
      | nil =>
        left
        cases e
        simp only [at?, Option.some.injEq, List.append_nil, textTo, pkgTo] at h1 h2 h3 h4
        subst h1 h2 h3 h4
        rw [← elemPath_append, ← packagePath_append]
      | cons k p =>
        right
        rw [at?, show (Xml.elem tag attrs text children).children = children from rfl] at h2
        rw [textTo, show (Xml.elem tag attrs text children).children = children from rfl] at h3
        rw [pkgTo, show (Xml.elem tag attrs text children).children = children from rfl] at h4
        cases hc : children[k]? with
        | none => rw [hc] at h2; simp at h2
        | some c =>
          rw [hc] at h2 h3 h4
          refine ⟨k, c, p, hc, by simpa using h1, h2, ?_, ?_⟩
          · rw [h3, elemPath_append path]; simp
          · rw [h4, packagePath_append pkg]; simp
theorem mem_walks (pos : Pos) (path pkg : Chars) (i : Nat) : ∀ cs e, e ∈ walks pos path pkg i cs ↔
    ∃ k c p, cs[k]? = some c ∧ e.pos = pos ++ (i + k) :: p ∧ at? c p = some e.elem ∧
      e.path = path ++ textTo c p ∧ e.pkg = pkg ++ pkgTo c p
  | [], e => by rw [walks]; simp
  | c :: cs, e => by
    rw [walks, List.mem_append, mem_walk, mem_walks]
    constructor
    · rintro (⟨p, h1, h2⟩ | ⟨k, c', p, hc, h1, h2⟩)
      · exact ⟨0, c, p, rfl, by simpa using h1, h2⟩
      · exact ⟨k + 1, c', p, by simpa using hc, by rw [h1]; congr 2; omega, h2⟩
    · rintro ⟨k, c', p, hc, h1, h2⟩
      cases k with
      | zero =>
        obtain rfl : c = c' := by simpa using hc
        exact .inl ⟨p, by simpa using h1, h2⟩
      | succ k => exact .inr ⟨k, c', p, by simpa using hc, by rw [h1]; congr 2; omega, h2⟩
end

mutual
theorem walk_nodup (pos : Pos) (path pkg : Chars) : ∀ x, ((walk pos path pkg x).map (·.pos)).Nodup
  | .elem tag attrs text children => by
    rw [walk, List.map_cons, List.nodup_cons]
    refine ⟨?_, walks_nodup pos _ _ 0 children⟩
    intro h
    obtain ⟨e, he, hp⟩ := List.mem_map.1 h
    obtain ⟨k, c, p, -, h1, -⟩ := (mem_walks _ _ _ _ _ _).1 he
    rw [h1] at hp
    have := congrArg List.length hp
    simp at this
theorem walks_nodup (pos : Pos) (path pkg : Chars) (i : Nat) :
    ∀ cs, ((walks pos path pkg i cs).map (·.pos)).Nodup
  | [] => by rw [walks]; simp
  | c :: cs => by
    rw [walks, List.map_append, List.nodup_append]
    refine ⟨walk_nodup _ _ _ c, walks_nodup pos path pkg (i + 1) cs, ?_⟩
    intro a ha b hb e
    obtain ⟨e1, he1, rfl⟩ := List.mem_map.1 ha
    obtain ⟨e2, he2, rfl⟩ := List.mem_map.1 hb
    obtain ⟨p, h1, -⟩ := (mem_walk _ _ _ _ _).1 he1
    obtain ⟨k, c', p', -, h2, -⟩ := (mem_walks _ _ _ _ _ _).1 he2
    rw [h1, h2, List.append_assoc] at e
    have := List.append_cancel_left e
    simp at this
    omega
end

/-! ### Names and positions -/

theorem at?_append (x : Xml) (p q : Pos) : at? x (p ++ q) = (at? x p).bind fun y => at? y q := by
  induction p generalizing x with
  | nil => rfl
  | cons i p ih =>
    rw [List.cons_append, at?, at?]
    cases x.children[i]? with
    | none => rfl
    | some c => exact ih c

theorem at?_prefix {x y : Xml} {q p : Pos} (hq : q <+: p) (h : at? x p = some y) : ∃ z, at? x q = some z := by
  obtain ⟨s, rfl⟩ := hq
  rw [at?_append] at h
  cases e : at? x q with
  | none => rw [e] at h; cases h
  | some z => exact ⟨z, rfl⟩

theorem namesTo_append {x y : Xml} {p : Pos} (h : at? x p = some y) (i : Nat) (s : Pos) :
    namesTo x (p ++ i :: s) = namesTo x p ++ ((y.children[i]?).map fun c => namesTo c s).getD [] := by
  induction p generalizing x with
  | nil => obtain rfl := Option.some.inj h; rfl
  | cons k p ih =>
    rw [at?] at h
    rw [List.cons_append, namesTo, namesTo]
    cases hc : x.children[k]? with
    | none => rw [hc] at h; cases h
    | some c =>
      rw [hc] at h
      simp only [Option.map_some, Option.getD_some]
      rw [ih h, List.append_assoc]

theorem nameOf_length (x : Xml) : (shortName x).length ≤ 1 := by
  unfold shortName; simp

/-- The name of an element is the last one of its path. -/
theorem namesTo_last {x y : Xml} {p : Pos} (h : at? x p = some y) : ∃ l, namesTo x p = l ++ shortName y := by
  induction p generalizing x with
  | nil => obtain rfl := Option.some.inj h; exact ⟨[], rfl⟩
  | cons k p ih =>
    rw [at?] at h
    rw [namesTo]
    cases hc : x.children[k]? with
    | none => rw [hc] at h; cases h
    | some c =>
      rw [hc] at h
      obtain ⟨l, hl⟩ := ih h
      exact ⟨shortName x ++ l, by simp [hl]⟩

theorem namesTo_prefix {x y : Xml} {q p : Pos} (hq : q <+: p) (h : at? x p = some y) :
    namesTo x q <+: namesTo x p := by
  obtain ⟨s, rfl⟩ := hq
  obtain ⟨z, hz⟩ := at?_prefix (List.prefix_append q s) h
  cases s with
  | nil => simp
  | cons i s => rw [namesTo_append hz]; exact List.prefix_append _ _

/-- A named element further down has a longer path. -/
theorem namesTo_lt {x y : Xml} {q p : Pos} (hq : q <+: p) (hne : q.length < p.length) (h : at? x p = some y)
    (hy : shortName y ≠ []) : (namesTo x q).length < (namesTo x p).length := by
  obtain ⟨s, rfl⟩ := hq
  obtain ⟨z, hz⟩ := at?_prefix (List.prefix_append q s) h
  cases s with
  | nil => simp at hne
  | cons i s =>
    rw [namesTo_append hz]
    rw [at?_append, hz] at h
    change at? z (i :: s) = some y at h
    rw [at?] at h
    cases hc : z.children[i]? with
    | none => rw [hc] at h; cases h
    | some c =>
      rw [hc] at h
      obtain ⟨l, hl⟩ := namesTo_last (h : at? c s = some y)
      have := List.length_pos_of_ne_nil hy
      simp [hl]
      omega

/-- The named elements on the way to a position have the beginnings of its path. -/
theorem namesTo_take {x y : Xml} {p : Pos} (h : at? x p = some y) {m : Nat} (h0 : 0 < m)
    (hm : m ≤ (namesTo x p).length) :
    ∃ q z, q <+: p ∧ at? x q = some z ∧ shortName z ≠ [] ∧ namesTo x q = (namesTo x p).take m := by
  induction p generalizing x m with
  | nil =>
    have h1 := nameOf_length x
    have h2 : m ≤ (shortName x).length := hm
    refine ⟨[], x, List.prefix_rfl, rfl, ?_, ?_⟩
    · intro e; rw [e] at h2; simp at h2; omega
    · rw [List.take_of_length_le (by show (shortName x).length ≤ m; omega)]
  | cons k p ih =>
    rw [at?] at h
    rw [namesTo] at hm ⊢
    cases hc : x.children[k]? with
    | none => rw [hc] at h; cases h
    | some c =>
      rw [hc] at h hm
      simp only [Option.map_some, Option.getD_some] at hm ⊢
      have h1 := nameOf_length x
      by_cases hle : m ≤ (shortName x).length
      · refine ⟨[], x, List.nil_prefix, rfl, ?_, ?_⟩
        · intro e; rw [e] at hle; simp at hle; omega
        · rw [List.take_append_of_le_length hle]
          show shortName x = _
          rw [List.take_of_length_le (by omega)]
      · rw [List.length_append] at hm
        obtain ⟨q, z, hq, hz, hn, ht⟩ := ih (m := m - (shortName x).length) h (by omega) (by omega)
        refine ⟨k :: q, z, ?_, ?_, hn, ?_⟩
        · obtain ⟨s, rfl⟩ := hq; exact ⟨s, rfl⟩
        · rw [at?, hc]; exact hz
        · rw [namesTo, hc, List.take_append]
          simp only [Option.map_some, Option.getD_some, ht]
          rw [List.take_of_length_le (by omega : (shortName x).length ≤ m)]

/-! ### Paths as text -/

theorem pathText_append (a b : List String) : pathText (a ++ b) = pathText a ++ pathText b := by
  simp [pathText]

theorem splitSlash_word {w : Chars} (h : '/' ∉ w) (r : Chars) :
    splitSlash (w ++ r) = match splitSlash r with | [] => [w] | a :: t => (w ++ a) :: t := by
  induction w with
  | nil =>
    cases e : splitSlash r with
    | nil =>
      exfalso
      cases r with
      | nil => simp [splitSlash] at e
      | cons c r => unfold splitSlash at e; split at e <;> [cases e; (split at e <;> cases e)]
    | cons a t => simp [e]
  | cons c w ih =>
    have hc : c ≠ '/' := fun e => h (e ▸ List.mem_cons_self ..)
    rw [List.cons_append, splitSlash, if_neg hc, ih fun hw => h (List.mem_cons_of_mem _ hw)]
    cases splitSlash r <;> rfl

theorem splitSlash_path {ns : List String} (h : ∀ n ∈ ns, '/' ∉ n.toList) :
    splitSlash (pathText ns) = [] :: ns.map String.toList := by
  induction ns with
  | nil => rfl
  | cons n ns ih =>
    have hp : pathText (n :: ns) = '/' :: (n.toList ++ pathText ns) := by simp [pathText]
    rw [hp, splitSlash, if_pos rfl, splitSlash_word (h n (by simp)),
      ih fun m hm => h m (List.mem_cons_of_mem _ hm)]
    simp

theorem joinSlash_path (ns : List String) : joinSlash ([] :: ns.map String.toList) = pathText ns := by
  have key : ∀ (a : Chars) (ns : List String), joinSlash (a :: ns.map String.toList) = a ++ pathText ns := by
    intro a ns
    induction ns generalizing a with
    | nil => simp [joinSlash, pathText]
    | cons n ns ih =>
      rw [List.map_cons, joinSlash, ih]
      · simp [pathText]
      · simp
  exact key [] ns

theorem pathText_inj {a b : List String} (ha : ∀ n ∈ a, '/' ∉ n.toList) (hb : ∀ n ∈ b, '/' ∉ n.toList)
    (h : pathText a = pathText b) : a = b := by
  have h1 := splitSlash_path ha
  rw [h, splitSlash_path hb] at h1
  have h2 := (List.cons.inj h1).2
  exact ((List.map_injective_iff.2 fun x y e => String.toList_inj.1 e) h2).symm

/-! ### In regular documents -/

theorem elemPath_shortName {x : Xml} (h : ∀ c ∈ kids x "SHORT-NAME", ∃ t, c.text = some t ∧ '/' ∉ t.toList) :
    elemPath [] x = pathText (shortName x) := by
  unfold elemPath shortName
  rw [find_kids]
  cases e : kids x "SHORT-NAME" with
  | nil => rfl
  | cons c r =>
    obtain ⟨t, ht, -⟩ := h c (by rw [e]; simp)
    simp [pathText, textOrNone, ht]

theorem find_isSome (x : Xml) : (x.find? "SHORT-NAME").isSome = true ↔ shortName x ≠ [] := by
  unfold shortName
  rw [find_kids]
  cases kids x "SHORT-NAME" <;> simp

theorem textTo_eq {x y : Xml} {p : Pos} (hp : at? x p = some y)
    (h : ∀ q z, q <+: p → at? x q = some z →
      ∀ c ∈ kids z "SHORT-NAME", ∃ t, c.text = some t ∧ '/' ∉ t.toList) :
    textTo x p = pathText (namesTo x p) := by
  induction p generalizing x with
  | nil => exact elemPath_shortName (h [] x List.nil_prefix rfl)
  | cons k p ih =>
    rw [at?] at hp
    rw [textTo, namesTo]
    cases hc : x.children[k]? with
    | none => rw [hc] at hp; cases hp
    | some c =>
      rw [hc] at hp
      simp only [Option.map_some, Option.getD_some]
      rw [pathText_append, elemPath_shortName (h [] x List.nil_prefix rfl), ih hp]
      intro q z hq hz
      refine h (k :: q) z ?_ ?_
      · obtain ⟨s, rfl⟩ := hq; exact ⟨s, rfl⟩
      · rw [at?, hc]; exact hz

theorem pkgTo_eq_textTo {x y : Xml} {p : Pos} (hp : at? x p = some y)
    (h : ∀ q z, q <+: p → at? x q = some z → packagePath [] z = elemPath [] z) : pkgTo x p = textTo x p := by
  induction p generalizing x with
  | nil => exact h [] x List.nil_prefix rfl
  | cons k p ih =>
    rw [at?] at hp
    rw [textTo, pkgTo]
    cases hc : x.children[k]? with
    | none => rw [hc] at hp; cases hp
    | some c =>
      rw [hc] at hp
      simp only [Option.map_some, Option.getD_some]
      rw [h [] x List.nil_prefix rfl, ih hp]
      intro q z hq hz
      refine h (k :: q) z ?_ ?_
      · obtain ⟨s, rfl⟩ := hq; exact ⟨s, rfl⟩
      · rw [at?, hc]; exact hz

theorem pkgTo_none {x y : Xml} {p : Pos} (hp : at? x p = some y)
    (h : ∀ q z, q <+: p → at? x q = some z → z.tag ≠ "AR-PACKAGE") : pkgTo x p = [] := by
  induction p generalizing x with
  | nil => simp [pkgTo, packagePath, h [] x List.nil_prefix rfl]
  | cons k p ih =>
    rw [at?] at hp
    rw [pkgTo]
    cases hc : x.children[k]? with
    | none => rw [hc] at hp; cases hp
    | some c =>
      rw [hc] at hp
      simp only [Option.map_some, Option.getD_some]
      rw [ih hp]
      · simp [packagePath, h [] x List.nil_prefix rfl]
      · intro q z hq hz
        refine h (k :: q) z ?_ ?_
        · obtain ⟨s, rfl⟩ := hq; exact ⟨s, rfl⟩
        · rw [at?, hc]; exact hz

theorem pkgTo_below {x y : Xml} {p : Pos} (s : Pos) (hp : at? x (p ++ s) = some y)
    (h : ∀ q z, q <+: p ++ s → p.length < q.length → at? x q = some z → z.tag ≠ "AR-PACKAGE") :
    pkgTo x (p ++ s) = pkgTo x p := by
  induction p generalizing x with
  | nil =>
    cases s with
    | nil => rfl
    | cons k s =>
      rw [List.nil_append, at?] at hp
      rw [List.nil_append, pkgTo, pkgTo]
      cases hc : x.children[k]? with
      | none => rw [hc] at hp; cases hp
      | some c =>
        rw [hc] at hp
        simp only [Option.map_some, Option.getD_some]
        rw [pkgTo_none hp]
        · simp
        · intro q z hq hz
          refine h (k :: q) z ?_ (by simp) ?_
          · obtain ⟨t, rfl⟩ := hq; exact ⟨t, rfl⟩
          · rw [at?, hc]; exact hz
  | cons k p ih =>
    rw [List.cons_append, at?] at hp
    rw [List.cons_append, pkgTo, pkgTo]
    cases hc : x.children[k]? with
    | none => rw [hc] at hp; cases hp
    | some c =>
      rw [hc] at hp
      simp only [Option.map_some, Option.getD_some]
      rw [ih hp]
      intro q z hq hl hz
      refine h (k :: q) z ?_ (by simpa using hl) ?_
      · obtain ⟨t, ht⟩ := hq; exact ⟨t, by simp [ht]⟩
      · rw [at?, hc]; exact hz

section
variable {root : Xml} (hreg : Regular root)
include hreg

theorem names_slash {p : Pos} {y : Xml} (h : at? root p = some y) : ∀ n ∈ namesTo root p, '/' ∉ n.toList := by
  have key : ∀ (x : Xml) (p : Pos) (y : Xml), at? x p = some y →
      (∀ q z, q <+: p → at? x q = some z →
        ∀ c ∈ kids z "SHORT-NAME", ∃ t, c.text = some t ∧ '/' ∉ t.toList) →
      ∀ n ∈ namesTo x p, '/' ∉ n.toList := by
    have one : ∀ x : Xml, (∀ c ∈ kids x "SHORT-NAME", ∃ t, c.text = some t ∧ '/' ∉ t.toList) →
        ∀ n ∈ shortName x, '/' ∉ n.toList := by
      intro x hx n hn
      obtain ⟨c, hc, rfl⟩ := List.mem_map.1 hn
      obtain ⟨t, ht, hs⟩ := hx c (List.mem_of_mem_take hc)
      simpa [ht] using hs
    intro x p
    induction p generalizing x with
    | nil => intro y _ hx; exact one x (hx [] x List.nil_prefix rfl)
    | cons k p ih =>
      intro y hy hx n hn
      rw [namesTo] at hn
      rw [at?] at hy
      cases hc : x.children[k]? with
      | none => rw [hc] at hy; cases hy
      | some c =>
        rw [hc] at hn hy
        simp only [Option.map_some, Option.getD_some, List.mem_append] at hn
        rcases hn with hn | hn
        · exact one x (hx [] x List.nil_prefix rfl) n hn
        · refine ih c y hy (fun q z hq hz => hx (k :: q) z ?_ ?_) n hn
          · obtain ⟨s, rfl⟩ := hq; exact ⟨s, rfl⟩
          · rw [at?, hc]; exact hz
  exact key root p y h fun q z _ hz => hreg.names q z hz

theorem textTo_path {p : Pos} {y : Xml} (h : at? root p = some y) : textTo root p = pathText (namesTo root p) :=
  textTo_eq h fun q z _ hz => hreg.names q z hz

theorem pkgTo_package {q : Pos} {y : Xml} (h : at? root q = some y) (ht : y.tag = "AR-PACKAGE") :
    pkgTo root q = pathText (namesTo root q) := by
  rw [← textTo_path hreg h]
  refine pkgTo_eq_textTo h fun q' z hq' hz => ?_
  by_cases hn : shortName z = []
  · have : z.tag ≠ "AR-PACKAGE" := fun e => (hreg.packages q' z hz e).1 hn
    have hf : z.find? "SHORT-NAME" = none := by
      have := (find_isSome z).not.2 (by simpa using hn)
      simpa using this
    simp [packagePath, elemPath, this, hf]
  · have : z.tag = "AR-PACKAGE" := (hreg.packages q y h ht).2 q' z hq' hz hn
    have hf := (find_isSome z).2 hn
    unfold packagePath elemPath
    rw [if_pos this]
    cases e : z.find? "SHORT-NAME" with
    | none => rw [e] at hf; cases hf
    | some c => rfl

theorem pkgTo_innermost {q p : Pos} {y : Xml} (h : at? root p = some y) (hq : Innermost root q p) :
    pkgTo root p = pathText (namesTo root q) := by
  obtain ⟨⟨z, hz, ht⟩, ⟨s, rfl⟩, hin⟩ := hq
  rw [← pkgTo_package hreg hz ht]
  refine pkgTo_below s h ?_
  intro q' w hq' hl hw e
  have := (hin q' ⟨w, hw, e⟩ hq').length_le
  omega

end

/-! ### Reference bases -/

theorem strip_word {t s : Chars} (h : Padded t s) : DecodeCommand.strip t = s := by
  obtain ⟨a, b, rfl, hb, hs⟩ := h
  have hw : ∀ c ∈ s, Regex.isSpace c = false := by
    intro c hc
    obtain ⟨h1, h2⟩ := hs c hc
    have hle : ∀ d e : Char, d ≤ e ↔ d.toNat ≤ e.toNat := fun d e => by
      rw [Char.le_def, UInt32.le_iff_toNat_le]; rfl
    have hne : c ≠ ' ' := by rintro rfl; revert h1; decide
    simp only [Regex.isSpace, Bool.or_eq_false_iff, decide_eq_false_iff_not, hle, beq_eq_false_iff_ne]
    refine ⟨⟨hne, fun hh => ?_⟩, fun hh => ?_⟩
    · have : c.toNat ≤ 13 := hh.2
      omega
    · have : c.toNat ≤ 31 := hh.2
      omega
  refine ArxmlScale.strip_padded ?_ (fun c hc => hw c (List.mem_of_head? hc))
    (fun c hc => hw c (List.mem_of_getLast? hc))
  intro c hc
  have := hb c hc
  simp only [List.mem_cons, List.not_mem_nil, or_false] at this
  rcases this with rfl | rfl | rfl | rfl <;> rfl

theorem requiredText_says {x : Xml} {tag : String} {s : Chars} (h : FirstText x tag s) :
    requiredText x tag = .ok s := by
  obtain ⟨c, r, t, hk, ht, hp⟩ := h
  unfold requiredText
  rw [find_kids, hk]
  simp [ht, strip_word hp]

theorem flag_says {x : Xml} {tag : String} {b : Bool} (h : FlagSays x tag b) : flag x tag = .ok b := by
  rcases h with ⟨hk, rfl⟩ | ⟨s, ⟨c, r, t, hk, ht, hp⟩, hb⟩
  · unfold flag
    rw [find_kids, hk]
    rfl
  · unfold flag
    rw [find_kids, hk]
    simp only [List.head?_cons, ht, strip_word hp]
    congr 1
    cases b with
    | true => simpa using hb.1 rfl
    | false =>
      have : ¬ (s.map Char.toLower = ['t', 'r', 'u', 'e']) := fun e => by simpa using hb.2 e
      simpa using this

/-- The reference base that an element declares. -/
def declOf (x : Xml) : Option BaseDecl :=
  if x.tag = "REFERENCE-BASE" then
    match requiredText x "SHORT-LABEL", requiredText x "PACKAGE-REF", flag x "IS-DEFAULT", flag x "IS-GLOBAL" with
    | .ok a, .ok b, .ok c, .ok d => some ⟨a, b, c, d⟩
    | _, _, _, _ => none
  else none

theorem declOf_says {x : Xml} {d : BaseDecl} (ht : x.tag = "REFERENCE-BASE") (h : BaseSays x d) :
    declOf x = some d := by
  unfold declOf
  rw [if_pos ht, requiredText_says h.label, requiredText_says h.target, flag_says h.isDefault,
    flag_says h.isGlobal]

/-! ### The dictionaries -/

def Entry.named (e : Entry) : Prop := shortName e.elem ≠ []

/-- What the dictionaries contain after the names of the elements of `l` and the reference bases of the
elements of `m`. -/
structure Inv (l m : List Entry) (r : Refs) : Prop where
  node : ∀ t p, dictGet? r.nodeAt t = some p ↔ ∃ e ∈ l, e.named ∧ e.path = t ∧ e.pos = p
  path : ∀ p t, dictGet? r.pathOf p = some t ↔ ∃ e ∈ l, e.pos = p ∧ e.path = t
  dflt : ∀ k t, dictGet? r.defaults k = some t ↔
    ∃ e ∈ m, ∃ d, declOf e.elem = some d ∧ d.isDefault = true ∧ e.pkg = k ∧ d.target = t
  base : ∀ k n t, dictGet? ((dictGet? r.bases k).getD []) n = some t ↔
    ∃ e ∈ m, ∃ d, declOf e.elem = some d ∧ e.pkg = k ∧ d.label = n ∧ d.target = t

/-- Two elements can be in the same document. -/
structure Compatible (a b : Entry) : Prop where
  path : a.named → b.named → a.path ≠ b.path
  label : ∀ d d', declOf a.elem = some d → declOf b.elem = some d' → a.pkg = b.pkg → d.label ≠ d'.label
  dflt : ∀ d d', declOf a.elem = some d → declOf b.elem = some d' → a.pkg = b.pkg →
    ¬ (d.isDefault = true ∧ d'.isDefault = true)

def NotGlobal (e : Entry) : Prop := ∀ d, declOf e.elem = some d → d.isGlobal = false

/-- Elements that declare reference bases do so completely. -/
def Complete (e : Entry) : Prop := e.elem.tag = "REFERENCE-BASE" → ∃ d, BaseSays e.elem d

theorem inv_name {l m : List Entry} {r : Refs} {e : Entry} (h : Inv l m r) (hp : e.pos ∉ l.map (·.pos))
    (hc : e.named → ∀ a ∈ l, a.named → a.path ≠ e.path) :
    Inv (l ++ [e]) m { r with
      nodeAt := if (e.elem.find? "SHORT-NAME").isSome then dictSet r.nodeAt e.path e.pos else r.nodeAt
      pathOf := dictSet r.pathOf e.pos e.path } where
  node := by
    intro t p
    by_cases hn : (e.elem.find? "SHORT-NAME").isSome = true
    · have hn' : e.named := (find_isSome _).1 hn
      simp only [hn, if_true]
      rw [dictGet?_set]
      by_cases ht : e.path = t
      · rw [if_pos ht]
        constructor
        · intro hh; exact ⟨e, by simp, hn', ht, Option.some.inj hh⟩
        · rintro ⟨a, ha, han, hat, rfl⟩
          rcases List.mem_append.1 ha with ha | ha
          · exact absurd (hat.trans ht.symm) (hc hn' a ha han)
          · rw [List.mem_singleton.1 ha]
      · rw [if_neg ht, h.node]
        constructor
        · rintro ⟨a, ha, h'⟩; exact ⟨a, by simp [ha], h'⟩
        · rintro ⟨a, ha, h1, h2, h3⟩
          rcases List.mem_append.1 ha with ha | ha
          · exact ⟨a, ha, h1, h2, h3⟩
          · rw [List.mem_singleton.1 ha] at h2; exact absurd h2 ht
    · have hn' : ¬ e.named := fun hh => hn ((find_isSome _).2 hh)
      simp only [hn]
      rw [if_neg (by simp), h.node]
      constructor
      · rintro ⟨a, ha, h'⟩; exact ⟨a, by simp [ha], h'⟩
      · rintro ⟨a, ha, h1, h2, h3⟩
        rcases List.mem_append.1 ha with ha | ha
        · exact ⟨a, ha, h1, h2, h3⟩
        · rw [List.mem_singleton.1 ha] at h1; exact absurd h1 hn'
  path := by
    intro p t
    simp only
    rw [dictGet?_set]
    by_cases ht : e.pos = p
    · rw [if_pos ht]
      constructor
      · intro hh; exact ⟨e, by simp, ht, Option.some.inj hh⟩
      · rintro ⟨a, ha, hat, rfl⟩
        rcases List.mem_append.1 ha with ha | ha
        · exact absurd (List.mem_map.2 ⟨a, ha, hat.trans ht.symm⟩) hp
        · rw [List.mem_singleton.1 ha]
    · rw [if_neg ht, h.path]
      constructor
      · rintro ⟨a, ha, h'⟩; exact ⟨a, by simp [ha], h'⟩
      · rintro ⟨a, ha, h1, h2⟩
        rcases List.mem_append.1 ha with ha | ha
        · exact ⟨a, ha, h1, h2⟩
        · rw [List.mem_singleton.1 ha] at h1; exact absurd h1 ht
  dflt := h.dflt
  base := h.base

theorem inv_none {l m : List Entry} {r : Refs} {e : Entry} (h : Inv l m r) (hd : declOf e.elem = none) :
    Inv l (m ++ [e]) r where
  node := h.node
  path := h.path
  dflt := by
    intro k t
    rw [h.dflt]
    constructor
    · rintro ⟨a, ha, h'⟩; exact ⟨a, by simp [ha], h'⟩
    · rintro ⟨a, ha, d, h1, h2⟩
      rcases List.mem_append.1 ha with ha | ha
      · exact ⟨a, ha, d, h1, h2⟩
      · rw [List.mem_singleton.1 ha, hd] at h1; cases h1
  base := by
    intro k n t
    rw [h.base]
    constructor
    · rintro ⟨a, ha, h'⟩; exact ⟨a, by simp [ha], h'⟩
    · rintro ⟨a, ha, d, h1, h2⟩
      rcases List.mem_append.1 ha with ha | ha
      · exact ⟨a, ha, d, h1, h2⟩
      · rw [List.mem_singleton.1 ha, hd] at h1; cases h1

/-- A reference base can be added to those of the elements of `m`. -/
def BaseFits (m : List Entry) (e : Entry) (d : BaseDecl) : Prop :=
  d.isGlobal = false ∧ ∀ a ∈ m, ∀ d', declOf a.elem = some d' → a.pkg = e.pkg →
    d'.label ≠ d.label ∧ ¬ (d'.isDefault = true ∧ d.isDefault = true)

theorem addBase_says {l m : List Entry} {r : Refs} {e : Entry} {d : BaseDecl} (h : Inv l m r)
    (ht : e.elem.tag = "REFERENCE-BASE") (hs : BaseSays e.elem d) :
    (BaseFits m e d → ∃ r', addBase e.pkg e.elem r = .ok r' ∧ Inv l (m ++ [e]) r') ∧
    (¬ BaseFits m e d → addBase e.pkg e.elem r = .error .valueError) := by
  have hd := declOf_says ht hs
  -- the steps
  have step : ∀ r1, (if d.isDefault then
        if (dictGet? r.defaults e.pkg).isSome then (.error .valueError : Except Err Refs)
        else .ok { r with defaults := dictSet r.defaults e.pkg d.target }
      else .ok r) = r1 → addBase e.pkg e.elem r = (r1 >>= fun r =>
        if d.isGlobal then .error .valueError
        else if (dictGet? ((dictGet? r.bases e.pkg).getD []) d.label).isSome then .error .valueError
        else .ok { r with bases := dictSet r.bases e.pkg (dictSet ((dictGet? r.bases e.pkg).getD []) d.label d.target) }) := by
    rintro r1 rfl
    unfold addBase
    refine (bind_of_ok (requiredText_says hs.label)).trans ?_
    refine (bind_of_ok (requiredText_says hs.target)).trans ?_
    refine (bind_of_ok (flag_says hs.isDefault)).trans ?_
    rw [flag_says hs.isGlobal]
    split
    · split <;> rfl
    · rfl
  have hdflt : (dictGet? r.defaults e.pkg).isSome = true ↔
      ∃ a ∈ m, ∃ d', declOf a.elem = some d' ∧ d'.isDefault = true ∧ a.pkg = e.pkg := by
    rw [Option.isSome_iff_exists]
    constructor
    · rintro ⟨t, ht⟩
      obtain ⟨a, ha, d', h1, h2, h3, -⟩ := (h.dflt _ _).1 ht
      exact ⟨a, ha, d', h1, h2, h3⟩
    · rintro ⟨a, ha, d', h1, h2, h3⟩
      exact ⟨_, (h.dflt _ _).2 ⟨a, ha, d', h1, h2, h3, rfl⟩⟩
  have hlab : (dictGet? ((dictGet? r.bases e.pkg).getD []) d.label).isSome = true ↔
      ∃ a ∈ m, ∃ d', declOf a.elem = some d' ∧ a.pkg = e.pkg ∧ d'.label = d.label := by
    rw [Option.isSome_iff_exists]
    constructor
    · rintro ⟨t, ht⟩
      obtain ⟨a, ha, d', h1, h2, h3, -⟩ := (h.base _ _ _).1 ht
      exact ⟨a, ha, d', h1, h2, h3⟩
    · rintro ⟨a, ha, d', h1, h2, h3⟩
      exact ⟨_, (h.base _ _ _).2 ⟨a, ha, d', h1, h2, h3, rfl⟩⟩
  have hlab' : ∀ r1 : Refs, r1.bases = r.bases →
      ((dictGet? ((dictGet? r1.bases e.pkg).getD []) d.label).isSome = true ↔
      ∃ a ∈ m, ∃ d', declOf a.elem = some d' ∧ a.pkg = e.pkg ∧ d'.label = d.label) := by
    intro r1 e1; rw [e1]; exact hlab
  constructor
  · rintro ⟨hg, hf⟩
    have hnl : ¬ ∃ a ∈ m, ∃ d', declOf a.elem = some d' ∧ a.pkg = e.pkg ∧ d'.label = d.label := by
      rintro ⟨a, ha, d', h1, h2, h3⟩
      exact (hf a ha d' h1 h2).1 h3
    -- the dictionaries afterwards
    let r1 : Refs := if d.isDefault then { r with defaults := dictSet r.defaults e.pkg d.target } else r
    have hr1 : (if d.isDefault then
        if (dictGet? r.defaults e.pkg).isSome then (.error .valueError : Except Err Refs)
        else .ok { r with defaults := dictSet r.defaults e.pkg d.target }
      else .ok r) = .ok r1 := by
      show _ = Except.ok (if d.isDefault then _ else _)
      by_cases hdd : d.isDefault = true
      · have : ¬ (dictGet? r.defaults e.pkg).isSome = true := by
          rw [hdflt]
          rintro ⟨a, ha, d', h1, h2, h3⟩
          exact (hf a ha d' h1 h3).2 ⟨h2, hdd⟩
        rw [if_pos hdd, if_neg this, if_pos hdd]
      · rw [if_neg hdd, if_neg hdd]
    have hb1 : r1.bases = r.bases := by show (if d.isDefault then _ else _ : Refs).bases = _; split <;> rfl
    have hn1 : r1.nodeAt = r.nodeAt := by show (if d.isDefault then _ else _ : Refs).nodeAt = _; split <;> rfl
    have hp1 : r1.pathOf = r.pathOf := by show (if d.isDefault then _ else _ : Refs).pathOf = _; split <;> rfl
    have hd1 : ∀ k, dictGet? r1.defaults k =
        if d.isDefault = true ∧ e.pkg = k then some d.target else dictGet? r.defaults k := by
      intro k
      show dictGet? (if d.isDefault then _ else _ : Refs).defaults k = _
      by_cases hdd : d.isDefault = true
      · rw [if_pos hdd, dictGet?_set]; simp [hdd]
      · rw [if_neg hdd, if_neg (fun hh => hdd hh.1)]
    refine ⟨{ r1 with bases := dictSet r1.bases e.pkg (dictSet ((dictGet? r1.bases e.pkg).getD []) d.label d.target) }, ?_, ?_⟩
    · rw [step _ hr1]
      show (if d.isGlobal then _ else _) = _
      rw [if_neg (by simp [hg]), if_neg (by rw [hlab' r1 hb1]; exact hnl)]
    · refine ⟨fun t p => ?_, fun p t => ?_, fun k t => ?_, fun k n t => ?_⟩
      · show dictGet? r1.nodeAt t = some p ↔ _
        rw [hn1]; exact h.node t p
      · show dictGet? r1.pathOf p = some t ↔ _
        rw [hp1]; exact h.path p t
      · show dictGet? r1.defaults k = some t ↔ _
        rw [hd1]
        by_cases hc : d.isDefault = true ∧ e.pkg = k
        · rw [if_pos hc]
          constructor
          · intro hh; exact ⟨e, by simp, d, hd, hc.1, hc.2, Option.some.inj hh⟩
          · rintro ⟨a, ha, d', h1, h2, h3, rfl⟩
            rcases List.mem_append.1 ha with ha | ha
            · exact absurd ⟨h2, hc.1⟩ (hf a ha d' h1 (h3.trans hc.2.symm)).2
            · rw [List.mem_singleton.1 ha, hd] at h1
              rw [Option.some.inj h1]
        · rw [if_neg hc, h.dflt]
          constructor
          · rintro ⟨a, ha, h'⟩; exact ⟨a, by simp [ha], h'⟩
          · rintro ⟨a, ha, d', h1, h2, h3, h4⟩
            rcases List.mem_append.1 ha with ha | ha
            · exact ⟨a, ha, d', h1, h2, h3, h4⟩
            · rw [List.mem_singleton.1 ha] at h1 h3
              rw [hd] at h1
              rw [← Option.some.inj h1] at h2
              exact absurd ⟨h2, h3⟩ hc
      · show dictGet? ((dictGet? (dictSet r1.bases e.pkg _) k).getD []) n = some t ↔ _
        rw [hb1, dictGet?_set]
        by_cases hk : e.pkg = k
        · rw [if_pos hk]
          simp only [Option.getD_some]
          rw [dictGet?_set]
          by_cases hn : d.label = n
          · rw [if_pos hn]
            constructor
            · intro hh; exact ⟨e, by simp, d, hd, hk, hn, Option.some.inj hh⟩
            · rintro ⟨a, ha, d', h1, h2, h3, rfl⟩
              rcases List.mem_append.1 ha with ha | ha
              · exact absurd ⟨a, ha, d', h1, h2.trans hk.symm, h3.trans hn.symm⟩ hnl
              · rw [List.mem_singleton.1 ha, hd] at h1
                rw [Option.some.inj h1]
          · rw [if_neg hn, hk, h.base]
            constructor
            · rintro ⟨a, ha, h'⟩; exact ⟨a, by simp [ha], h'⟩
            · rintro ⟨a, ha, d', h1, h2, h3, h4⟩
              rcases List.mem_append.1 ha with ha | ha
              · exact ⟨a, ha, d', h1, h2, h3, h4⟩
              · rw [List.mem_singleton.1 ha, hd] at h1
                rw [← Option.some.inj h1] at h3
                exact absurd h3 hn
        · rw [if_neg hk, h.base]
          constructor
          · rintro ⟨a, ha, h'⟩; exact ⟨a, by simp [ha], h'⟩
          · rintro ⟨a, ha, d', h1, h2, h3⟩
            rcases List.mem_append.1 ha with ha | ha
            · exact ⟨a, ha, d', h1, h2, h3⟩
            · rw [List.mem_singleton.1 ha] at h2
              exact absurd h2 hk
  · intro hf
    by_cases hdd : d.isDefault = true ∧ (dictGet? r.defaults e.pkg).isSome = true
    · rw [step (.error .valueError) (by rw [if_pos hdd.1, if_pos hdd.2])]
      rfl
    · obtain ⟨r1, hr1, hb1⟩ : ∃ r1 : Refs, (if d.isDefault then
          if (dictGet? r.defaults e.pkg).isSome then (.error .valueError : Except Err Refs)
          else .ok { r with defaults := dictSet r.defaults e.pkg d.target }
        else .ok r) = .ok r1 ∧ r1.bases = r.bases := by
        by_cases h1 : d.isDefault = true
        · rw [if_pos h1, if_neg (fun h2 => hdd ⟨h1, h2⟩)]; exact ⟨_, rfl, rfl⟩
        · rw [if_neg h1]; exact ⟨_, rfl, rfl⟩
      rw [step _ hr1]
      show (if d.isGlobal then _ else _) = _
      by_cases hg : d.isGlobal = true
      · rw [if_pos hg]
      · rw [if_neg hg]
        refine if_pos ?_
        rw [hlab' r1 hb1]
        by_contra hno
        apply hf
        refine ⟨by simpa using hg, fun a ha d' h1 h2 => ⟨fun h3 => hno ⟨a, ha, d', h1, h2, h3⟩, fun h3 => ?_⟩⟩
        exact hdd ⟨h3.2, hdflt.2 ⟨a, ha, d', h1, h3.1, h2⟩⟩

/-- An element can be added to those of a list. -/
def Fits (l : List Entry) (e : Entry) : Prop := NotGlobal e ∧ ∀ a ∈ l, Compatible a e

theorem addEntry_says {l : List Entry} {r : Refs} {e : Entry} (h : Inv l l r) (hp : e.pos ∉ l.map (·.pos))
    (hc : Complete e) :
    (Fits l e → ∃ r', addEntry r e = .ok r' ∧ Inv (l ++ [e]) (l ++ [e]) r') ∧
    (¬ Fits l e → addEntry r e = .error .valueError) := by
  have hnode : (dictGet? r.nodeAt e.path).isSome = true ↔ ∃ a ∈ l, a.named ∧ a.path = e.path := by
    rw [Option.isSome_iff_exists]
    constructor
    · rintro ⟨t, ht⟩
      obtain ⟨a, ha, h1, h2, -⟩ := (h.node _ _).1 ht
      exact ⟨a, ha, h1, h2⟩
    · rintro ⟨a, ha, h1, h2⟩
      exact ⟨_, (h.node _ _).2 ⟨a, ha, h1, h2, rfl⟩⟩
  by_cases hname : (e.elem.find? "SHORT-NAME").isSome = true ∧ (dictGet? r.nodeAt e.path).isSome = true
  · have herr : addEntry r e = .error .valueError := by
      unfold addEntry addElem
      rw [if_pos hname.1, if_pos hname.2]
      rfl
    refine ⟨?_, fun _ => herr⟩
    rintro ⟨-, hf⟩
    obtain ⟨a, ha, h1, h2⟩ := hnode.1 hname.2
    exact absurd h2 ((hf a ha).path h1 ((find_isSome _).1 hname.1))
  · have hc' : e.named → ∀ a ∈ l, a.named → a.path ≠ e.path := by
      intro hn a ha han hh
      exact hname ⟨(find_isSome _).2 hn, hnode.2 ⟨a, ha, han, hh⟩⟩
    have h1 := inv_name h hp hc'
    generalize hr1 : ({ r with
      nodeAt := if (e.elem.find? "SHORT-NAME").isSome then dictSet r.nodeAt e.path e.pos else r.nodeAt
      pathOf := dictSet r.pathOf e.pos e.path } : Refs) = r1 at h1
    have hstep : addEntry r e = if e.elem.tag = "REFERENCE-BASE" then addBase e.pkg e.elem r1 else .ok r1 := by
      unfold addEntry addElem
      rw [← hr1]
      by_cases hn : (e.elem.find? "SHORT-NAME").isSome = true
      · rw [if_pos hn, if_neg (fun hh => hname ⟨hn, hh⟩), if_pos hn]; rfl
      · rw [if_neg hn, if_neg hn]; rfl
    by_cases ht : e.elem.tag = "REFERENCE-BASE"
    · obtain ⟨d, hd⟩ := hc ht
      have hdecl := declOf_says ht hd
      rw [hstep, if_pos ht]
      obtain ⟨g1, g2⟩ := addBase_says h1 ht hd
      constructor
      · rintro ⟨hf1, hf2⟩
        exact g1 ⟨hf1 d hdecl, fun a ha d' h3 h4 =>
          ⟨(hf2 a ha).label d' d h3 hdecl h4, (hf2 a ha).dflt d' d h3 hdecl h4⟩⟩
      · intro hf
        refine g2 fun hb => hf ⟨?_, ?_⟩
        · intro d' hd'
          rw [hdecl] at hd'
          rw [← Option.some.inj hd']
          exact hb.1
        · intro a ha
          refine ⟨fun h3 h4 => hc' h4 a ha h3, ?_, ?_⟩
          · intro d1 d2 h3 h4 h5
            rw [hdecl] at h4
            rw [← Option.some.inj h4]
            exact (hb.2 a ha d1 h3 h5).1
          · intro d1 d2 h3 h4 h5
            rw [hdecl] at h4
            rw [← Option.some.inj h4]
            exact (hb.2 a ha d1 h3 h5).2
    · have hdecl : declOf e.elem = none := by unfold declOf; rw [if_neg ht]
      rw [hstep, if_neg ht]
      refine ⟨fun _ => ⟨r1, rfl, inv_none h1 hdecl⟩, fun hf => ?_⟩
      refine absurd ⟨?_, ?_⟩ hf
      · intro d' hd'; rw [hdecl] at hd'; cases hd'
      · intro a ha
        refine ⟨fun h3 h4 => hc' h4 a ha h3, ?_, ?_⟩ <;>
        · intro d1 d2 h3 h4
          rw [hdecl] at h4; cases h4

theorem fold_says {l es : List Entry} {r : Refs} (h : Inv l l r) (hp : ((l ++ es).map (·.pos)).Nodup)
    (hc : ∀ e ∈ es, Complete e) :
    ((∀ e ∈ es, NotGlobal e) ∧ (∀ a ∈ l, ∀ e ∈ es, Compatible a e) ∧ es.Pairwise Compatible →
      ∃ r', es.foldlM addEntry r = .ok r' ∧ Inv (l ++ es) (l ++ es) r') ∧
    (¬ ((∀ e ∈ es, NotGlobal e) ∧ (∀ a ∈ l, ∀ e ∈ es, Compatible a e) ∧ es.Pairwise Compatible) →
      es.foldlM addEntry r = .error .valueError) := by
  induction es generalizing l r with
  | nil =>
    refine ⟨fun _ => ⟨r, rfl, by simpa using h⟩, fun hh => absurd ⟨by simp, by simp, .nil⟩ hh⟩
  | cons e es ih =>
    have hpe : e.pos ∉ l.map (·.pos) := by
      intro hm
      rw [List.map_append, List.nodup_append] at hp
      exact hp.2.2 _ hm _ (by simp) rfl
    obtain ⟨g1, g2⟩ := addEntry_says h hpe (hc e (by simp))
    have hp' : (((l ++ [e]) ++ es).map (·.pos)).Nodup := by simpa using hp
    rw [List.foldlM_cons]
    constructor
    · rintro ⟨c1, c2, c3⟩
      obtain ⟨r', hr', hinv⟩ := g1 ⟨c1 e (by simp), fun a ha => c2 a ha e (by simp)⟩
      obtain ⟨r2, hr2, hinv2⟩ := (ih hinv hp' fun e he => hc e (List.mem_cons_of_mem _ he)).1
        ⟨fun x hx => c1 x (List.mem_cons_of_mem _ hx), fun a ha x hx => by
          rcases List.mem_append.1 ha with ha | ha
          · exact c2 a ha x (List.mem_cons_of_mem _ hx)
          · rw [List.mem_singleton.1 ha]
            exact (List.pairwise_cons.1 c3).1 x hx, (List.pairwise_cons.1 c3).2⟩
      exact ⟨r2, (bind_of_ok hr').trans hr2, by simpa using hinv2⟩
    · intro hn
      by_cases hf : Fits l e
      · obtain ⟨r', hr', hinv⟩ := g1 hf
        refine (bind_of_ok hr').trans ((ih hinv hp' fun e he => hc e (List.mem_cons_of_mem _ he)).2 ?_)
        rintro ⟨c1, c2, c3⟩
        apply hn
        refine ⟨?_, ?_, List.pairwise_cons.2 ⟨fun x hx => c2 e (by simp) x hx, c3⟩⟩
        · intro x hx
          rcases List.mem_cons.1 hx with rfl | hx
          · exact hf.1
          · exact c1 x hx
        · intro a ha x hx
          rcases List.mem_cons.1 hx with rfl | hx
          · exact hf.2 a ha
          · exact c2 a (by simp [ha]) x hx
      · rw [g2 hf]; rfl

/-! ### Accepted documents -/

/-- The elements of a document. -/
def entries (root : Xml) : List Entry := walk [] [] [] root

theorem mem_entries {root : Xml} {e : Entry} : e ∈ entries root ↔
    at? root e.pos = some e.elem ∧ e.path = textTo root e.pos ∧ e.pkg = pkgTo root e.pos := by
  unfold entries
  rw [mem_walk]
  simp only [List.nil_append]
  constructor
  · rintro ⟨p, rfl, h⟩; exact h
  · intro h; exact ⟨e.pos, rfl, h⟩

theorem longest {α : Type} (P : List α → Prop) (p : List α) (h : ∃ q, q <+: p ∧ P q) :
    ∃ q, q <+: p ∧ P q ∧ ∀ q', P q' → q' <+: p → q' <+: q := by
  induction p using List.reverseRecOn with
  | nil =>
    obtain ⟨q, hq, hP⟩ := h
    exact ⟨q, hq, hP, fun q' _ h' => by rw [List.prefix_nil.1 h']; exact List.nil_prefix⟩
  | append_singleton l a ih =>
    by_cases hl : P (l ++ [a])
    · exact ⟨_, List.prefix_rfl, hl, fun q' _ h' => h'⟩
    · have key : ∀ q, P q → q <+: l ++ [a] → q <+: l := by
        intro q hq h'
        rcases List.prefix_concat_iff.1 h' with rfl | h'
        · exact absurd hq hl
        · exact h'
      obtain ⟨q, hq, hP⟩ := h
      obtain ⟨q0, h1, h2, h3⟩ := ih ⟨q, key q hP hq, hP⟩
      exact ⟨q0, h1.trans (List.prefix_append l [a]), h2, fun q' hq' h' => h3 q' hq' (key q' hq' h')⟩

theorem innermost_exists {root : Xml} {p : Pos} (h : ∃ q, q <+: p ∧ IsPackage root q) :
    ∃ q, Innermost root q p := by
  obtain ⟨q, h1, h2, h3⟩ := longest (IsPackage root) p h
  exact ⟨q, h2, h1, h3⟩

section
variable {root : Xml} (hreg : Regular root)
include hreg

/-- The reference base an element declares, and its package. -/
theorem decl_says {e : Entry} (he : e ∈ entries root) {d : BaseDecl} (hd : declOf e.elem = some d) :
    ∃ q, Declares root q d e.pos ∧ e.pkg = pathText (namesTo root q) := by
  obtain ⟨h1, -, h3⟩ := mem_entries.1 he
  have ht : e.elem.tag = "REFERENCE-BASE" := by
    unfold declOf at hd
    by_contra hn
    rw [if_neg hn] at hd
    cases hd
  obtain ⟨hq, d', hd'⟩ := hreg.bases _ _ h1 ht
  obtain ⟨q, hq⟩ := innermost_exists hq
  rw [declOf_says ht hd'] at hd
  obtain rfl := Option.some.inj hd
  exact ⟨q, ⟨⟨_, h1, ht, hd'⟩, hq⟩, h3.trans (pkgTo_innermost hreg h1 hq)⟩

theorem declares_entry {q p : Pos} {d : BaseDecl} (h : Declares root q d p) :
    ∃ e ∈ entries root, e.pos = p ∧ declOf e.elem = some d ∧ e.pkg = pathText (namesTo root q) := by
  obtain ⟨⟨x, hx, ht, hd⟩, hq⟩ := h
  exact ⟨⟨p, x, textTo root p, pkgTo root p⟩, mem_entries.2 ⟨hx, rfl, rfl⟩, rfl, declOf_says ht hd,
    pkgTo_innermost hreg hx hq⟩

theorem path_entry {p : Pos} {t : Chars} :
    HasPath root p t ↔ ∃ e ∈ entries root, e.named ∧ e.path = t ∧ e.pos = p := by
  constructor
  · rintro ⟨x, hx, hn, rfl⟩
    exact ⟨⟨p, x, textTo root p, pkgTo root p⟩, mem_entries.2 ⟨hx, rfl, rfl⟩, hn, textTo_path hreg hx, rfl⟩
  · rintro ⟨e, he, hn, rfl, rfl⟩
    obtain ⟨h1, h2, -⟩ := mem_entries.1 he
    exact ⟨_, h1, hn, h2.trans (textTo_path hreg h1)⟩

theorem package_path {q : Pos} (h : IsPackage root q) : HasPath root q (pathText (namesTo root q)) := by
  obtain ⟨x, hx, ht⟩ := h
  exact ⟨x, hx, (hreg.packages q x hx ht).1, rfl⟩

theorem accepted_iff :
    ((∀ e ∈ entries root, NotGlobal e) ∧ (entries root).Pairwise Compatible) ↔ RefsAccepted root := by
  have hnd : ((entries root).map (·.pos)).Nodup := walk_nodup [] [] [] root
  have hsymm : Std.Symm Compatible := ⟨fun a b h =>
    ⟨fun h1 h2 e => h.path h2 h1 e.symm, fun d d' h1 h2 h3 e => h.label d' d h2 h1 h3.symm e.symm,
      fun d d' h1 h2 h3 e => h.dflt d' d h2 h1 h3.symm e.symm⟩⟩
  constructor
  · rintro ⟨hg, hp⟩
    have hall : ∀ a ∈ entries root, ∀ b ∈ entries root, a.pos ≠ b.pos → Compatible a b := by
      intro a ha b hb hne
      exact hp.forall ha hb fun e => hne (by rw [e])
    refine ⟨?_, ?_, ?_, ?_⟩
    · intro p p' t h h'
      obtain ⟨e, he, hn, ht, rfl⟩ := (path_entry hreg).1 h
      obtain ⟨e', he', hn', ht', rfl⟩ := (path_entry hreg).1 h'
      by_contra hne
      exact (hall e he e' he' hne).path hn hn' (ht.trans ht'.symm)
    · intro q d d' p p' h h' hl
      obtain ⟨e, he, rfl, hd, hk⟩ := declares_entry hreg h
      obtain ⟨e', he', rfl, hd', hk'⟩ := declares_entry hreg h'
      by_contra hne
      exact (hall e he e' he' hne).label d d' hd hd' (hk.trans hk'.symm) hl
    · intro q d d' p p' h h' hl hl'
      obtain ⟨e, he, rfl, hd, hk⟩ := declares_entry hreg h
      obtain ⟨e', he', rfl, hd', hk'⟩ := declares_entry hreg h'
      by_contra hne
      exact (hall e he e' he' hne).dflt d d' hd hd' (hk.trans hk'.symm) ⟨hl, hl'⟩
    · intro q d p h
      obtain ⟨e, he, rfl, hd, -⟩ := declares_entry hreg h
      exact hg e he d hd
  · intro h
    have hpos : ∀ a ∈ entries root, ∀ b ∈ entries root, ∀ d d', declOf a.elem = some d →
        declOf b.elem = some d' → a.pkg = b.pkg → ∃ q, Declares root q d a.pos ∧ Declares root q d' b.pos := by
      intro a ha b hb d d' h1 h2 h3
      obtain ⟨q, hq, hk⟩ := decl_says hreg ha h1
      obtain ⟨q', hq', hk'⟩ := decl_says hreg hb h2
      have : q = q' := by
        refine h.paths _ _ (pathText (namesTo root q)) (package_path hreg hq.2.1) ?_
        rw [← hk, h3, hk']
        exact package_path hreg hq'.2.1
      subst this
      exact ⟨q, hq, hq'⟩
    refine ⟨?_, ?_⟩
    · intro e he d hd
      obtain ⟨q, hq, -⟩ := decl_says hreg he hd
      exact h.noGlobal q d _ hq
    · have hnd' : (entries root).Nodup := List.Nodup.of_map _ hnd
      refine hnd'.pairwise_of_forall_ne ?_
      intro a ha b hb hne
      have hne' : a.pos ≠ b.pos := fun e => hne (List.inj_on_of_nodup_map hnd ha hb e)
      refine ⟨fun h1 h2 e => hne' ?_, fun d d' h1 h2 h3 e => hne' ?_, fun d d' h1 h2 h3 e => hne' ?_⟩
      · exact h.paths _ _ a.path ((path_entry hreg).2 ⟨a, ha, h1, rfl, rfl⟩)
          ((path_entry hreg).2 ⟨b, hb, h2, e.symm, rfl⟩)
      · obtain ⟨q, g1, g2⟩ := hpos a ha b hb d d' h1 h2 h3
        exact h.labels q d d' _ _ g1 g2 e
      · obtain ⟨q, g1, g2⟩ := hpos a ha b hb d d' h1 h2 h3
        exact h.defaults q d d' _ _ g1 g2 e.1 e.2

theorem createDicts_says :
    (RefsAccepted root → ∃ r, createDicts root = .ok r ∧ Inv (entries root) (entries root) r) ∧
    (¬ RefsAccepted root → createDicts root = .error .valueError) := by
  have h0 : Inv [] [] ({} : Refs) :=
    ⟨fun t p => by simp [dictGet?], fun t p => by simp [dictGet?], fun t p => by simp [dictGet?],
      fun k n t => by simp [dictGet?]⟩
  have hc : ∀ e ∈ entries root, Complete e := by
    intro e he ht
    exact (hreg.bases _ _ (mem_entries.1 he).1 ht).2
  obtain ⟨g1, g2⟩ := fold_says h0 (es := entries root) (by simpa [entries] using walk_nodup [] [] [] root) hc
  have heq : createDicts root = (entries root).foldlM addEntry {} := addSub_eq [] [] [] {} root
  rw [heq]
  constructor
  · intro ha
    obtain ⟨h1, h2⟩ := (accepted_iff hreg).2 ha
    simpa using g1 ⟨h1, by simp, h2⟩
  · intro ha
    exact g2 fun hh => ha ((accepted_iff hreg).1 ⟨hh.1, hh.2.2⟩)

/-! ### Reference bases for a position -/

variable {r : Refs} (hinv : Inv (entries root) (entries root) r) (hacc : RefsAccepted root)
include hinv hacc

omit hacc in
theorem node_says {t : Chars} {p : Pos} : dictGet? r.nodeAt t = some p ↔ HasPath root p t := by
  rw [hinv.node, path_entry hreg]

omit hacc in
theorem baseOf_says {base : Option Chars} {k t : Chars} : baseOf r base k = some t ↔
    ∃ q p d, Declares root q d p ∧ pathText (namesTo root q) = k ∧ Meant base d ∧ d.target = t := by
  cases base with
  | none =>
    show dictGet? r.defaults k = some t ↔ _
    rw [hinv.dflt]
    constructor
    · rintro ⟨e, he, d, h1, h2, rfl, h4⟩
      obtain ⟨q, hq, hk⟩ := decl_says hreg he h1
      exact ⟨q, _, d, hq, hk.symm, h2, h4⟩
    · rintro ⟨q, p, d, h1, rfl, h3, h4⟩
      obtain ⟨e, he, rfl, hd, hk⟩ := declares_entry hreg h1
      exact ⟨e, he, d, hd, h3, hk, h4⟩
  | some b =>
    show dictGet? ((dictGet? r.bases k).getD []) b = some t ↔ _
    rw [hinv.base]
    constructor
    · rintro ⟨e, he, d, h1, rfl, h2, h4⟩
      obtain ⟨q, hq, hk⟩ := decl_says hreg he h1
      exact ⟨q, _, d, hq, hk.symm, h2, h4⟩
    · rintro ⟨q, p, d, h1, rfl, h3, h4⟩
      obtain ⟨e, he, rfl, hd, hk⟩ := declares_entry hreg h1
      exact ⟨e, he, d, hd, hk, h3, h4⟩

/-- One round of the loop: the package whose path has `m` names. -/
theorem round_says {pos : Pos} {y : Xml} (hy : at? root pos = some y) {base : Option Chars} {m : Nat}
    (hm : m ≤ (namesTo root pos).length) {t : Chars} :
    (if notPackage root r (pathText ((namesTo root pos).take m)) then none
      else baseOf r base (pathText ((namesTo root pos).take m))) = some t ↔
    ∃ q, q <+: pos ∧ (namesTo root q).length = m ∧ ∃ p d, Declares root q d p ∧ Meant base d ∧ d.target = t := by
  constructor
  · intro h
    split at h
    · cases h
    · obtain ⟨q, p, d, h1, h2, h3, h4⟩ := (baseOf_says hreg hinv).1 h
      obtain ⟨x, hx, ht⟩ := h1.2.1
      have hn : namesTo root q = (namesTo root pos).take m :=
        pathText_inj (names_slash hreg hx)
          (fun n hn => names_slash hreg hy n (List.mem_of_mem_take hn)) h2
      have hlen : (namesTo root q).length = m := by rw [hn, List.length_take]; omega
      have hpos : 0 < m := by
        rw [← hlen]
        obtain ⟨l, hl⟩ := namesTo_last hx
        have := List.length_pos_of_ne_nil (hreg.packages q x hx ht).1
        rw [hl, List.length_append]; omega
      obtain ⟨q', z, hq', hz, hnz, htk⟩ := namesTo_take hy hpos hm
      have : q = q' := hacc.paths _ _ (pathText (namesTo root q)) (package_path hreg h1.2.1)
        ⟨z, hz, hnz, by rw [htk, hn]⟩
      subst this
      exact ⟨q, hq', hlen, p, d, h1, h3, h4⟩
  · rintro ⟨q, hq, hlen, p, d, h1, h3, h4⟩
    obtain ⟨x, hx, ht⟩ := h1.2.1
    have hn : namesTo root q = (namesTo root pos).take m := by
      rw [← hlen]; exact List.prefix_iff_eq_take.1 (namesTo_prefix hq hy)
    have hnode : dictGet? r.nodeAt (pathText ((namesTo root pos).take m)) = some q := by
      rw [node_says hreg hinv, ← hn]; exact package_path hreg h1.2.1
    have hnp : notPackage root r (pathText ((namesTo root pos).take m)) = false := by
      unfold notPackage
      rw [hnode]
      simp [hx, ht]
    rw [hnp]
    simp only [Bool.false_eq_true, if_false]
    exact (baseOf_says hreg hinv).2 ⟨q, p, d, h1, by rw [hn], h3, h4⟩

theorem findBase_says {pos : Pos} {y : Xml} (hy : at? root pos = some y) {base : Option Chars} {t : Chars}
    (n : Nat) (hn : n ≤ (namesTo root pos).length + 1) :
    findBase root r base ([] :: (namesTo root pos).map String.toList) n = some t ↔
    ∃ q, q <+: pos ∧ (namesTo root q).length < n ∧ (∃ p d, Declares root q d p ∧ Meant base d ∧ d.target = t) ∧
      ∀ q', q' <+: pos → (namesTo root q').length < n → (namesTo root q).length < (namesTo root q').length →
        ∀ p d, Declares root q' d p → ¬ Meant base d := by
  induction n with
  | zero => simp [findBase]
  | succ n ih =>
    have hround := fun t => round_says hreg hinv hacc hy (base := base) (m := n) (by omega) (t := t)
    have hjoin : joinSlash (List.take (n + 1) ([] :: (namesTo root pos).map String.toList)) =
        pathText ((namesTo root pos).take n) := by
      rw [List.take_succ_cons, ← List.map_take]
      exact joinSlash_path _
    have heq : findBase root r base ([] :: (namesTo root pos).map String.toList) (n + 1) =
        match (if notPackage root r (pathText ((namesTo root pos).take n)) then none
          else baseOf r base (pathText ((namesTo root pos).take n))) with
        | some t => some t
        | none => findBase root r base ([] :: (namesTo root pos).map String.toList) n := by
      rw [findBase, hjoin]
      split <;> rfl
    rw [heq]
    cases hv : (if notPackage root r (pathText ((namesTo root pos).take n)) then none
          else baseOf r base (pathText ((namesTo root pos).take n))) with
    | some t0 =>
      obtain ⟨q, hq, hl, p, d, h1, h2, h3⟩ := (hround t0).1 hv
      constructor
      · intro e
        obtain rfl := Option.some.inj e
        exact ⟨q, hq, by omega, ⟨p, d, h1, h2, h3⟩, fun q' _ hq' hlt => by omega⟩
      · rintro ⟨q', hq', hl', ⟨p', d', g1, g2, g3⟩, hmax⟩
        by_cases hlt : (namesTo root q').length < (namesTo root q).length
        · exact absurd h2 (hmax q hq (by omega) hlt p d h1)
        · have := (hround t).2 ⟨q', hq', by omega, p', d', g1, g2, g3⟩
          rw [hv] at this
          exact this
    | none =>
      show findBase root r base _ n = some t ↔ _
      rw [ih (by omega)]
      have hno : ∀ q, q <+: pos → (namesTo root q).length = n → ∀ p d, Declares root q d p → ¬ Meant base d := by
        intro q hq hl p d h1 h2
        have := (hround d.target).2 ⟨q, hq, hl, p, d, h1, h2, rfl⟩
        rw [hv] at this
        cases this
      constructor
      · rintro ⟨q, hq, hl, hd, hmax⟩
        refine ⟨q, hq, by omega, hd, fun q' hq' hl' hlt => ?_⟩
        by_cases he : (namesTo root q').length = n
        · exact hno q' hq' he
        · exact hmax q' hq' (by omega) hlt
      · rintro ⟨q, hq, hl, ⟨p, d, h1, h2, h3⟩, hmax⟩
        have : (namesTo root q).length ≠ n := fun he => hno q hq he p d h1 h2
        exact ⟨q, hq, by omega, ⟨p, d, h1, h2, h3⟩, fun q' hq' hl' hlt => hmax q' hq' (by omega) hlt⟩

theorem base_says {pos : Pos} {y : Xml} (hy : at? root pos = some y) {base : Option Chars} {t : Chars} :
    findBase root r base ([] :: (namesTo root pos).map String.toList) ((namesTo root pos).length + 1) = some t ↔
      BaseFor root pos base t := by
  rw [findBase_says hreg hinv hacc hy _ (le_refl _)]
  have hle : ∀ q, q <+: pos → (namesTo root q).length < (namesTo root pos).length + 1 := by
    intro q hq
    have := (namesTo_prefix hq hy).length_le
    omega
  have hord : ∀ q q', q <+: pos → q' <+: pos → IsPackage root q → IsPackage root q' →
      ((namesTo root q).length < (namesTo root q').length ↔ q.length < q'.length) := by
    intro q q' hq hq' hp hp'
    obtain ⟨x, hx, ht⟩ := hp
    obtain ⟨x', hx', ht'⟩ := hp'
    constructor
    · intro h
      by_contra hn
      have := (namesTo_prefix (List.prefix_of_prefix_length_le hq' hq (by omega)) hx).length_le
      omega
    · intro h
      exact namesTo_lt (List.prefix_of_prefix_length_le hq hq' (by omega)) h hx' (hreg.packages _ _ hx' ht').1
  constructor
  · rintro ⟨q, hq, hl, ⟨p, d, h1, h2, h3⟩, hmax⟩
    refine ⟨q, hq, ⟨p, d, h1, h2, h3⟩, fun q' hq' hlt p' d' h1' => ?_⟩
    exact hmax q' hq' (hle q' hq') ((hord q q' hq hq' h1.2.1 h1'.2.1).2 hlt) p' d' h1'
  · rintro ⟨q, hq, ⟨p, d, h1, h2, h3⟩, hmax⟩
    refine ⟨q, hq, hle q hq, ⟨p, d, h1, h2, h3⟩, fun q' hq' _ hlt p' d' h1' => ?_⟩
    exact hmax q' hq' ((hord q q' hq hq' h1.2.1 h1'.2.1).1 hlt) p' d' h1'

/-- The absolute path of a reference. -/
theorem absolutePath_says {pos : Pos} {y : Xml} (hy : at? root pos = some y) (text : Chars) (base : Option Chars) :
    (∀ a, absolutePath root r pos text base = .ok a ↔ AbsoluteText root pos text base a) ∧
    ((∀ a, ¬ AbsoluteText root pos text base a) → absolutePath root r pos text base = .error .valueError) := by
  unfold AbsoluteText
  by_cases hs : text.head? = some '/'
  · simp only [absolutePath, if_pos hs]
    exact ⟨fun a => ⟨fun h => (Except.ok.inj h).symm, fun h => by rw [h]⟩, fun h => absurd rfl (h text)⟩
  · simp only [if_neg hs]
    have hpath : dictGet r.pathOf pos = .ok (pathText (namesTo root pos)) := by
      rw [dictGet_eq_ok, hinv.path]
      exact ⟨⟨pos, y, textTo root pos, pkgTo root pos⟩, mem_entries.2 ⟨hy, rfl, rfl⟩, rfl, textTo_path hreg hy⟩
    have hsp := splitSlash_path (names_slash hreg hy)
    have heq : absolutePath root r pos text base =
      match findBase root r base ([] :: (namesTo root pos).map String.toList) ((namesTo root pos).length + 1) with
        | none => (.error .valueError : Except Err Chars)
        | some t => .ok (t ++ '/' :: text) := by
      unfold absolutePath
      rw [if_neg hs]
      refine (bind_of_ok hpath).trans ?_
      dsimp only
      rw [hsp, List.length_cons, List.length_map]
      cases findBase root r base ([] :: (namesTo root pos).map String.toList) ((namesTo root pos).length + 1) <;> rfl
    rw [heq]
    have hb := fun t => base_says hreg hinv hacc hy (base := base) (t := t)
    cases hv : findBase root r base ([] :: (namesTo root pos).map String.toList) ((namesTo root pos).length + 1) with
    | none =>
      rw [hv] at hb
      refine ⟨fun a => ⟨fun h => (by cases h), ?_⟩, fun _ => rfl⟩
      rintro ⟨t, ht, -⟩
      have := (hb t).2 ht
      cases this
    | some t =>
      rw [hv] at hb
      refine ⟨fun a => ⟨fun h => ⟨t, (hb t).1 rfl, (Except.ok.inj h).symm⟩, ?_⟩, fun h => ?_⟩
      · rintro ⟨t', ht', rfl⟩
        obtain rfl := Option.some.inj ((hb t').2 ht')
        rfl
      · exact absurd ⟨t, (hb t).1 rfl, rfl⟩ (h _)

theorem follow_says {pos : Pos} {y : Xml} (hy : at? root pos = some y) (text : Chars) (dest : Option String)
    (base : Option Chars) :
    (∀ p, follow root r pos text dest base = .ok (some p) ↔ Leads root pos text dest base p) ∧
    (follow root r pos text dest base = .ok none ↔
      (∃ a, AbsoluteText root pos text base a) ∧ ∀ p, ¬ Leads root pos text dest base p) ∧
    (follow root r pos text dest base = .error .valueError ↔ ∀ a, ¬ AbsoluteText root pos text base a) ∧
    (∀ e, follow root r pos text dest base = .error e → e = .valueError) := by
  obtain ⟨h1, h2⟩ := absolutePath_says hreg hinv hacc hy text base
  unfold follow
  by_cases ha : ∃ a, AbsoluteText root pos text base a
  · obtain ⟨a, ha⟩ := ha
    have hok := (h1 a).2 ha
    have huniq : ∀ a', AbsoluteText root pos text base a' → a' = a := by
      intro a' ha'
      have := (h1 a').2 ha'
      rw [hok] at this
      exact (Except.ok.inj this).symm
    have hlead : ∀ p, Leads root pos text dest base p ↔ HasPath root p a ∧
        ∀ d, dest = some d → ∃ x, at? root p = some x ∧ x.tag = d := by
      intro p
      constructor
      · rintro ⟨a', g1, g2, g3⟩; rw [huniq a' g1] at g2; exact ⟨g2, g3⟩
      · rintro ⟨g2, g3⟩; exact ⟨a, ha, g2, g3⟩
    rw [show (absolutePath root r pos text base >>= _) = _ from bind_of_ok hok]
    cases hv : dictGet? r.nodeAt a with
    | none =>
      have hno : ∀ p, ¬ HasPath root p a := by
        intro p hp
        rw [(node_says hreg hinv).2 hp] at hv
        cases hv
      refine ⟨fun p => ⟨fun h => (by cases h), fun h => absurd ((hlead p).1 h).1 (hno p)⟩,
        ⟨fun _ => ⟨⟨a, ha⟩, fun p h => hno p ((hlead p).1 h).1⟩, fun _ => rfl⟩,
        ⟨fun h => (by cases h), fun h => absurd ha (h a)⟩, fun e h => (by cases h)⟩
    | some p0 =>
      have hp0 := (node_says hreg hinv).1 hv
      have hone : ∀ p, HasPath root p a → p = p0 := fun p hp => hacc.paths _ _ _ hp hp0
      obtain ⟨x, hx, -⟩ := id hp0
      dsimp only
      cases dest with
      | none =>
        dsimp only
        refine ⟨fun p => ⟨fun h => ?_, fun h => ?_⟩, ⟨fun h => (by cases h), fun h => ?_⟩,
          ⟨fun h => (by cases h), fun h => absurd ha (h a)⟩, fun e h => (by cases h)⟩
        · rw [← Option.some.inj (Except.ok.inj h)]; exact (hlead p0).2 ⟨hp0, fun d hd => (by cases hd)⟩
        · rw [hone p ((hlead p).1 h).1]
        · exact absurd ((hlead p0).2 ⟨hp0, fun d hd => (by cases hd)⟩) (h.2 p0)
      | some d =>
        rw [hx]
        dsimp only
        by_cases ht : x.tag = d
        · rw [if_neg (by simpa using ht)]
          have hl0 : Leads root pos text (some d) base p0 :=
            (hlead p0).2 ⟨hp0, fun d' hd => ⟨x, hx, ht.trans (Option.some.inj hd)⟩⟩
          refine ⟨fun p => ⟨fun h => ?_, fun h => ?_⟩, ⟨fun h => (by cases h), fun h => ?_⟩,
            ⟨fun h => (by cases h), fun h => absurd ha (h a)⟩, fun e h => (by cases h)⟩
          · rw [← Option.some.inj (Except.ok.inj h)]; exact hl0
          · rw [hone p ((hlead p).1 h).1]
          · exact absurd hl0 (h.2 p0)
        · rw [if_pos ht]
          have hno : ∀ p, ¬ Leads root pos text (some d) base p := by
            intro p hp
            obtain ⟨g1, g2⟩ := (hlead p).1 hp
            rw [hone p g1] at g2
            obtain ⟨x', hx', ht'⟩ := g2 d rfl
            rw [hx] at hx'
            exact ht (Option.some.inj hx' ▸ ht')
          exact ⟨fun p => ⟨fun h => (by cases h), fun h => absurd h (hno p)⟩,
            ⟨fun _ => ⟨⟨a, ha⟩, hno⟩, fun _ => rfl⟩,
            ⟨fun h => (by cases h), fun h => absurd ha (h a)⟩, fun e h => (by cases h)⟩
  · have hno : ∀ a, ¬ AbsoluteText root pos text base a := fun a h => ha ⟨a, h⟩
    rw [h2 hno]
    refine ⟨fun p => ⟨fun h => (by cases h), ?_⟩, ⟨fun h => (by cases h), fun h => absurd h.1 ha⟩,
      ⟨fun _ => hno, fun _ => rfl⟩, fun e h => (Except.error.inj h).symm⟩
    rintro ⟨a, g, -⟩
    exact absurd g (hno a)

/-! ### Locations -/

/-- One child. -/
theorem stands_says {b : Pos} {a : LocAtom} {i : Nat} {c : Xml} (hc : at? root (b ++ [i]) = some c)
    (hw : c.tag ≠ a.tag) {t : String} (ht : c.text = some t) {p : Pos} :
    follow root r b t.toList (c.attr? "DEST") ((c.attr? "BASE").map String.toList) = .ok (some p) ↔
      StandsFor root b a i p := by
  obtain ⟨y, hy⟩ := at?_prefix (List.prefix_append b [i]) hc
  rw [(follow_says hreg hinv hacc hy _ _ _).1]
  unfold StandsFor
  constructor
  · intro h
    exact ⟨c, hc, by rw [if_neg hw]; exact ⟨t, ht, h⟩⟩
  · rintro ⟨c', hc', h⟩
    rw [hc] at hc'
    obtain rfl := Option.some.inj hc'
    rw [if_neg hw] at h
    obtain ⟨t', ht', h⟩ := h
    rw [ht] at ht'
    obtain rfl := Option.some.inj ht'
    exact h

theorem localResult_says {b : Pos} {a : LocAtom}
    (hstray : a.refs = false → ∀ i x, at? root (b ++ [i]) = some x → x.tag ≠ a.tag ++ "-REF") (cs : List Xml) :
    ∀ (i : Nat), (∀ k, at? root (b ++ [i + k]) = cs[k]?) → ∀ l,
    (localResult root r b a.tag i cs = .ok l ↔
      ∃ is : List Nat, is.Pairwise (· < ·) ∧
        (∀ j, j ∈ is ↔ i ≤ j ∧ ∃ c, at? root (b ++ [j]) = some c ∧ Wanted a c) ∧
        List.Forall₂ (StandsFor root b a) is l) := by
  induction cs with
  | nil =>
    intro i hk l
    rw [localResult]
    constructor
    · intro h
      obtain rfl := Except.ok.inj h
      refine ⟨[], .nil, fun j => ⟨fun h => (by cases h), ?_⟩, .nil⟩
      rintro ⟨hj, c, hc, -⟩
      have := hk (j - i)
      rw [show i + (j - i) = j by omega, hc] at this
      simp at this
    · rintro ⟨is, -, hm, hf⟩
      cases is with
      | nil => cases hf; rfl
      | cons j is =>
        obtain ⟨hj, c, hc, -⟩ := (hm j).1 (List.mem_cons_self ..)
        have := hk (j - i)
        rw [show i + (j - i) = j by omega, hc] at this
        simp at this
  | cons c cs ih =>
    intro i hk l
    have hc : at? root (b ++ [i]) = some c := by simpa using hk 0
    have hk' : ∀ k, at? root (b ++ [i + 1 + k]) = cs[k]? := by
      intro k
      have := hk (k + 1)
      rw [show i + (k + 1) = i + 1 + k by omega] at this
      simpa using this
    have ih := ih (i + 1) hk'
    -- the shape of the sorted list
    have hyes : Wanted a c → ((∃ is : List Nat, is.Pairwise (· < ·) ∧
        (∀ j, j ∈ is ↔ i ≤ j ∧ ∃ c, at? root (b ++ [j]) = some c ∧ Wanted a c) ∧
        List.Forall₂ (StandsFor root b a) is l) ↔
        ∃ p l', l = p :: l' ∧ StandsFor root b a i p ∧ localResult root r b a.tag (i + 1) cs = .ok l') := by
      intro hw
      constructor
      · rintro ⟨is, hp, hm, hf⟩
        have hi := (hm i).2 ⟨le_refl _, c, hc, hw⟩
        cases is with
        | nil => cases hi
        | cons j is =>
          rw [List.pairwise_cons] at hp
          have hij : j = i := by
            have h1 := ((hm j).1 (List.mem_cons_self ..)).1
            rcases List.mem_cons.1 hi with h | h
            · exact h.symm
            · have := hp.1 i h; omega
          subst hij
          cases hf with
          | cons h1 h2 =>
            refine ⟨_, _, rfl, h1, (ih _).2 ⟨is, hp.2, fun k => ?_, h2⟩⟩
            constructor
            · intro h
              exact ⟨hp.1 k h, ((hm k).1 (List.mem_cons_of_mem _ h)).2⟩
            · rintro ⟨h, h'⟩
              rcases List.mem_cons.1 ((hm k).2 ⟨by omega, h'⟩) with e | e
              · omega
              · exact e
      · rintro ⟨p, l', rfl, h1, h2⟩
        obtain ⟨is, hp, hm, hf⟩ := (ih _).1 h2
        refine ⟨i :: is, List.pairwise_cons.2 ⟨fun j hj => ((hm j).1 hj).1, hp⟩, fun j => ?_, .cons h1 hf⟩
        rw [List.mem_cons, hm]
        constructor
        · rintro (rfl | ⟨h, h'⟩)
          · exact ⟨le_refl _, c, hc, hw⟩
          · exact ⟨by omega, h'⟩
        · rintro ⟨h, h'⟩
          by_cases e : j = i
          · exact .inl e
          · exact .inr ⟨by omega, h'⟩
    have hno : ¬ Wanted a c → ((∃ is : List Nat, is.Pairwise (· < ·) ∧
        (∀ j, j ∈ is ↔ i ≤ j ∧ ∃ c, at? root (b ++ [j]) = some c ∧ Wanted a c) ∧
        List.Forall₂ (StandsFor root b a) is l) ↔ localResult root r b a.tag (i + 1) cs = .ok l) := by
      intro hw
      rw [ih]
      refine exists_congr fun is => and_congr_right fun _ => and_congr_left fun _ => forall_congr' fun j => ?_
      refine iff_congr Iff.rfl ?_
      constructor
      · rintro ⟨h, c', hc', h'⟩
        refine ⟨?_, c', hc', h'⟩
        rcases Nat.lt_or_ge i j with h1 | h1
        · exact h1
        · have : j = i := by omega
          subst this
          rw [hc] at hc'
          exact absurd (Option.some.inj hc' ▸ h') hw
      · rintro ⟨h, h'⟩
        exact ⟨by omega, h'⟩
    rw [localResult]
    by_cases h1 : c.tag = a.tag
    · rw [if_pos h1, hyes (.inl h1), bind_ok_iff]
      constructor
      · rintro ⟨l', h2, h3⟩
        exact ⟨_, l', (Except.ok.inj h3).symm, ⟨c, hc, by rw [if_pos h1]⟩, h2⟩
      · rintro ⟨p, l', rfl, ⟨c', hc', h2⟩, h3⟩
        rw [hc] at hc'
        obtain rfl := Option.some.inj hc'
        rw [if_pos h1] at h2
        subst h2
        exact ⟨l', h3, rfl⟩
    · rw [if_neg h1]
      by_cases h2 : c.tag = a.tag ++ "-REF"
      · have hr : a.refs = true := by
          by_contra h
          exact hstray (by simpa using h) _ _ hc h2
        rw [if_pos h2, hyes (.inr ⟨hr, h2⟩)]
        cases ht : c.text with
        | none =>
          refine ⟨fun h => (by cases h), ?_⟩
          rintro ⟨p, l', rfl, ⟨c', hc', h3⟩, -⟩
          rw [hc] at hc'
          obtain rfl := Option.some.inj hc'
          rw [if_neg h1] at h3
          obtain ⟨t, h4, -⟩ := h3
          rw [ht] at h4
          cases h4
        | some t =>
          have hs := fun p => stands_says hreg hinv hacc hc h1 ht (p := p)
          dsimp only
          rw [bind_ok_iff]
          constructor
          · rintro ⟨o, h3, h4⟩
            cases o with
            | none => cases h4
            | some p =>
              obtain ⟨l', h5, h6⟩ := bind_ok_iff.1 h4
              exact ⟨p, l', (Except.ok.inj h6).symm, (hs p).1 h3, h5⟩
          · rintro ⟨p, l', rfl, h3, h4⟩
            exact ⟨some p, (hs p).2 h3, bind_ok_iff.2 ⟨l', h4, rfl⟩⟩
      · rw [if_neg h2, hno]
        rintro (h | h)
        · exact h1 h
        · exact h2 h.2

theorem found_says {b : Pos} {a : LocAtom}
    (hstray : a.refs = false → ∀ i x, at? root (b ++ [i]) = some x → x.tag ≠ a.tag ++ "-REF") (l : List Pos) :
    localResult root r b a.tag 0 (((at? root b).map Xml.children).getD []) = .ok l ↔ Found root b a l := by
  rw [localResult_says hreg hinv hacc hstray]
  · unfold Found
    simp
  · intro k
    rw [Nat.zero_add, at?_append]
    cases h : at? root b with
    | none => simp
    | some y =>
      cases h' : y.children[k]? <;> simp [at?, h']

omit hreg hinv hacc in
theorem parseAtom_says {s : String} {a : LocAtom} (h : AtomText s a) : parseAtom s = ⟨a.tag, a.many⟩ := by
  obtain ⟨hne, hs⟩ := h
  have h1 : ∀ n, '&' ∉ a.tag.toList.take n := fun n h => (hne _ (List.mem_of_mem_take h)).1 rfl
  have h2 : ∀ n, '*' ∉ a.tag.toList.take n := fun n h => (hne _ (List.mem_of_mem_take h)).2 rfl
  have h1' := h1 1
  have h2' := h2 1
  have h1'' := h1 2
  have h2'' := h2 2
  unfold parseAtom
  obtain ⟨tag, many, refs⟩ := a
  dsimp only at *
  rcases hs with hs | hs <;> rw [hs] <;> cases many <;> cases refs <;>
    simp [h1', h2', h1'', h2'']

omit hreg hinv hacc in
theorem mapM_forall₂ {α β : Type} {f : α → Except Err β} {l : List α} :
    ∀ {r : List β}, l.mapM f = .ok r ↔ List.Forall₂ (fun a b => f a = .ok b) l r := by
  induction l with
  | nil =>
    intro r
    rw [List.mapM_nil]
    constructor
    · intro h; obtain rfl := Except.ok.inj h; exact .nil
    · intro h; cases h; rfl
  | cons a l ih =>
    intro r
    rw [List.mapM_cons, bind_ok_iff]
    constructor
    · rintro ⟨b, h1, h2⟩
      obtain ⟨r', h3, h4⟩ := bind_ok_iff.1 h2
      obtain rfl := Except.ok.inj h4
      exact .cons h1 (ih.1 h3)
    · intro h
      cases h with
      | cons h1 h2 => exact ⟨_, h1, bind_ok_iff.2 ⟨_, ih.2 h2, rfl⟩⟩

omit hreg hinv hacc in
theorem forall₂_imp_mem {α β : Type} {P Q : α → β → Prop} {l : List α} {l' : List β} (h : List.Forall₂ P l l')
    (hi : ∀ a ∈ l, ∀ b, P a b → Q a b) : List.Forall₂ Q l l' := by
  induction h with
  | nil => exact .nil
  | cons h1 _ ih => exact .cons (hi _ (List.mem_cons_self ..) _ h1) (ih fun a ha => hi a (List.mem_cons_of_mem _ ha))

theorem stepAll_says {a : LocAtom} {bs : List Pos}
    (hstray : a.refs = false → ∀ b ∈ bs, ∀ i x, at? root (b ++ [i]) = some x → x.tag ≠ a.tag ++ "-REF") (l : List Pos) :
    stepAll root r ⟨a.tag, a.many⟩ bs = .ok l ↔ ∃ parts : List (List Pos),
      List.Forall₂ (fun b l => Found root b a l ∧ (a.many = false → l.length ≤ 1)) bs parts ∧ l = parts.flatten := by
  unfold stepAll
  rw [bind_ok_iff]
  refine exists_congr fun parts => ?_
  rw [mapM_forall₂]
  refine and_congr ?_ ⟨fun h => (Except.ok.inj h).symm, fun h => by rw [h]; rfl⟩
  have key : ∀ b ∈ bs, ∀ (l : List Pos), (do
      let l ← localResult root r b a.tag 0 (((at? root b).map Xml.children).getD [])
      if !a.many && 1 < l.length then .error .valueError else pure l) = (.ok l : Except Err (List Pos)) ↔
      Found root b a l ∧ (a.many = false → l.length ≤ 1) := by
    intro b hb l
    have hstray := fun hf => hstray hf b hb
    rw [bind_ok_iff]
    constructor
    · rintro ⟨l', h1, h2⟩
      split at h2
      · cases h2
      · rename_i hn
        obtain rfl := Except.ok.inj h2
        refine ⟨(found_says hreg hinv hacc hstray _).1 h1, fun hm => ?_⟩
        rw [hm] at hn
        simpa using hn
    · rintro ⟨h1, h2⟩
      refine ⟨l, (found_says hreg hinv hacc hstray _).2 h1, ?_⟩
      rw [if_neg]
      · rfl
      · intro h
        rw [Bool.and_eq_true, decide_eq_true_eq] at h
        have := h2 (by simpa using h.1)
        omega
  constructor
  · intro h; exact forall₂_imp_mem h fun b hb l => (key b hb l).1
  · intro h; exact forall₂_imp_mem h fun b hb l => (key b hb l).2

omit hreg hinv hacc in
theorem locate_nil {as : List LocAtom} {l : List Pos} : Locate root as [] l ↔ l = [] := by
  induction as with
  | nil =>
    constructor
    · intro h; cases h; rfl
    · rintro rfl; exact .done
  | cons a as ih =>
    constructor
    · intro h
      cases h with
      | step h1 h2 => cases h1; exact ih.1 h2
    · rintro rfl
      exact .step .nil (ih.2 rfl)

theorem getChildren_says {loc : List String} {atoms : List LocAtom} (hat : List.Forall₂ AtomText loc atoms)
    (bs : List Pos) (hstray : NoStrayAt root atoms bs) (l : List Pos) :
    getChildren root r bs loc = .ok l ↔ Locate root atoms bs l := by
  induction hat generalizing bs l with
  | nil =>
    rw [getChildren]
    constructor
    · intro h; obtain rfl := Except.ok.inj h; exact .done
    · intro h; cases h; rfl
  | @cons s a loc atoms h1 h2 ih =>
    have hfirst : a.refs = false → ∀ b ∈ bs, ∀ i x, at? root (b ++ [i]) = some x → x.tag ≠ a.tag ++ "-REF" :=
      hstray [] a atoms bs rfl .done
    have hrest : ∀ parts, List.Forall₂ (fun b l => Found root b a l ∧ (a.many = false → l.length ≤ 1)) bs parts →
        NoStrayAt root atoms parts.flatten := fun parts hp as a' as' ps e hl =>
      hstray (a :: as) a' as' ps (by rw [e]; rfl) (.step hp hl)
    rw [getChildren, parseAtom_says h1]
    by_cases hb : bs = []
    · rw [if_pos hb, hb, locate_nil]
      exact ⟨fun h => (Except.ok.inj h).symm, fun h => by rw [h]⟩
    · rw [if_neg hb, bind_ok_iff]
      constructor
      · rintro ⟨m, g1, g2⟩
        obtain ⟨parts, g3, rfl⟩ := (stepAll_says hreg hinv hacc hfirst m).1 g1
        exact .step g3 ((ih _ (hrest _ g3) _).1 g2)
      · intro h
        cases h with
        | step g1 g2 =>
          exact ⟨_, (stepAll_says hreg hinv hacc hfirst _).2 ⟨_, g1, rfl⟩, (ih _ (hrest _ g1) _).2 g2⟩

end

/-- There are no such references at all. -/
theorem noStrayAt_of {root : Xml} {atoms : List LocAtom} {bs : List Pos}
    (h : ∀ a ∈ atoms, a.refs = false → ∀ p x, at? root p = some x → x.tag ≠ a.tag ++ "-REF") : NoStrayAt root atoms bs :=
  fun as a as' _ e _ hf _ _ _ x hx => h a (by rw [e]; simp) hf _ x hx

end Cantools.ArxmlRef
