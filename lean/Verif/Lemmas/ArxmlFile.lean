import Verif.Spec.ArxmlFile
import Verif.Props.ArxmlRef
import Verif.Props.ArxmlScale
import Verif.Lemmas.Cdd
import Verif.Lemmas.Arxml

/-!
Lemmas about the frames of ARXML documents (C54).
-/

set_option linter.unusedSectionVars false

namespace Cantools.ArxmlFile

open Kcd (Xml)
open Regex (Chars)
open ArxmlRef (Pos Refs at? getChildren getUnique createDicts follow absolutePath mapM_forall₂)
open ArxmlScale (FloatRead parseNumber)
open Cdd (bind_of_ok)
open Spec Spec.SystemFile

/-! ### Locations -/

/-- The strings of the loader are the atoms of the specification. -/
def okAtom (s : String) (a : LocAtom) : Bool :=
  a.tag.toList.all (fun c => c != '&' && c != '*') &&
  (s.toList == (if a.many then ['*'] else []) ++ (if a.refs then ['&'] else []) ++ a.tag.toList) &&
  (a.refs || plainTags.contains a.tag)

def okAtoms : List String → List LocAtom → Bool
  | [], [] => true
  | s :: ss, a :: as => okAtom s a && okAtoms ss as
  | _, _ => false

theorem okAtoms_says {strs : List String} {loc : List LocAtom} (h : okAtoms strs loc = true) :
    List.Forall₂ AtomText strs loc ∧ ∀ a ∈ loc, a.refs = false → a.tag ∈ plainTags := by
  induction strs generalizing loc with
  | nil => cases loc with
    | nil => exact ⟨.nil, by simp⟩
    | cons => cases h
  | cons s ss ih => cases loc with
    | nil => cases h
    | cons a as =>
      simp only [okAtoms, okAtom, Bool.and_eq_true] at h
      obtain ⟨⟨⟨h1, h2⟩, h3⟩, h4⟩ := h
      obtain ⟨i1, i2⟩ := ih h4
      refine ⟨.cons ⟨?_, .inl (by simpa using h2)⟩ i1, List.forall_mem_cons.2 ⟨?_, i2⟩⟩
      · intro c hc
        simpa using List.all_eq_true.1 h1 c hc
      · intro hr
        rw [hr] at h3
        simpa using h3

section
variable {root : Xml} {r : Refs} {F : FloatRead} (hreg : Regular root) (hr : createDicts root = .ok r) (hns : NoStray root)
include hreg hr hns

local notation "𝓛" => Loader.mk root r F

theorem children_ok {b : Pos} {strs : List String} {loc : List LocAtom} {l : List Pos}
    (h : okAtoms strs loc = true) (hl : Locate root loc [b] l) : (𝓛).children b strs = .ok l := by
  obtain ⟨h1, h2⟩ := okAtoms_says h
  exact (C53_children_partial hreg hr h1 [b] l (ArxmlRef.noStrayAt_of fun a ha hf p x hx => hns p x hx _ (h2 a ha hf))).2 hl

theorem unique_ok {b : Pos} {strs : List String} {loc : List LocAtom} {o : Option Pos}
    (h : okAtoms strs loc = true) (hl : At root b loc o) : (𝓛).unique b strs = .ok o := by
  obtain ⟨h1, h2⟩ := okAtoms_says h
  obtain ⟨h3, h4⟩ := C53_unique_partial hreg hr h1 b (ArxmlRef.noStrayAt_of fun a ha hf p x hx => hns p x hx _ (h2 a ha hf))
  cases o with
  | none => exact h4.2 hl
  | some p => exact (h3 p).2 hl

omit hreg hr hns in
theorem text?_of {p : Pos} {x : Xml} {t : String} (hx : at? root p = some x) (ht : x.text = some t) :
    (𝓛).text? p = some t := by
  unfold Loader.text?
  dsimp only
  rw [hx]
  exact ht

omit hreg hr hns in
theorem text_of {p : Pos} {x : Xml} {t : String} (hx : at? root p = some x) (ht : x.text = some t) :
    (𝓛).text p = .ok t := by
  unfold Loader.text
  rw [text?_of hx ht]

theorem childText_ok {b : Pos} {strs : List String} {loc : List LocAtom} {t : String}
    (h : okAtoms strs loc = true) (hl : TextAt root b loc t) : (𝓛).childText b strs = .ok t := by
  obtain ⟨p, x, h1, h2, h3⟩ := hl
  exact (bind_of_ok (unique_ok hreg hr hns h h1)).trans (text_of h2 h3)

theorem optText_ok {b : Pos} {strs : List String} {loc : List LocAtom} {o : Option String}
    (h : okAtoms strs loc = true) (hl : OptTextAt root b loc o) : (𝓛).optText b strs = .ok o := by
  cases o with
  | none => exact bind_of_ok (unique_ok hreg hr hns h hl)
  | some t =>
    obtain ⟨p, x, h1, h2, h3⟩ := hl
    exact (bind_of_ok (unique_ok hreg hr hns h h1)).trans (bind_of_ok (text_of h2 h3))

theorem compareText_ok {b : Pos} {strs : List String} {loc : List LocAtom} {o : Option String}
    (h : okAtoms strs loc = true) (hl : OptTextAt root b loc o) : (𝓛).compareText b strs = .ok o := by
  cases o with
  | none => exact bind_of_ok (unique_ok hreg hr hns h hl)
  | some t =>
    obtain ⟨p, x, h1, h2, h3⟩ := hl
    exact (bind_of_ok (unique_ok hreg hr hns h h1)).trans (congrArg Except.ok (text?_of h2 h3))

omit hreg hr hns in
theorem parse_int {t : Chars} {i : Int} (h : PlainNumber F t i) : parseNumber F t false = .ok (i : Rat) := by
  rw [(C51_numbers_partial F t i h).2, if_pos (by simp)]

theorem number_ok {b : Pos} {strs : List String} {loc : List LocAtom} {i : Int}
    (h : okAtoms strs loc = true) (hl : NumberAt F root b loc i) : (𝓛).number b strs = .ok (i : Rat) := by
  obtain ⟨t, h1, h2⟩ := hl
  exact (bind_of_ok (childText_ok hreg hr hns h h1)).trans (parse_int h2)

theorem nat_ok {b : Pos} {strs : List String} {loc : List LocAtom} {n : Nat}
    (h : okAtoms strs loc = true) (hl : NumberAt F root b loc n) : (𝓛).nat b strs = .ok n := by
  have h1 : NumberAt F root b loc ((n : Int) : Rat) := by simpa using hl
  refine (bind_of_ok (number_ok hreg hr hns h h1)).trans ?_
  rw [if_pos (by simp)]
  simp

/-! ### Compu methods -/

theorem limit_ok {p : Pos} {tag : String} {o : Option Rat} (h : okAtoms [tag] [elem tag] = true)
    (hl : OptNumberAt F root p [elem tag] o) : ∃ t, (𝓛).readLimit p tag = .ok t ∧ LimitText F t o := by
  cases o with
  | none => exact ⟨none, bind_of_ok (optText_ok hreg hr hns (o := none) h hl), trivial⟩
  | some q =>
    obtain ⟨t, h1, h2⟩ := hl
    exact ⟨some t.toList, bind_of_ok (optText_ok hreg hr hns (o := some t) h h1), h2⟩

theorem readNamed_ok {p : Pos} {c : ScaleContent} {n : String} (h : ScaleAt F root p c) (hb : c.body = .name n) :
    (𝓛).readName p = .ok (some n) ∧ ∃ s, (𝓛).readNamed p (some n) = .ok s ∧ ScaleSays F s c := by
  cases h with
  | name hl hu hv =>
    obtain rfl := ScaleBody.name.inj hb
    obtain ⟨tl, h1, h2⟩ := limit_ok (F := F) hreg hr hns (by decide +kernel) hl
    obtain ⟨tu, h3, h4⟩ := limit_ok (F := F) hreg hr hns (by decide +kernel) hu
    refine ⟨optText_ok hreg hr hns (o := some _) (by decide +kernel) hv, _,
      (bind_of_ok h1).trans (bind_of_ok h3), .name h2 h4 rfl⟩
  | plain => cases hb
  | rational => cases hb

omit hreg hr hns in
theorem texts_ok {p : Pos} {q : Rat} (h : NumberIn F root p q) : ∃ t, (𝓛).text p = .ok t ∧ PlainNumber F t.toList q := by
  obtain ⟨x, t, h1, h2, h3⟩ := h
  exact ⟨t, text_of h1 h2, h3⟩

theorem readLinear_ok {p : Pos} {c : ScaleContent} {v0 v1 d : Rat} (h : ScaleAt F root p c) (hb : c.body = .linear v0 v1 d) :
    (𝓛).readName p = .ok none ∧ ∃ s, (𝓛).readLinear p = .ok s ∧ ScaleSays F s c := by
  cases h with
  | name => cases hb
  | plain hl hu hv hc =>
    obtain ⟨tl, h1, h2⟩ := limit_ok (F := F) hreg hr hns (by decide +kernel) hl
    obtain ⟨tu, h3, h4⟩ := limit_ok (F := F) hreg hr hns (by decide +kernel) hu
    have hcoe : (𝓛).readCoeffs p = .ok none := bind_of_ok (unique_ok hreg hr hns (by decide +kernel) hc)
    refine ⟨optText_ok hreg hr hns (o := none) (by decide +kernel) hv, _,
      (bind_of_ok hcoe).trans ((bind_of_ok h1).trans (bind_of_ok h3)), .plain h2 h4 rfl rfl⟩
  | @rational l u cp p0 p1 pd v0 v1 d hl hu hv hc hn hd k0 k1 k2 hne =>
    obtain ⟨tl, h1, h2⟩ := limit_ok (F := F) hreg hr hns (by decide +kernel) hl
    obtain ⟨tu, h3, h4⟩ := limit_ok (F := F) hreg hr hns (by decide +kernel) hu
    obtain ⟨t0, a0, b0⟩ := texts_ok (r := r) k0
    obtain ⟨t1, a1, b1⟩ := texts_ok (r := r) k1
    obtain ⟨td, a2, b2⟩ := texts_ok (r := r) k2
    have hcoe : (𝓛).readCoeffs p = .ok (some { numerators := [t0.toList, t1.toList], denominators := [td.toList] }) := by
      refine (bind_of_ok (unique_ok hreg hr hns (by decide +kernel) hc)).trans ?_
      refine (bind_of_ok (children_ok hreg hr hns (by decide +kernel) hn)).trans ?_
      refine (bind_of_ok (mapM_forall₂.2 (.cons a0 (.cons a1 .nil)))).trans ?_
      refine (bind_of_ok (children_ok hreg hr hns (by decide +kernel) hd)).trans ?_
      exact bind_of_ok (mapM_forall₂.2 (.cons a2 .nil))
    refine ⟨optText_ok hreg hr hns (o := none) (by decide +kernel) hv, _,
      (bind_of_ok hcoe).trans ((bind_of_ok h1).trans (bind_of_ok h3)), .rational h2 h4 rfl rfl b0 b1 b2 hne⟩

omit hreg hr hns in
theorem mapM_scales {α β γ : Type} {f : α → Except Err β} {R : β → γ → Prop} {ps : List α} {cs : List γ}
    {S : α → γ → Prop} (h : List.Forall₂ S ps cs) (hf : ∀ p c, S p c → c ∈ cs → ∃ s, f p = .ok s ∧ R s c) :
    ∃ ss, ps.mapM f = .ok ss ∧ List.Forall₂ R ss cs := by
  induction h with
  | nil => exact ⟨[], rfl, .nil⟩
  | @cons p c ps cs h1 h2 ih =>
    obtain ⟨s, h3, h4⟩ := hf p c h1 (by simp)
    obtain ⟨ss, h5, h6⟩ := ih fun p c h hm => hf p c h (by simp [hm])
    refine ⟨s :: ss, ?_, .cons h4 h6⟩
    rw [List.mapM_cons]
    exact (bind_of_ok h3).trans (bind_of_ok h5)

/-- What is read from a compu method. -/
theorem readCompuMethod_ok {p : Pos} {m : Option (ArxmlScale.Category × List ScaleContent)} (h : MethodSays F root p m) :
    ∃ cm, (𝓛).readCompuMethod p = .ok cm ∧
      (m = none → cm.category = none ∨ cm.category = some .other) ∧
      ∀ k cs, m = some (k, cs) → cm.category = some k ∧ List.Forall₂ (ScaleSays F) cm.scales cs ∧
        SupportedScales cs ∧ CategoryAllows k cs := by
  cases h with
  | missing h =>
    exact ⟨_, bind_of_ok (unique_ok hreg hr hns (by decide +kernel) h), fun _ => .inl rfl, nofun⟩
  | identical h =>
    obtain ⟨c, x, h1, h2, h3⟩ := h
    refine ⟨{ category := some .other, scales := [] },
      (bind_of_ok (unique_ok hreg hr hns (by decide +kernel) h1)).trans ?_, fun _ => .inr rfl, nofun⟩
    dsimp only
    rw [text?_of h2 h3]
    rfl
  | @scales t k ps cs h hk hl hs hsup hall =>
    obtain ⟨c, x, h1, h2, h3⟩ := h
    cases hk with
    | texttable =>
      have hch := children_ok (F := F) hreg hr hns (strs := ["&COMPU-INTERNAL-TO-PHYS", "COMPU-SCALES", "*&COMPU-SCALE"])
        (by decide +kernel) hl
      obtain ⟨ss, k1, k2⟩ := mapM_scales (f := fun s => do (𝓛).readNamed s (← (𝓛).readName s)) (R := ScaleSays F) hs
        (by
          intro p c hp hm
          obtain ⟨n, i, hb, -⟩ := hall c hm
          obtain ⟨j1, s, j2, j3⟩ := readNamed_ok (F := F) hreg hr hns hp hb
          exact ⟨s, (bind_of_ok j1).trans j2, j3⟩)
      refine ⟨{ category := some .texttable, scales := ss },
        (bind_of_ok (unique_ok hreg hr hns (by decide +kernel) h1)).trans ?_, nofun, ?_⟩
      · dsimp only
        rw [text?_of h2 h3]
        exact (bind_of_ok hch).trans (bind_of_ok k1)
      · intro k' cs' e
        cases e
        exact ⟨rfl, k2, hsup, hall⟩
    | linear =>
      have hch := children_ok (F := F) hreg hr hns (strs := ["COMPU-INTERNAL-TO-PHYS", "COMPU-SCALES", "&COMPU-SCALE"])
        (by decide +kernel) hl
      obtain ⟨ss, k1, k2⟩ := mapM_scales (f := (𝓛).readLinear) (R := ScaleSays F) hs
        (by
          intro p c hp hm
          obtain ⟨v0, v1, d, hb, -⟩ := hall.2 c hm
          obtain ⟨j1, s, j2, j3⟩ := readLinear_ok (F := F) hreg hr hns hp hb
          exact ⟨s, j2, j3⟩)
      refine ⟨{ category := some .linear, scales := ss },
        (bind_of_ok (unique_ok hreg hr hns (by decide +kernel) h1)).trans ?_, nofun, ?_⟩
      · dsimp only
        rw [text?_of h2 h3]
        exact (bind_of_ok hch).trans (bind_of_ok k1)
      · intro k' cs' e
        cases e
        exact ⟨rfl, k2, hsup, hall⟩
    | linearAndTexttable =>
      have hch := children_ok (F := F) hreg hr hns (strs := ["&COMPU-INTERNAL-TO-PHYS", "COMPU-SCALES", "*&COMPU-SCALE"])
        (by decide +kernel) hl
      obtain ⟨ss, k1, k2⟩ := mapM_scales (f := fun s => do
          match ← (𝓛).readName s with
          | some n => (𝓛).readNamed s (some n)
          | none => (𝓛).readLinear s) (R := ScaleSays F) hs
        (by
          intro p c hp hm
          rcases hsup.each c hm with ⟨n, i, hb, -⟩ | ⟨v0, v1, d, hb, -⟩
          · obtain ⟨j1, s, j2, j3⟩ := readNamed_ok (F := F) hreg hr hns hp hb
            exact ⟨s, (bind_of_ok j1).trans j2, j3⟩
          · obtain ⟨j1, s, j2, j3⟩ := readLinear_ok (F := F) hreg hr hns hp hb
            exact ⟨s, (bind_of_ok j1).trans j2, j3⟩)
      refine ⟨{ category := some .linearAndTexttable, scales := ss },
        (bind_of_ok (unique_ok hreg hr hns (by decide +kernel) h1)).trans ?_, nofun, ?_⟩
      · dsimp only
        rw [text?_of h2 h3]
        exact (bind_of_ok hch).trans (bind_of_ok k1)
      · intro k' cs' e
        cases e
        exact ⟨rfl, k2, hsup, hall⟩

/-! ### Signals -/

theorem unit_ok {s : Pos} {compu : Option Pos} {u : Option String} (h : UnitSays root s compu u) :
    (𝓛).loadUnit s compu = .ok u := by
  rcases h with ⟨t, h, rfl⟩ | ⟨rfl, h1, h2⟩
  · have key : ∀ p, (𝓛).text? p = some t →
        ((some p).bind (𝓛).text?).filter (fun t => decide (t ≠ "NoUnit")) = if t = "NoUnit" then none else some t := by
      intro p hp
      rw [Option.bind_some, hp]
      by_cases e : t = "NoUnit"
      · subst e; rfl
      · rw [if_neg e, Option.filter_some, if_pos (by simpa using e)]
    rcases h with ⟨p, x, h1, h2, h3⟩ | ⟨h0, c, rfl, p, x, h1, h2, h3⟩
    · refine (bind_of_ok (unique_ok hreg hr hns (by decide +kernel) h1)).trans ?_
      exact congrArg Except.ok (key p (text?_of h2 h3))
    · refine (bind_of_ok (unique_ok hreg hr hns (by decide +kernel) h0)).trans ?_
      refine (bind_of_ok (unique_ok hreg hr hns (by decide +kernel) h1)).trans ?_
      exact congrArg Except.ok (key p (text?_of h2 h3))
  · refine (bind_of_ok (unique_ok hreg hr hns (by decide +kernel) h1)).trans ?_
    cases compu with
    | none => rfl
    | some c => exact (bind_of_ok (unique_ok hreg hr hns (by decide +kernel) (h2 c rfl))).trans rfl

theorem type_ok {i : Pos} {sg fl : Bool} (h : TypeSays root i sg fl) : (𝓛).loadSignalType i = .ok (sg, fl) := by
  cases h with
  | default h => exact bind_of_ok (unique_ok hreg hr hns (by decide +kernel) h)
  | unsigned h he =>
    obtain ⟨p, x, h1, h2, h3⟩ := he
    refine (bind_of_ok (unique_ok hreg hr hns (by decide +kernel) h)).trans ?_
    refine (bind_of_ok (unique_ok hreg hr hns (by decide +kernel) h1)).trans ?_
    dsimp only
    rw [text?_of h2 h3]
    rfl
  | twosComplement h he =>
    obtain ⟨p, x, h1, h2, h3⟩ := he
    refine (bind_of_ok (unique_ok hreg hr hns (by decide +kernel) h)).trans ?_
    refine (bind_of_ok (unique_ok hreg hr hns (by decide +kernel) h1)).trans ?_
    dsimp only
    rw [text?_of h2 h3]
    rfl
  | ieee h he =>
    obtain ⟨p, x, h1, h2, h3⟩ := he
    refine (bind_of_ok (unique_ok hreg hr hns (by decide +kernel) h)).trans ?_
    refine (bind_of_ok (unique_ok hreg hr hns (by decide +kernel) h1)).trans ?_
    dsimp only
    rw [text?_of h2 h3]
    rfl

theorem byteOrder_ok {m : Pos} {o : ByteOrder} (h : OrderSays root m "PACKING-BYTE-ORDER" o) :
    (𝓛).loadByteOrder m = .ok o := by
  rcases h with ⟨h, rfl⟩ | ⟨h, rfl⟩ | ⟨h, rfl⟩
  · exact (bind_of_ok (compareText_ok hreg hr hns (o := none) (by decide +kernel) h)).trans rfl
  · exact (bind_of_ok (compareText_ok hreg hr hns (o := some _) (by decide +kernel) h)).trans rfl
  · exact (bind_of_ok (compareText_ok hreg hr hns (o := some _) (by decide +kernel) h)).trans rfl

omit hreg hr hns in
theorem parse_word {t : Chars} (h : Wording F t) : parseNumber F t false = .error .valueError := by
  obtain ⟨h1, h2, ⟨h3, h4⟩, h5⟩ := h
  have hsp : ∀ c ∈ t, Regex.isSpace c = false := by
    intro c hc
    obtain ⟨a, b⟩ := h2 c hc
    have a' : 97 ≤ c.toNat := a
    have b' : c.toNat ≤ 122 := b
    have hle : ∀ d e : Char, d ≤ e ↔ d.toNat ≤ e.toNat := fun d e => by
      rw [Char.le_def, UInt32.le_iff_toNat_le]; rfl
    have hne : c ≠ ' ' := by rintro rfl; revert a'; decide
    simp only [Regex.isSpace, Bool.or_eq_false_iff, decide_eq_false_iff_not, hle, beq_eq_false_iff_ne]
    refine ⟨⟨hne, fun hh => ?_⟩, fun hh => ?_⟩
    · have : c.toNat ≤ 13 := hh.2
      omega
    · have : c.toNat ≤ 31 := hh.2
      omega
  have hlow : t.map Char.toLower = t := by
    conv => rhs; rw [← List.map_id t]
    refine List.map_congr_left fun c hc => ?_
    obtain ⟨a, b⟩ := h2 c hc
    have a' : 97 ≤ c.toNat := a
    unfold Char.toLower
    rw [dif_neg]
    · rfl
    · rintro ⟨_, h⟩
      have : c.toNat ≤ 90 := h
      omega
  have hstrip : DecodeCommand.strip t = t := by
    have := ArxmlScale.strip_padded (a := []) (w := t) (b := []) (by simp) (fun c hc => hsp c (List.mem_of_head? hc))
      (fun c hc => hsp c (List.mem_of_getLast? hc))
    simpa using this
  unfold parseNumber
  rw [hstrip, hlow]
  dsimp only
  rw [if_neg h1]
  have hn : ArxmlScale.numberOf F t = .error .valueError := by
    unfold ArxmlScale.numberOf
    rw [if_neg h3, if_neg h4]
    cases t with
    | nil => exact absurd rfl h1
    | cons c r =>
      obtain ⟨a, b⟩ := h2 c (by simp)
      have a' : 97 ≤ c.toNat := a
      have ne : ∀ d : Char, d.toNat < 97 → c ≠ d := by rintro d hd rfl; omega
      have hd : ArxmlScale.digits 10 (c :: r) = none := by
        unfold ArxmlScale.digits ArxmlScale.digitOf
        dsimp only
        rw [if_neg (by rintro ⟨_, h⟩; have : c.toNat ≤ 57 := h; omega), if_pos ⟨a, b⟩]
        dsimp only [Option.filter]
        rw [if_neg (by simp; omega)]
        rfl
      have hi : ArxmlScale.intBase0 (c :: r) = none := by
        unfold ArxmlScale.intBase0
        split
        · rename_i e; injection e with e; exact absurd e (ne _ (by decide))
        · rename_i e; injection e with e; exact absurd e (ne _ (by decide))
        · unfold ArxmlScale.natBase0
          split
          all_goals first
            | (rename_i e; injection e with e; exact absurd e (ne _ (by decide)))
            | (rw [hd]; rfl)
      split
      · rename_i e; injection e with e; exact absurd e (ne _ (by decide))
      · rw [hi, h5]
        rfl
  rw [hn]
  rfl

theorem initial_ok {i : Pos} {o : Option Int} (h : InitialSays F root i o) :
    (𝓛).loadInitial i = .ok (o.map fun v : Int => (v : Rat)) := by
  have key : ∀ {t : String} {v : Int}, (𝓛).initText i = .ok (some t) → PlainNumber F t.toList v →
      (𝓛).loadInitial i = .ok (some (v : Rat)) := by
    intro t v h1 h2
    refine (bind_of_ok h1).trans ?_
    dsimp only
    rw [parse_int h2]
    rfl
  cases h with
  | none h h' =>
    have : (𝓛).initText i = .ok none :=
      (bind_of_ok (unique_ok hreg hr hns (by decide +kernel) h)).trans
        (compareText_ok hreg hr hns (o := none) (by decide +kernel) h')
    exact bind_of_ok this
  | direct h =>
    obtain ⟨t, ⟨p, x, h1, h2, h3⟩, h4⟩ := h
    refine key ((bind_of_ok (unique_ok hreg hr hns (by decide +kernel) h1)).trans ?_) h4
    exact congrArg Except.ok (text?_of h2 h3)
  | constant h h' =>
    obtain ⟨t, h1, h4⟩ := h'
    exact key ((bind_of_ok (unique_ok hreg hr hns (by decide +kernel) h)).trans
      (compareText_ok hreg hr hns (o := some _) (by decide +kernel) h1)) h4
  | @word t ht h =>
    obtain ⟨p, x, h1, h2, h3⟩ := h
    have : (𝓛).initText i = .ok (some t) :=
      (bind_of_ok (unique_ok hreg hr hns (by decide +kernel) h1)).trans (congrArg Except.ok (text?_of h2 h3))
    refine (bind_of_ok this).trans ?_
    dsimp only
    rw [parse_word ht]
    rfl

/-- A base type needs an encoding. -/
theorem type_error {i b : Pos} (h : At root i baseType (some b)) (he : At root b [ref "BASE-TYPE-ENCODING"] none) :
    (𝓛).loadSignalType i = .error .valueError :=
  (bind_of_ok (unique_ok hreg hr hns (by decide +kernel) h)).trans
    (bind_of_ok (unique_ok hreg hr hns (by decide +kernel) he))

theorem invalid_ok {i : Pos} {o : Option Int}
    (h : OptNumberAt F root i [elem "NETWORK-REPRESENTATION-PROPS", elem "SW-DATA-DEF-PROPS-VARIANTS",
      elem "SW-DATA-DEF-PROPS-CONDITIONAL", elem "INVALID-VALUE", elem "NUMERICAL-VALUE-SPECIFICATION", elem "VALUE"]
      (o.map fun v : Int => (v : Rat))) :
    (𝓛).loadInvalid i = .ok (o.map fun v : Int => (v : Rat)) := by
  cases o with
  | none => exact bind_of_ok (optText_ok hreg hr hns (o := none) (by decide +kernel) h)
  | some v =>
    obtain ⟨t, h1, h2⟩ := h
    exact (bind_of_ok (optText_ok hreg hr hns (o := some _) (by decide +kernel) h1)).trans (bind_of_ok (parse_int h2))

theorem signalName_ok {i : Pos} {n : String} (hn : TextAt root i [elem "SHORT-NAME"] n)
    (hl : ∃ o, At root i [ref "SYSTEM-SIGNAL", elem "SHORT-NAME"] o ∧
      ∀ p x, o = some p → at? root p = some x → x.children = []) :
    (𝓛).loadSignalName i = .ok n := by
  obtain ⟨o, h1, h2⟩ := hl
  refine (bind_of_ok (unique_ok hreg hr hns (by decide +kernel) h1)).trans ?_
  have hc := childText_ok (F := F) hreg hr hns (strs := ["SHORT-NAME"]) (by decide +kernel) hn
  cases o with
  | none => exact hc
  | some p =>
    dsimp only
    have : (((at? root p).map Xml.children).getD []).isEmpty = true := by
      cases hx : at? root p with
      | none => rfl
      | some x => simp [h2 p x rfl hx]
    rw [if_pos this]
    exact hc

/-- The scaling of a signal. -/
theorem scaling_ok {sys : Option Pos} {m : Option (ArxmlScale.Category × List ScaleContent)} {u : Option String}
    {fl : Bool} (h : SystemSays F root sys m u) (hfl : fl = true → ∀ k cs, m = some (k, cs) → k = .linear) :
    ∃ method S, (𝓛).readSystemSignal sys = .ok (method, u) ∧
      ArxmlScale.loadSignal F method fl = .ok S ∧
      Built S.conversion ∧ S.conversion.isFloat = fl ∧ (fl = true → S.conversion.choices = none) ∧
      (m = none → S.minimum = none ∧ S.maximum = none ∧ ∀ raw : Rat, S.conversion.rawToScaled raw true = .num raw) ∧
      (∀ k cs, m = some (k, cs) → ShowsScales cs S.conversion S.minimum S.maximum) ∧
      ∀ cs, m = some (.linear, cs) → ∀ c ∈ cs, ∀ v0 v1 den, c.body = .linear v0 v1 den →
        ∀ raw : Rat, S.conversion.rawToScaled raw true = .num ((v0 + v1 * raw) / den) := by
  have hbuilt : ∀ {method S}, ArxmlScale.loadSignal F method fl = .ok S → (fl = true →
      ∀ cm, method = some cm → cm.category ≠ some .texttable ∧ cm.category ≠ some .linearAndTexttable) →
      Built S.conversion ∧ S.conversion.isFloat = fl ∧ (fl = true → S.conversion.choices = none) := by
    intro method S hS hnc
    obtain ⟨⟨sc, ch⟩, h1, h2⟩ := bind_ok_iff.1 hS
    obtain rfl := Except.ok.inj h2
    refine ⟨⟨_, _, _, _, rfl⟩, ?_, fun hf => ?_⟩
    · dsimp only
      cases ch <;> exact (factory_scale _ _ _).2.2
    · have hch : ch = none := by
        cases method with
        | none => cases h1; rfl
        | some cm =>
          obtain ⟨n1, n2⟩ := hnc hf cm rfl
          unfold ArxmlScale.loadSystemSignal at h1
          dsimp only at h1
          cases hcat : cm.category with
          | none => rw [hcat] at h1; cases h1; rfl
          | some k =>
            rw [hcat] at h1
            cases k with
            | texttable => exact absurd hcat n1
            | linearAndTexttable => exact absurd hcat n2
            | linear =>
              obtain ⟨s, -, h4⟩ := bind_ok_iff.1 h1
              cases h4; rfl
            | other => cases h1; rfl
      subst hch
      rfl
  cases h with
  | none =>
    obtain ⟨S, hS, h1, h2, h3⟩ := C51_no_scaling F none fl nofun
    obtain ⟨b1, b2, b3⟩ := hbuilt hS nofun
    exact ⟨none, S, rfl, hS, b1, b2, b3, fun _ => ⟨h1, h2, h3⟩, nofun, nofun⟩
  | plain hc hu =>
    obtain ⟨S, hS, h1, h2, h3⟩ := C51_no_scaling F none fl nofun
    obtain ⟨b1, b2, b3⟩ := hbuilt hS nofun
    refine ⟨none, S, ?_, hS, b1, b2, b3, fun _ => ⟨h1, h2, h3⟩, nofun, nofun⟩
    refine (bind_of_ok (unique_ok hreg hr hns (by decide +kernel) hc)).trans ?_
    exact bind_of_ok (unit_ok hreg hr hns hu)
  | @method s c _ _ hc hm hu =>
    obtain ⟨cm, h1, h2, h3⟩ := readCompuMethod_ok hreg hr hns hm
    have hrun : (𝓛).readSystemSignal (some s) = .ok (some cm, u) := by
      refine (bind_of_ok (unique_ok hreg hr hns (by decide +kernel) hc)).trans ?_
      refine (bind_of_ok (unit_ok hreg hr hns hu)).trans ?_
      exact bind_of_ok (bind_of_ok h1)
    cases m with
    | none =>
      obtain ⟨S, hS, k1, k2, k3⟩ := C51_no_scaling F (some cm) fl (by intro m' e; cases e; exact h2 rfl)
      obtain ⟨b1, b2, b3⟩ := hbuilt hS (by
        intro _ m' e
        cases e
        rcases h2 rfl with e | e <;> rw [e] <;> exact ⟨nofun, nofun⟩)
      exact ⟨some cm, S, hrun, hS, b1, b2, b3, fun _ => ⟨k1, k2, k3⟩, nofun, nofun⟩
    | some kcs =>
      obtain ⟨k, cs⟩ := kcs
      obtain ⟨j1, j2, j3, j4⟩ := h3 k cs rfl
      obtain ⟨S, hS, k1, k2, k3, k4⟩ := C51_scales_partial F cm k fl cs j1 j2 j3 j4
      obtain ⟨b1, b2, b3⟩ := hbuilt hS (by
        intro hf m' e
        cases e
        obtain rfl := hfl hf k cs rfl
        rw [j1]
        exact ⟨nofun, nofun⟩)
      refine ⟨some cm, S, hrun, hS, b1, b2, b3, nofun, ?_, ?_⟩
      · intro k' cs' e
        cases e
        exact ⟨k1, k2, k3, k4⟩
      · intro cs' e
        cases e
        obtain ⟨S', hS', hl⟩ := C51_linear F cm fl cs j1 j2 j4
        rw [hS] at hS'
        rw [Except.ok.inj hS']
        exact hl

/-- A signal. -/
theorem loadSignal_ok {m i : Pos} {sys : Option Pos} {d : SignalContent} (h : SignalSays F root m i sys d) :
    ∃ s, (𝓛).loadSignal m = .ok (some { signal := s, unit := d.unit, rawInitial := d.initial.map fun v : Int => (v : Rat)
                                        rawInvalid := d.invalid.map fun v : Int => (v : Rat) }) ∧ SignalIs d s := by
  obtain ⟨method, S, h1, h2, b1, b2, b3, h3, h4, h5⟩ := scaling_ok (F := F) (fl := d.isFloat) hreg hr hns h.scales h.float
  refine ⟨{ name := d.name, start := d.start, length := d.length, byteOrder := d.order, isSigned := d.isSigned
            conversion := S.conversion, minimum := S.minimum, maximum := S.maximum }, ?_,
    ⟨rfl, rfl, rfl, rfl, rfl, b2, ⟨rfl, rfl, rfl, b1, fun hf => b3 (b2 ▸ hf)⟩, h3, h4, h5⟩⟩
  refine (bind_of_ok (unique_ok hreg hr hns (by decide +kernel) h.signal)).trans ?_
  refine (bind_of_ok (unique_ok hreg hr hns (by decide +kernel) h.system)).trans ?_
  have htag : (𝓛).isGroup sys = false := by
    unfold Loader.isGroup
    cases sys with
    | none => rfl
    | some s =>
      dsimp only [Option.bind_some]
      cases hx : at? root s with
      | none => rfl
      | some x => simp [h.isSignal s x rfl hx]
  dsimp only
  rw [htag]
  refine (bind_of_ok (signalName_ok hreg hr hns h.name h.leaf)).trans ?_
  refine (bind_of_ok (nat_ok hreg hr hns (by decide +kernel) h.start)).trans ?_
  refine (bind_of_ok (nat_ok hreg hr hns (by decide +kernel) h.length)).trans ?_
  refine (bind_of_ok (byteOrder_ok hreg hr hns h.order)).trans ?_
  refine (bind_of_ok (type_ok hreg hr hns h.type)).trans ?_
  refine (bind_of_ok h1).trans ?_
  refine (bind_of_ok h2).trans ?_
  refine (bind_of_ok (initial_ok hreg hr hns h.initial)).trans ?_
  exact bind_of_ok (invalid_ok hreg hr hns h.invalid)

theorem loadSignal_group {m : Pos} (h : GroupSays root m) : (𝓛).loadSignal m = .ok none := by
  rcases h with h | ⟨i, s, x, h1, h2, h3, h4⟩
  · exact bind_of_ok (unique_ok hreg hr hns (by decide +kernel) h)
  · refine (bind_of_ok (unique_ok hreg hr hns (by decide +kernel) h1)).trans ?_
    refine (bind_of_ok (unique_ok hreg hr hns (by decide +kernel) h2)).trans ?_
    have htag : (𝓛).isGroup (some s) = true := by
      unfold Loader.isGroup
      dsimp only [Option.bind_some]
      rw [h3]
      simp [h4]
    dsimp only
    rw [htag]
    rfl

/-! ### PDUs -/

theorem signals_ok {ms : List Pos} {ds : List SignalContent} (h : SignalsSay F root ms ds) :
    ∃ infos, ms.mapM (𝓛).loadSignal = .ok infos ∧
      List.Forall₂ SignalIs ds ((infos.filterMap id).map Loader.SignalInfo.signal) := by
  induction h with
  | nil => exact ⟨[], rfl, .nil⟩
  | group h _ ih =>
    obtain ⟨l, h1, h2⟩ := ih
    refine ⟨none :: l, ?_, h2⟩
    rw [List.mapM_cons]
    exact (bind_of_ok (loadSignal_group hreg hr hns h)).trans (bind_of_ok h1)
  | signal h _ ih =>
    obtain ⟨l, h1, h2⟩ := ih
    obtain ⟨info, h3, h4⟩ : ∃ info, (𝓛).loadSignal _ = .ok (some info) ∧ SignalIs _ info.signal :=
      have ⟨_, h3, h4⟩ := loadSignal_ok hreg hr hns h
      ⟨_, h3, h4⟩
    refine ⟨some info :: l, ?_, .cons h4 h2⟩
    rw [List.mapM_cons]
    exact (bind_of_ok h3).trans (bind_of_ok h1)

theorem pduSignals_ok {p : Pos} {ds : List SignalContent} (h : OwnSignals F root p ds) :
    ∃ infos, (𝓛).loadPduSignals p = .ok infos ∧ List.Forall₂ SignalIs ds (infos.map Loader.SignalInfo.signal) := by
  obtain ⟨a, b, h1, h2, h3⟩ := h
  obtain ⟨infos, h4, h5⟩ := signals_ok hreg hr hns h3
  refine ⟨_, ?_, h5⟩
  refine (bind_of_ok (children_ok hreg hr hns (by decide +kernel) h1)).trans ?_
  refine (bind_of_ok (children_ok hreg hr hns (by decide +kernel) h2)).trans ?_
  exact bind_of_ok h4

omit hreg hr hns in
theorem exists_of_child {b p : Pos} {a : LocAtom} (h : At root b [a] (some p)) : ∃ y, at? root b = some y := by
  unfold At at h
  generalize hl : (some p).toList = l at h
  cases h with
  | @step _ _ _ parts _ h hr =>
    generalize he : parts.flatten = l' at hr
    cases hr
    cases h with
    | @cons _ l0 _ ls h1 h2 =>
      cases h2
      obtain ⟨⟨is, -, hi, hf⟩, -⟩ := h1
      cases is with
      | nil =>
        cases hf
        simp [← hl] at he
      | cons i is =>
        obtain ⟨c, hc, -⟩ := (hi i).1 (by simp)
        exact ArxmlRef.at?_prefix (List.prefix_append b [i]) hc

omit hns in
theorem refPath_ok {b q p : Pos} {y : Xml} (hy : at? root b = some y) (h : RefLeads root b q p) :
    ∃ abs, (𝓛).refPath b q = .ok abs ∧ HasPath root p abs ∧
      ∀ x, at? root q = some x → ∀ d, x.attr? "DEST" = some d → ∃ z, at? root p = some z ∧ z.tag = d := by
  obtain ⟨x, t, h1, h2, abs, h3, h4, h5⟩ := h
  have ⟨ha, hi⟩ := ArxmlRef.of_ok hreg hr
  refine ⟨abs, ?_, h4, fun x' hx' d hd => ?_⟩
  · refine (bind_of_ok (text_of h1 h2)).trans ?_
    dsimp only
    rw [h1]
    exact ((ArxmlRef.absolutePath_says hreg hi ha hy _ _).1 abs).2 h3
  · rw [h1] at hx'
    cases hx'
    exact h5 d hd

theorem altPdu_ok {a p : Pos} {code : Int} {initial : Bool} (h : AltSays F root a code initial p) :
    (𝓛).altPdu a = .ok (code, p) ∧ (𝓛).altInitial a = .ok initial := by
  constructor
  · obtain ⟨q, h1, h2⟩ := h.pdu
    obtain ⟨y, hy⟩ := exists_of_child h1
    obtain ⟨abs, h3, -⟩ := refPath_ok (F := F) hreg hr hy h2
    refine (bind_of_ok (number_ok hreg hr hns (by decide +kernel) h.code)).trans ?_
    refine (bind_of_ok (unique_ok hreg hr hns (by decide +kernel) h.only)).trans ?_
    refine (bind_of_ok (unique_ok hreg hr hns (by decide +kernel) h1)).trans ?_
    refine (bind_of_ok h3).trans ?_
    simp
    rfl
  · rcases h.initial with ⟨rfl, hi⟩ | ⟨rfl, hi⟩ | ⟨rfl, hi⟩
    · exact (bind_of_ok (compareText_ok hreg hr hns (o := some _) (by decide +kernel) hi)).trans rfl
    · exact (bind_of_ok (compareText_ok hreg hr hns (o := some _) (by decide +kernel) hi)).trans rfl
    · exact (bind_of_ok (compareText_ok hreg hr hns (o := none) (by decide +kernel) hi)).trans rfl

omit hreg hr hns in
theorem path_slash {p : Pos} {abs : Chars} (h : HasPath root p abs) : abs.head? = some '/' := by
  obtain ⟨x, h1, h2, rfl⟩ := h
  obtain ⟨l, h3⟩ := ArxmlRef.namesTo_last h1
  rw [h3]
  cases l with
  | cons => rfl
  | nil =>
    cases hs : shortName x with
    | nil => exact absurd hs h2
    | cons => rfl

omit hns in
theorem staticPdu_ok {b q p : Pos} {y : Xml} (hy : at? root b = some y) (h : RefLeads root b q p) :
    (𝓛).staticPdu b q = .ok p := by
  obtain ⟨x, t, hx, -⟩ := id h
  obtain ⟨abs, h1, h2, h3⟩ := refPath_ok (F := F) hreg hr hy h
  refine (bind_of_ok h1).trans ?_
  have : follow root r b abs ((at? root q).bind fun x => x.attr? "DEST") none = .ok (some p) := by
    refine ((C53_follow hreg hr hy _ _ _).1 p).2 ⟨abs, ?_, h2, ?_⟩
    · unfold AbsoluteText
      rw [if_pos (path_slash h2)]
    · rw [hx]
      exact h3 x hx
  exact bind_of_ok this

theorem selectorOrder_ok {p : Pos} {o : ByteOrder} (h : OrderSays root p "SELECTOR-FIELD-BYTE-ORDER" o) :
    (𝓛).selectorOrder p = .ok o := by
  rcases h with ⟨h, rfl⟩ | ⟨⟨q, x, h1, h2, h3⟩, rfl⟩ | ⟨⟨q, x, h1, h2, h3⟩, rfl⟩
  · exact bind_of_ok (unique_ok hreg hr hns (by decide +kernel) h)
  · refine (bind_of_ok (unique_ok hreg hr hns (by decide +kernel) h1)).trans ?_
    dsimp only
    rw [text?_of h2 h3]
    rfl
  · refine (bind_of_ok (unique_ok hreg hr hns (by decide +kernel) h1)).trans ?_
    dsimp only
    rw [text?_of h2 h3]
    rfl

omit hreg hr hns in
theorem tag_of {p : Pos} {t : String} (h : HasTag root p t) : (at? root p).map Xml.tag = some t := by
  obtain ⟨x, h1, h2⟩ := h
  rw [h1, ← h2]
  rfl

mutual
/-- The signals of a PDU are those of its tree. -/
theorem pdu_ok : (c : PduContent) → {p : Pos} → PduSays F root c p →
    ∃ pdu, PduIs c pdu ∧ ∀ frame fuel idx, c.depth ≤ fuel →
      (𝓛).loadPdu frame fuel p idx = Arxml.loadPdu frame pdu idx
  | .plain ds, p, h => by
    simp only [PduSays] at h
    obtain ⟨⟨t, h1, n1, n2, n3⟩, h2⟩ := h
    obtain ⟨infos, h3, h4⟩ := pduSignals_ok hreg hr hns h2
    refine ⟨.plain (infos.map Loader.SignalInfo.signal), by simpa only [PduIs] using h4, fun frame fuel idx hd => ?_⟩
    cases fuel with
    | zero => simp [PduContent.depth] at hd
    | succ fuel =>
      unfold Loader.loadPdu Arxml.loadPdu
      dsimp only
      rw [tag_of h1, if_neg (by simpa using n1), if_neg (by simpa using n2)]
      refine (bind_of_ok h3).trans ?_
      rw [if_neg (by simpa using n3)]
      rfl
  | .secured c, p, h => by
    simp only [PduSays] at h
    obtain ⟨h1, q, h2, h3⟩ := h
    obtain ⟨pdu, h4, h5⟩ := pdu_ok c h3
    refine ⟨.secured pdu, by simpa only [PduIs] using h4, fun frame fuel idx hd => ?_⟩
    cases fuel with
    | zero => simp [PduContent.depth] at hd
    | succ fuel =>
      unfold Loader.loadPdu Arxml.loadPdu
      dsimp only
      rw [tag_of h1, if_neg (by decide +kernel), if_pos rfl]
      refine (bind_of_ok (unique_ok hreg hr hns (by decide +kernel) h2)).trans ?_
      exact h5 frame fuel idx (by simpa [PduContent.depth] using hd)
  | .multiplexed ds pos len order alts statics, p, h => by
    simp only [PduSays] at h
    obtain ⟨h1, h2, h3, h4, h5, ⟨as, h6, h7⟩, rs, h8, h9⟩ := h
    obtain ⟨infos, k1, k2⟩ := pduSignals_ok hreg hr hns h2
    obtain ⟨alts', k3, k4⟩ := alts_ok alts h7
    obtain ⟨y, hy, -⟩ := id h1
    obtain ⟨statics', k5, k6⟩ := statics_ok statics hy h9
    refine ⟨.multiplexed (infos.map Loader.SignalInfo.signal) pos len order alts' statics',
      by simpa only [PduIs, true_and] using ⟨k2, k3, k5⟩, fun frame fuel idx hd => ?_⟩
    cases fuel with
    | zero => simp [PduContent.depth] at hd
    | succ fuel =>
      have hd' : alts.depth ≤ fuel ∧ statics.depth ≤ fuel := by simpa [PduContent.depth] using hd
      unfold Loader.loadPdu Arxml.loadPdu
      dsimp only
      rw [tag_of h1, if_neg (by decide +kernel), if_neg (by decide +kernel)]
      refine (bind_of_ok k1).trans ?_
      rw [if_pos rfl]
      refine (bind_of_ok (nat_ok hreg hr hns (by decide +kernel) h3)).trans ?_
      refine (bind_of_ok (nat_ok hreg hr hns (by decide +kernel) h4)).trans ?_
      refine (bind_of_ok (selectorOrder_ok hreg hr hns h5)).trans ?_
      refine (bind_of_ok (children_ok hreg hr hns (by decide +kernel) h6)).trans ?_
      rw [k4 frame fuel _ pos len _ hd'.1]
      congr 1
      funext st
      refine (bind_of_ok (children_ok hreg hr hns (by decide +kernel) h8)).trans ?_
      rw [← k6 frame fuel (st.idx, []) hd'.2]
      cases rs.foldlM ((𝓛).staticStep (fun p i => (𝓛).loadPdu frame fuel p i) p) (st.idx, []) <;> rfl
theorem alts_ok : (as : AltContents) → {ps : List Pos} → AltsSay F root as ps →
    ∃ alts, AltsAre as alts ∧ ∀ frame fuel name pos len st, as.depth ≤ fuel →
      ps.foldlM ((𝓛).altStep (fun p i => (𝓛).loadPdu frame fuel p i) name pos len) st =
        Arxml.loadAlts frame name pos len alts st
  | .nil, ps, h => by
    simp only [AltsSay] at h
    subst h
    refine ⟨.nil, by simp only [AltsAre], fun frame fuel name pos len st _ => ?_⟩
    unfold Arxml.loadAlts
    rfl
  | .cons code initial c rest, ps, h => by
    simp only [AltsSay] at h
    obtain ⟨a, as', rfl, ⟨p, h1, h2⟩, h3⟩ := h
    obtain ⟨pdu, k1, k2⟩ := pdu_ok c h2
    obtain ⟨alts, k3, k4⟩ := alts_ok rest h3
    obtain ⟨k5, k6⟩ := altPdu_ok hreg hr hns h1
    refine ⟨.cons code initial pdu alts, by simpa only [AltsAre, true_and] using ⟨k1, k3⟩,
      fun frame fuel name pos len st hd => ?_⟩
    have hd' : c.depth ≤ fuel ∧ rest.depth ≤ fuel := by simpa [AltContents.depth] using hd
    rw [List.foldlM_cons]
    unfold Arxml.loadAlts
    have hstep : (𝓛).altStep (fun p i => (𝓛).loadPdu frame fuel p i) name pos len st a = (do
        let loaded ← Arxml.loadPdu frame pdu st.idx
        Arxml.addAlternative name pos len code initial st loaded) := by
      unfold Loader.altStep
      refine (bind_of_ok k5).trans ?_
      dsimp only
      rw [k2 frame fuel st.idx hd'.1]
      congr 1
      funext loaded
      exact bind_of_ok k6
    rw [hstep]
    cases Arxml.loadPdu frame pdu st.idx with
    | error e => rfl
    | ok loaded =>
      dsimp only [bind, Except.bind]
      cases Arxml.addAlternative name pos len code initial st loaded with
      | error e => rfl
      | ok st' => exact k4 frame fuel name pos len st' hd'.2
theorem statics_ok : (cs : PduContents) → {b : Pos} → {rs : List Pos} → {y : Xml} → at? root b = some y →
    StaticsSay F root b cs rs →
    ∃ statics, PdusAre cs statics ∧ ∀ frame fuel acc, cs.depth ≤ fuel →
      (Prod.snd <$> rs.foldlM ((𝓛).staticStep (fun p i => (𝓛).loadPdu frame fuel p i) b) acc) =
        Arxml.loadStatics frame statics acc.1 acc.2
  | .nil, b, rs, y, hy, h => by
    simp only [StaticsSay] at h
    subst h
    refine ⟨.nil, by simp only [PdusAre], fun frame fuel acc _ => ?_⟩
    unfold Arxml.loadStatics
    rfl
  | .cons c rest, b, rs, y, hy, h => by
    simp only [StaticsSay] at h
    obtain ⟨q, rs', rfl, ⟨p, h1, h2⟩, h3⟩ := h
    obtain ⟨pdu, k1, k2⟩ := pdu_ok c h2
    obtain ⟨statics, k3, k4⟩ := statics_ok rest hy h3
    have k5 := staticPdu_ok (F := F) hreg hr hy h1
    refine ⟨.cons pdu statics, by simpa only [PdusAre] using ⟨k1, k3⟩, fun frame fuel acc hd => ?_⟩
    have hd' : c.depth ≤ fuel ∧ rest.depth ≤ fuel := by simpa [PduContents.depth] using hd
    rw [List.foldlM_cons]
    unfold Arxml.loadStatics
    have hstep : (𝓛).staticStep (fun p i => (𝓛).loadPdu frame fuel p i) b acc q = (do
        let (i, sigs) ← Arxml.loadPdu frame pdu acc.1
        pure (i, acc.2 ++ sigs)) := by
      unfold Loader.staticStep
      refine (bind_of_ok k5).trans ?_
      dsimp only
      rw [k2 frame fuel acc.1 hd'.1]
    rw [hstep]
    cases Arxml.loadPdu frame pdu acc.1 with
    | error e => rfl
    | ok loaded => exact k4 frame fuel (loaded.1, acc.2 ++ loaded.2) hd'.2
end

/-! ### Protection -/

theorem optNat_ok {b : Pos} {strs : List String} {loc : List LocAtom} {o : Option Nat}
    (h : okAtoms strs loc = true) (hl : OptNumberAt F root b loc (o.map fun n : Nat => (n : Rat))) :
    (𝓛).optNat b strs = .ok o := by
  cases o with
  | none => exact bind_of_ok (optText_ok hreg hr hns (o := none) h hl)
  | some n =>
    obtain ⟨t, h1, h2⟩ := hl
    refine (bind_of_ok (optText_ok hreg hr hns (o := some t) h h1)).trans ?_
    have h2' : PlainNumber F t.toList (((n : Int) : Rat)) := by simpa using h2
    refine (bind_of_ok (parse_int h2')).trans ?_
    rw [if_pos ⟨Rat.den_intCast _, by rw [Rat.num_intCast]; omega⟩, Rat.num_intCast]
    rfl

theorem optInt_ok {b : Pos} {strs : List String} {loc : List LocAtom} {o : Option Int}
    (h : okAtoms strs loc = true) (hl : OptNumberAt F root b loc (o.map fun n : Int => (n : Rat))) :
    (𝓛).optInt b strs = .ok o := by
  cases o with
  | none => exact bind_of_ok (optText_ok hreg hr hns (o := none) h hl)
  | some n =>
    obtain ⟨t, h1, h2⟩ := hl
    refine (bind_of_ok (optText_ok hreg hr hns (o := some t) h h1)).trans ?_
    refine (bind_of_ok (parse_int h2)).trans ?_
    rw [Rat.num_intCast]
    rfl

theorem at_unique (F : FloatRead) {b : Pos} {strs : List String} {loc : List LocAtom} {o o' : Option Pos}
    (h : okAtoms strs loc = true) (h1 : At root b loc o) (h2 : At root b loc o') : o = o' :=
  Except.ok.inj ((unique_ok (F := F) hreg hr hns h h1).symm.trans (unique_ok hreg hr hns h h2))

omit hreg hr hns in
theorem numbersIn_ok {ps : List Pos} {is : List Int} (h : List.Forall₂ (fun p (i : Int) => NumberIn F root p i) ps is) :
    ps.mapM (𝓛).numberIn = .ok is := by
  rw [mapM_forall₂]
  refine h.imp ?_
  intro p i hi
  obtain ⟨t, h1, h2⟩ := texts_ok hi
  refine (bind_of_ok h1).trans ((bind_of_ok (parse_int h2)).trans ?_)
  rw [Rat.num_intCast]
  rfl

theorem groupE2e_ok {p : Pos} {n : Nat} {e : Option Loader.EndToEnd} (hl : NumberAt F root p [elem "LENGTH"] n)
    (h : GroupE2eSays F root p e) : (𝓛).loadGroupE2e p = .ok e := by
  have hn := nat_ok hreg hr hns (strs := ["LENGTH"]) (by decide +kernel) hl
  cases h with
  | noGroup h =>
    refine (bind_of_ok hn).trans ?_
    exact bind_of_ok (children_ok hreg hr hns (by decide +kernel) h)
  | @noProtection gs g h hp =>
    refine (bind_of_ok hn).trans ?_
    refine (bind_of_ok (children_ok hreg hr hns (by decide +kernel) h)).trans ?_
    rw [List.getLast?_concat]
    exact bind_of_ok (unique_ok hreg hr hns (by decide +kernel) hp)
  | @protection gs g t ps e h hp hc hd hi hl' =>
    have hn := nat_ok hreg hr hns (strs := ["LENGTH"]) (by decide +kernel) hl'
    refine (bind_of_ok hn).trans ?_
    refine (bind_of_ok (children_ok hreg hr hns (by decide +kernel) h)).trans ?_
    rw [List.getLast?_concat]
    refine (bind_of_ok (unique_ok hreg hr hns (by decide +kernel) hp)).trans ?_
    refine (bind_of_ok (compareText_ok hreg hr hns (by decide +kernel) hc)).trans ?_
    refine (bind_of_ok (children_ok hreg hr hns (by decide +kernel) hd)).trans ?_
    exact bind_of_ok (numbersIn_ok hi)

theorem secured_ok {p q : Pos} {s : Loader.SecOC} {own e : Option Loader.EndToEnd} (h : SecuredSays F root p q s)
    (he : (own = e ∧ e.isSome = true) ∨ (own = none ∧ GroupE2eSays F root q e)) : (𝓛).loadSecured p own = .ok (s, e) := by
  refine (bind_of_ok (unique_ok hreg hr hns (by decide +kernel) h.payload)).trans ?_
  refine (bind_of_ok (nat_ok hreg hr hns (by decide +kernel) h.payloadLength)).trans ?_
  have h1 : (𝓛).payloadE2e q own = .ok e := by
    rcases he with ⟨rfl, he⟩ | ⟨rfl, he⟩
    · obtain ⟨x, rfl⟩ := Option.isSome_iff_exists.1 he
      rfl
    · exact groupE2e_ok hreg hr hns h.payloadLength he
  refine (bind_of_ok h1).trans ?_
  refine (bind_of_ok (compareText_ok hreg hr hns (by decide +kernel) h.authAlgorithm)).trans ?_
  refine (bind_of_ok (compareText_ok hreg hr hns (by decide +kernel) h.freshnessAlgorithm)).trans ?_
  refine (bind_of_ok (optInt_ok hreg hr hns (by decide +kernel) h.dataId)).trans ?_
  refine (bind_of_ok (optNat_ok hreg hr hns (by decide +kernel) h.authTxBits)).trans ?_
  refine (bind_of_ok (optNat_ok hreg hr hns (by decide +kernel) h.freshnessBits)).trans ?_
  exact bind_of_ok (optNat_ok hreg hr hns (by decide +kernel) h.freshnessTxBits)

theorem protection_ok {p : Pos} {n : Nat} {s : Option Loader.SecOC} {e : Option Loader.EndToEnd}
    (hl : NumberAt F root p [elem "LENGTH"] n) (h : ProtectionSays F root p s e) :
    (𝓛).loadProtection p = .ok (s, e) := by
  cases h with
  | @plain t _ h ht he =>
    refine (bind_of_ok (groupE2e_ok hreg hr hns hl he)).trans ?_
    rw [tag_of h, if_neg (by simpa using ht)]
    rfl
  | own h hs he =>
    refine (bind_of_ok (groupE2e_ok hreg hr hns hl he)).trans ?_
    rw [tag_of h, if_pos rfl]
    exact bind_of_ok (secured_ok hreg hr hns hs (.inl ⟨rfl, rfl⟩))
  | payload h hs hn he =>
    refine (bind_of_ok (groupE2e_ok hreg hr hns hl hn)).trans ?_
    rw [tag_of h, if_pos rfl]
    exact bind_of_ok (secured_ok hreg hr hns hs (.inr ⟨rfl, he⟩))

theorem pattern_ok {p : Pos} {pattern : Int} (h : PatternSays F root p pattern) : (𝓛).loadPattern p = .ok pattern := by
  rcases h with ⟨t, a1, a2⟩ | ⟨a1, rfl⟩
  · refine (bind_of_ok (optText_ok hreg hr hns (o := some t) (by decide +kernel) a1)).trans ?_
    refine (bind_of_ok (parse_int a2)).trans ?_
    rw [Rat.num_intCast]
    rfl
  · exact bind_of_ok (optText_ok hreg hr hns (o := none) (by decide +kernel) a1)

/-! ### Containers -/

/-- What is loaded for a message in a container. -/
def partInfo (frame : String) (d : PartContent) (u : Arxml.Pdu) : Except Err Loader.PartInfo := do
  let signals ← Arxml.loadFrameSignals frame d.name u d.trailer
  pure { headerId := d.headerId, name := d.name, length := d.length, unusedBitPattern := d.pattern, signals := signals
         secoc := d.secoc, e2e := d.e2e }

omit hreg hr hns in
theorem loadPdu_idx {frame : String} : ∀ (p : Arxml.Pdu) {i j : Nat} {L : List Signal},
    Arxml.loadPdu frame p i = .ok (j, L) → j = i
  | .plain _, i, j, L, h => by
    unfold Arxml.loadPdu at h
    exact (Prod.mk.inj (Except.ok.inj h)).1.symm
  | .secured p, i, j, L, h => by
    unfold Arxml.loadPdu at h
    exact loadPdu_idx p h
  | .multiplexed .., i, j, L, h => by
    unfold Arxml.loadPdu at h
    obtain ⟨_, -, h⟩ := bind_ok_iff.1 h
    obtain ⟨_, -, h⟩ := bind_ok_iff.1 h
    exact (Prod.mk.inj (Except.ok.inj h)).1.symm

theorem partStep_ok {frame : String} {p : Pos} {d : PartContent} (h : PartSays F root p d) :
    ∃ u, PduIs d.pdu u ∧ ∀ fuel acc, d.pdu.depth ≤ fuel →
      (𝓛).partStep frame fuel (1, acc) p = (partInfo frame d u >>= fun x => pure (1, acc ++ [x])) := by
  obtain ⟨u, j1, j2⟩ := pdu_ok hreg hr hns d.pdu h.pdu
  refine ⟨u, j1, fun fuel acc hd => ?_⟩
  unfold Loader.partStep
  refine (bind_of_ok (childText_ok hreg hr hns (by decide +kernel) h.name)).trans ?_
  refine (bind_of_ok (nat_ok hreg hr hns (by decide +kernel) h.length)).trans ?_
  refine (bind_of_ok (nat_ok hreg hr hns (by decide +kernel) h.headerId)).trans ?_
  refine (bind_of_ok (pattern_ok hreg hr hns h.pattern)).trans ?_
  dsimp only
  rw [j2 frame fuel 1 hd]
  unfold partInfo Arxml.loadFrameSignals
  cases hl : Arxml.loadPdu frame u 1 with
  | error e => rfl
  | ok l =>
    obtain ⟨i, L⟩ := l
    obtain rfl := loadPdu_idx u hl
    refine (bind_of_ok (protection_ok hreg hr hns h.length h.protection)).trans ?_
    dsimp only
    rw [show d.secoc.map Loader.SecOC.trailer = d.trailer from rfl]
    dsimp only [bind, Except.bind]
    cases Arxml.trailerSignals d.name d.trailer <;> rfl

theorem parts_ok {frame : String} {ps : List Pos} {ds : List PartContent} (h : List.Forall₂ (PartSays F root) ps ds) :
    ∃ us, List.Forall₂ (fun d u => PduIs (PartContent.pdu d) u) ds us ∧ ∀ fuel acc, (∀ d ∈ ds, d.pdu.depth ≤ fuel) →
      ps.foldlM ((𝓛).partStep frame fuel) (1, acc) =
        ((ds.zip us).mapM fun p => partInfo frame p.1 p.2) >>= fun l => pure (1, acc ++ l) := by
  induction h with
  | nil => exact ⟨[], .nil, fun fuel acc _ => congrArg Except.ok (congrArg (Prod.mk 1) (List.append_nil acc).symm)⟩
  | @cons p d ps ds h _ ih =>
    obtain ⟨u, h1, h2⟩ := partStep_ok hreg hr hns (frame := frame) h
    obtain ⟨us, h3, h4⟩ := ih
    refine ⟨u :: us, .cons h1 h3, fun fuel acc hd => ?_⟩
    rw [List.foldlM_cons, h2 fuel acc (hd d (by simp)), List.zip_cons_cons, List.mapM_cons]
    cases partInfo frame d u with
    | error e => rfl
    | ok x =>
      refine (h4 fuel (acc ++ [x]) fun d hm => hd d (by simp [hm])).trans ?_
      show _ = (((ds.zip us).mapM fun p => partInfo frame p.1 p.2) >>= fun l => pure (x :: l)) >>= fun l =>
        pure (1, acc ++ l)
      cases ((ds.zip us).mapM fun p => partInfo frame p.1 p.2) with
      | error e => rfl
      | ok l =>
        show Except.ok (1, acc ++ [x] ++ l) = Except.ok (1, acc ++ x :: l)
        rw [List.append_assoc]
        rfl

theorem contained_ok {frame : String} {p : Pos} {n : Nat} {ds : List PartContent}
    (hl : NumberAt F root p [elem "LENGTH"] n) (h : ContainerSays F root p ds) :
    ∃ us, List.Forall₂ (fun d u => PduIs (PartContent.pdu d) u) ds us ∧ ∀ fuel, (∀ d ∈ ds, d.pdu.depth ≤ fuel) →
      (𝓛).loadContained frame fuel p 1 = (ds.zip us).mapM fun p => partInfo frame p.1 p.2 := by
  have hn := nat_ok hreg hr hns (strs := ["LENGTH"]) (by decide +kernel) hl
  cases h with
  | other h ht =>
    obtain ⟨q, x, h1, h2, h3⟩ := h
    refine ⟨[], .nil, fun fuel _ => ?_⟩
    refine (bind_of_ok hn).trans ?_
    refine (bind_of_ok (unique_ok hreg hr hns (strs := ["HEADER-TYPE"]) (by decide +kernel) h1)).trans ?_
    dsimp only
    rw [text?_of h2 h3, if_pos (by simpa using ht)]
    rfl
  | short h hp hs =>
    obtain ⟨us, k1, k2⟩ := parts_ok hreg hr hns (frame := frame) hs
    refine ⟨us, k1, fun fuel hd => ?_⟩
    refine (bind_of_ok hn).trans ?_
    obtain ⟨q, x, h1, h2, h3⟩ := h
    refine (bind_of_ok (unique_ok hreg hr hns (strs := ["HEADER-TYPE"]) (by decide +kernel) h1)).trans ?_
    dsimp only
    rw [text?_of h2 h3, if_neg (by simp)]
    refine (bind_of_ok (children_ok hreg hr hns (by decide +kernel) hp)).trans ?_
    rw [k2 fuel [] hd]
    cases ((ds.zip us).mapM fun p => partInfo frame p.1 p.2) <;> rfl

/-! ### Frames -/

/-- The signals of a frame. -/
def frameSignals (d : FrameContent) : Option Arxml.Pdu → Except Err (List Signal)
  | none => pure []
  | some p => Arxml.loadFrameSignals d.name d.name p d.trailer

/-- The PDUs of cantools of a frame. -/
def FramePdus (d : FrameContent) (o : Option Arxml.Pdu × List Arxml.Pdu) : Prop :=
  FramePduIs d.pdu o.1 ∧ List.Forall₂ (fun d u => PduIs (PartContent.pdu d) u) d.contained o.2

/-- What is loaded for a frame. -/
def frameInfo (d : FrameContent) (o : Option Arxml.Pdu × List Arxml.Pdu) : Except Err Loader.FrameInfo := do
  let parts ← (d.contained.zip o.2).mapM fun p => partInfo d.name p.1 p.2
  let signals ← frameSignals d o.1
  pure { bus := d.bus, frameId := d.frameId, isExtended := d.isExtended, isFd := d.isFd, name := d.name
         length := d.length, unusedBitPattern := d.patternNumber, signals := signals, secoc := d.secoc, e2e := d.e2e
         contained := parts }

omit hreg hr hns in
theorem part_depth {d : FrameContent} {n : Nat} (h : d.depth ≤ n + 1) : ∀ c ∈ d.contained, c.pdu.depth ≤ n := by
  have h : (d.contained.map fun c => c.pdu.depth + 1).foldr max 0 ≤ n + 1 := (Nat.le_max_right _ _).trans h
  revert h
  generalize d.contained = l
  intro h
  induction l with
  | nil => intro c hc; cases hc
  | cons a l ih =>
    rw [List.map_cons, List.foldr_cons] at h
    intro c hc
    rcases List.mem_cons.1 hc with rfl | hc
    · have := (Nat.le_max_left _ _).trans h
      omega
    · exact ih ((Nat.le_max_right _ _).trans h) c hc

theorem frame_ok {trig : String × Pos} {d : FrameContent} (h : FrameSays F root trig d) :
    ∃ o, FramePdus d o ∧ ∀ fuel, d.depth ≤ fuel → (𝓛).loadFrame fuel trig.1 trig.2 = frameInfo d o := by
  obtain ⟨hb, f, h1, h2, ⟨oe, h3, h3'⟩, ⟨rx, tx, h4, h5, h6⟩, h7, h8, h9, h10⟩ := h
  have hext : decide (oe = some "EXTENDED") = d.isExtended := by
    rw [Bool.eq_iff_iff, decide_eq_true_iff]; exact h3'.symm
  have hfd : decide (rx = some "CAN-FD" ∨ tx = some "CAN-FD") = d.isFd := by
    rw [Bool.eq_iff_iff, decide_eq_true_iff]; exact h6.symm
  have hstart : ∀ fuel, (𝓛).loadFrame fuel trig.1 trig.2 = (do
      match ← (𝓛).framePdu f with
      | none =>
        pure { bus := d.bus, frameId := d.frameId, isExtended := d.isExtended, isFd := d.isFd, name := d.name
               length := d.length, unusedBitPattern := 0xff, signals := [], secoc := none, e2e := none
               contained := [] }
      | some pdu =>
        let _ ← (𝓛).framePduPath f
        let (signals, contained) ← (𝓛).loadTop d.name fuel pdu 1
        let (secoc, e2e) ← (𝓛).loadProtection pdu
        let trailer ← Arxml.trailerSignals d.name (secoc.map Loader.SecOC.trailer)
        let pattern ← (𝓛).loadPattern pdu
        pure { bus := d.bus, frameId := d.frameId, isExtended := d.isExtended, isFd := d.isFd, name := d.name
               length := d.length, unusedBitPattern := pattern, signals := signals ++ trailer, secoc := secoc
               e2e := e2e, contained := contained }) := by
    intro fuel
    unfold Loader.loadFrame
    refine (bind_of_ok (unique_ok hreg hr hns (by decide +kernel) h1)).trans ?_
    refine (bind_of_ok (childText_ok hreg hr hns (by decide +kernel) h7)).trans ?_
    refine (bind_of_ok (number_ok hreg hr hns (by decide +kernel) h2)).trans ?_
    refine (bind_of_ok (nat_ok hreg hr hns (by decide +kernel) h8)).trans ?_
    refine (bind_of_ok (compareText_ok hreg hr hns (by decide +kernel) h3)).trans ?_
    refine (bind_of_ok (compareText_ok hreg hr hns (by decide +kernel) h4)).trans ?_
    refine (bind_of_ok (compareText_ok hreg hr hns (by decide +kernel) h5)).trans ?_
    dsimp only
    rw [hext, hfd, hb, Rat.num_intCast]
    rfl
  generalize hpdu : d.pdu = dp at h9
  generalize hparts : d.contained = parts at h9
  have hpath : ∀ {p q : Pos}, At root f [elem "PDU-TO-FRAME-MAPPINGS", ref "PDU-TO-FRAME-MAPPING", elem "PDU-REF"] (some q) →
      RefLeads root q q p → ∃ o, (𝓛).framePduPath f = .ok o := by
    intro p q k1 k2
    obtain ⟨x, t, hx, -⟩ := id k2
    obtain ⟨abs, h, -⟩ := refPath_ok (F := F) hreg hr hx k2
    exact ⟨some abs, (bind_of_ok (unique_ok hreg hr hns (by decide +kernel) k1)).trans (bind_of_ok h)⟩
  have hprot : ∀ {p : Pos}, At root f [elem "PDU-TO-FRAME-MAPPINGS", ref "PDU-TO-FRAME-MAPPING", ref "PDU"] (some p) →
      ∃ n : Nat, NumberAt F root p [elem "LENGTH"] n ∧ ProtectionSays F root p d.secoc d.e2e := by
    intro p h9
    generalize d.secoc = s at h10
    generalize d.e2e = e at h10
    cases h10 with
    | none h => cases at_unique hreg hr hns F (strs := ["PDU-TO-FRAME-MAPPINGS", "&PDU-TO-FRAME-MAPPING", "&PDU"]) (by decide +kernel) h9 h
    | pdu h hl hp =>
      cases at_unique hreg hr hns F (strs := ["PDU-TO-FRAME-MAPPINGS", "&PDU-TO-FRAME-MAPPING", "&PDU"]) (by decide +kernel) h9 h
      exact ⟨_, hl, hp⟩
  cases h9 with
  | none h9 =>
    refine ⟨(none, []), ⟨hpdu ▸ .none, hparts ▸ .nil⟩, fun fuel _ => (hstart fuel).trans ?_⟩
    have he : d.secoc = none ∧ d.e2e = none := by
      generalize d.secoc = s at h10
      generalize d.e2e = e at h10
      cases h10 with
      | none => exact ⟨rfl, rfl⟩
      | pdu h => cases at_unique hreg hr hns F (strs := ["PDU-TO-FRAME-MAPPINGS", "&PDU-TO-FRAME-MAPPING", "&PDU"]) (by decide +kernel) h9 h
    refine (bind_of_ok (unique_ok hreg hr hns (by decide +kernel) h9)).trans ?_
    unfold frameInfo FrameContent.patternNumber
    rw [hpdu, hparts, he.1, he.2]
    rfl
  | @pdu p q c pattern h9 k1 k2 k3 k4 =>
    obtain ⟨pdu, j1, j2⟩ := pdu_ok hreg hr hns c k3
    refine ⟨(some pdu, []), ⟨hpdu ▸ .some j1, hparts ▸ .nil⟩, fun fuel hd => (hstart fuel).trans ?_⟩
    refine (bind_of_ok (unique_ok hreg hr hns (by decide +kernel) h9)).trans ?_
    obtain ⟨o, hpath⟩ := hpath k1 k2
    have hpat := pattern_ok hreg hr hns k4
    obtain ⟨n, hn, hprot⟩ := hprot h9
    dsimp only
    refine (bind_of_ok hpath).trans ?_
    have hdepth : c.depth ≤ fuel := by
      refine le_trans ?_ hd
      unfold FrameContent.depth
      rw [hpdu]
      exact Nat.le_max_left _ _
    have htop : (𝓛).loadTop d.name fuel p 1 = (Arxml.loadPdu d.name pdu 1 >>= fun l => pure (l.2, [])) := by
      cases fuel with
      | zero =>
        exfalso
        cases c with
        | plain => simp [PduContent.depth] at hdepth
        | secured => simp [PduContent.depth] at hdepth
        | multiplexed => simp [PduContent.depth] at hdepth
      | succ fuel =>
        unfold Loader.loadTop
        dsimp only
        have ht : (at? root p).map Xml.tag ≠ some "CONTAINER-I-PDU" := by
          cases c with
          | plain =>
            simp only [PduSays] at k3
            obtain ⟨⟨t, h1, n1, -⟩, -⟩ := k3
            rw [tag_of h1]
            simpa using n1
          | secured =>
            simp only [PduSays] at k3
            rw [tag_of k3.1]
            simp
          | multiplexed =>
            simp only [PduSays] at k3
            rw [tag_of k3.1]
            simp
        rw [if_neg ht, j2 d.name _ 1 hdepth]
    rw [htop]
    unfold frameInfo FrameContent.patternNumber frameSignals Arxml.loadFrameSignals
    rw [hpdu, hparts]
    dsimp only
    cases Arxml.loadPdu d.name pdu 1 with
    | error e => rfl
    | ok l =>
      refine (bind_of_ok (protection_ok hreg hr hns hn hprot)).trans ?_
      dsimp only
      rw [show d.secoc.map Loader.SecOC.trailer = d.trailer from rfl]
      dsimp only [bind, Except.bind]
      cases Arxml.trailerSignals d.name d.trailer with
      | error e => rfl
      | ok tr => exact bind_of_ok hpat
  | @container p q pattern parts h9 k1 k2 k3 k4 k5 =>
    obtain ⟨n, hn, hprot⟩ := hprot h9
    obtain ⟨us, j1, j2⟩ := contained_ok hreg hr hns (frame := d.name) hn k4
    refine ⟨(some (.plain []), us), ⟨?_, hparts ▸ j1⟩, fun fuel hd => (hstart fuel).trans ?_⟩
    · rw [hpdu]
      refine .some ?_
      simp only [PduIs]
      exact .nil
    refine (bind_of_ok (unique_ok hreg hr hns (by decide +kernel) h9)).trans ?_
    obtain ⟨o, hpath⟩ := hpath k1 k2
    have hpat := pattern_ok hreg hr hns k5
    dsimp only
    refine (bind_of_ok hpath).trans ?_
    have htop : (𝓛).loadTop d.name fuel p 1 = (((parts.zip us).mapM fun p => partInfo d.name p.1 p.2) >>= fun l => pure ([], l)) := by
      cases fuel with
      | zero =>
        exfalso
        have : 1 ≤ d.depth := by
          unfold FrameContent.depth
          rw [hpdu]
          exact Nat.le_max_left _ _
        omega
      | succ fuel =>
        unfold Loader.loadTop
        dsimp only
        rw [if_pos (tag_of k3), j2 fuel (hparts ▸ part_depth hd)]
    rw [htop]
    have hsec : d.secoc = none := by
      generalize d.secoc = s at hprot
      generalize d.e2e = e at hprot
      cases hprot with
      | plain => rfl
      | own h => exact absurd ((tag_of k3).symm.trans (tag_of h)) (by simp)
      | payload h => exact absurd ((tag_of k3).symm.trans (tag_of h)) (by simp)
    unfold frameInfo FrameContent.patternNumber frameSignals Arxml.loadFrameSignals
    rw [hpdu, hparts]
    dsimp only
    cases ((parts.zip us).mapM fun p => partInfo d.name p.1 p.2) with
    | error e => rfl
    | ok l =>
      refine (bind_of_ok (protection_ok hreg hr hns hn hprot)).trans ?_
      have htr : d.trailer = none := by unfold FrameContent.trailer; rw [hsec]; rfl
      rw [htr, hsec]
      exact bind_of_ok hpat

/-! ### Packages -/

omit hreg hr hns in
theorem mapM_flatten {α β : Type} (f : α → Except Err β) (ls : List (List α)) :
    ls.flatten.mapM f = (do pure (← ls.mapM fun l => l.mapM f).flatten) := by
  induction ls with
  | nil => rfl
  | cons l ls ih =>
    rw [List.flatten_cons, List.mapM_append, ih, List.mapM_cons]
    cases l.mapM f with
    | error e => rfl
    | ok a => cases ls.mapM fun l => l.mapM f <;> rfl

theorem package_ok {q : Pos} {l : List (String × Pos)} (h : PackageSays root q l) (fuel : Nat) :
    (𝓛).loadPackageFrames fuel q = l.mapM fun t => (𝓛).loadFrame fuel t.1 t.2 := by
  obtain ⟨cs, parts, h1, h2, rfl⟩ := h
  refine (bind_of_ok (children_ok hreg hr hns (by decide +kernel) h1)).trans ?_
  rw [mapM_flatten]
  congr 1
  clear h1
  induction h2 with
  | nil => rfl
  | @cons c part cs parts hc _ ih =>
    rw [List.mapM_cons, List.mapM_cons, ih]
    congr 1
    obtain ⟨bus, ts, k1, k2, rfl⟩ := hc
    refine (bind_of_ok (childText_ok hreg hr hns (by decide +kernel) k1)).trans ?_
    refine (bind_of_ok (children_ok hreg hr hns (by decide +kernel) k2)).trans ?_
    rw [List.mapM_map]
    rfl

end

mutual
theorem mem_packagesOf (pos : Pos) : ∀ (x : Xml) (q : Pos), q ∈ Loader.packagesOf pos x ↔
    ∃ j y s, x.children[j]? = some y ∧ y.tag = "AR-PACKAGE" ∧ q = pos ++ j :: s ∧ (s = [] ∨ PackageAt y s)
  | .elem _ _ _ cs, q => by
    unfold Loader.packagesOf
    rw [mem_packagesIn pos 0 cs q]
    simp only [Nat.zero_add, Kcd.Xml.children]
theorem mem_packagesIn (pos : Pos) (i : Nat) : ∀ (cs : List Xml) (q : Pos), q ∈ Loader.packagesIn pos i cs ↔
    ∃ j y s, cs[j]? = some y ∧ y.tag = "AR-PACKAGE" ∧ q = pos ++ (i + j) :: s ∧ (s = [] ∨ PackageAt y s)
  | [], q => by
    unfold Loader.packagesIn
    simp
  | c :: cs, q => by
    unfold Loader.packagesIn
    rw [List.mem_append, mem_packagesIn pos (i + 1) cs q]
    constructor
    · rintro (h | ⟨j, y, s, h1, h2, h3, h4⟩)
      · split at h
        · rename_i ht
          rcases List.mem_cons.1 h with rfl | h
          · exact ⟨0, c, [], rfl, ht, rfl, .inl rfl⟩
          · obtain ⟨s, rfl, hs⟩ := (mem_subPackages (pos ++ [i]) c q).1 h
            exact ⟨0, c, s, rfl, ht, by simp, .inr hs⟩
        · cases h
      · exact ⟨j + 1, y, s, h1, h2, by rw [h3]; congr 2; omega, h4⟩
    · rintro ⟨j, y, s, h1, h2, rfl, h4⟩
      cases j with
      | zero =>
        obtain rfl := Option.some.inj h1
        left
        rw [if_pos h2]
        rcases h4 with rfl | h4
        · exact List.mem_cons_self
        · exact List.mem_cons_of_mem _ ((mem_subPackages (pos ++ [i]) c _).2 ⟨s, by simp, h4⟩)
      | succ j => exact .inr ⟨j, y, s, h1, h2, by congr 2; omega, h4⟩
theorem mem_subPackages (pos : Pos) : ∀ (x : Xml) (q : Pos), q ∈ Loader.subPackages pos x ↔
    ∃ s, q = pos ++ s ∧ PackageAt x s
  | .elem t a tx cs, q => by
    unfold Loader.subPackages
    rw [mem_firstList pos 0 cs q]
    constructor
    · rintro ⟨i, l, j, y, s, h1, h2, h3, h4, h5, rfl, h6⟩
      refine ⟨i :: j :: s, by simp, ?_⟩
      rcases h6 with rfl | h6
      · exact .here ⟨h1, h2, h3⟩ h4 h5
      · exact .inside ⟨h1, h2, h3⟩ h4 h5 h6
    · rintro ⟨s, rfl, h⟩
      cases h with
      | @here _ l y i j hl hy ht => exact ⟨i, l, j, y, [], hl.1, hl.2.1, hl.2.2, hy, ht, by simp, .inl rfl⟩
      | @inside _ l y i j s hl hy ht h => exact ⟨i, l, j, y, s, hl.1, hl.2.1, hl.2.2, hy, ht, by simp, .inr h⟩
theorem mem_firstList (pos : Pos) (i : Nat) : ∀ (cs : List Xml) (q : Pos), q ∈ Loader.firstList pos i cs ↔
    ∃ k l j y s, cs[k]? = some l ∧ l.tag = "AR-PACKAGES" ∧ (∀ k' < k, ∀ z, cs[k']? = some z → z.tag ≠ "AR-PACKAGES") ∧
      l.children[j]? = some y ∧ y.tag = "AR-PACKAGE" ∧ q = pos ++ (i + k) :: j :: s ∧ (s = [] ∨ PackageAt y s)
  | [], q => by
    unfold Loader.firstList
    simp
  | c :: cs, q => by
    unfold Loader.firstList
    by_cases ht : c.tag = "AR-PACKAGES"
    · rw [if_pos ht, mem_packagesOf (pos ++ [i]) c q]
      constructor
      · rintro ⟨j, y, s, h1, h2, rfl, h4⟩
        exact ⟨0, c, j, y, s, rfl, ht, by simp, h1, h2, by simp, h4⟩
      · rintro ⟨k, l, j, y, s, h1, h2, h3, h4, h5, rfl, h6⟩
        cases k with
        | zero =>
          obtain rfl := Option.some.inj h1
          exact ⟨j, y, s, h4, h5, by simp, h6⟩
        | succ k => exact absurd ht (h3 0 (by omega) c rfl)
    · rw [if_neg ht, mem_firstList pos (i + 1) cs q]
      constructor
      · rintro ⟨k, l, j, y, s, h1, h2, h3, h4, h5, rfl, h6⟩
        refine ⟨k + 1, l, j, y, s, h1, h2, ?_, h4, h5, by congr 2; omega, h6⟩
        intro k' hk' z hz
        cases k' with
        | zero => obtain rfl := Option.some.inj hz; exact ht
        | succ k' => exact h3 k' (by omega) z hz
      · rintro ⟨k, l, j, y, s, h1, h2, h3, h4, h5, rfl, h6⟩
        cases k with
        | zero => obtain rfl := Option.some.inj h1; exact absurd h2 ht
        | succ k =>
          refine ⟨k, l, j, y, s, h1, h2, fun k' hk' z hz => h3 (k' + 1) (by omega) z hz, h4, h5, by congr 2; omega, h6⟩
end

theorem lt_append (p : Pos) (i : Nat) (s : Pos) : p < p ++ i :: s := by
  induction p with
  | nil => exact List.nil_lt_cons _ _
  | cons a p ih => exact List.cons_lt_cons_iff.2 (.inr ⟨rfl, ih⟩)

theorem append_lt (p : Pos) {i j : Nat} (h : i < j) (s t : Pos) : p ++ i :: s < p ++ j :: t := by
  induction p with
  | nil => exact List.cons_lt_cons_iff.2 (.inl h)
  | cons a p ih => exact List.cons_lt_cons_iff.2 (.inr ⟨rfl, ih⟩)

mutual
theorem sorted_packagesOf (pos : Pos) : ∀ x : Xml, (Loader.packagesOf pos x).Pairwise (· < ·)
  | .elem _ _ _ cs => by
    unfold Loader.packagesOf
    exact sorted_packagesIn pos 0 cs
theorem sorted_packagesIn (pos : Pos) (i : Nat) : ∀ cs : List Xml, (Loader.packagesIn pos i cs).Pairwise (· < ·)
  | [] => by unfold Loader.packagesIn; exact .nil
  | c :: cs => by
    unfold Loader.packagesIn
    refine List.pairwise_append.2 ⟨?_, sorted_packagesIn pos (i + 1) cs, ?_⟩
    · split
      · refine List.pairwise_cons.2 ⟨?_, sorted_subPackages (pos ++ [i]) c⟩
        intro q hq
        obtain ⟨s, rfl, hs⟩ := (mem_subPackages (pos ++ [i]) c q).1 hq
        cases hs <;> exact lt_append _ _ _
      · exact .nil
    · intro q hq q' hq'
      obtain ⟨j, y, s', -, -, rfl, -⟩ := (mem_packagesIn pos (i + 1) cs q').1 hq'
      split at hq
      · rcases List.mem_cons.1 hq with rfl | hq
        · exact append_lt pos (by omega) _ _
        · obtain ⟨s, rfl, -⟩ := (mem_subPackages (pos ++ [i]) c q).1 hq
          rw [List.append_assoc]
          exact append_lt pos (by omega) _ _
      · cases hq
theorem sorted_subPackages (pos : Pos) : ∀ x : Xml, (Loader.subPackages pos x).Pairwise (· < ·)
  | .elem _ _ _ cs => by
    unfold Loader.subPackages
    exact sorted_firstList pos 0 cs
theorem sorted_firstList (pos : Pos) (i : Nat) : ∀ cs : List Xml, (Loader.firstList pos i cs).Pairwise (· < ·)
  | [] => by unfold Loader.firstList; exact .nil
  | c :: cs => by
    unfold Loader.firstList
    split
    · exact sorted_packagesOf (pos ++ [i]) c
    · exact sorted_firstList pos (i + 1) cs
end

theorem sorted_unique {l l' : List Pos} (h : l.Pairwise (· < ·)) (h' : l'.Pairwise (· < ·)) (hm : ∀ q, q ∈ l ↔ q ∈ l') :
    l = l' := by
  have irr : ∀ p : Pos, ¬ p < p := fun p => List.lt_irrefl p
  refine List.Perm.eq_of_pairwise (le := (· < ·)) ?_ h h' ?_
  · intro a b _ _ h1 h2
    exact absurd (List.lt_trans h1 h2) (irr a)
  · refine (List.perm_ext_iff_of_nodup ?_ ?_).2 hm
    · exact List.Pairwise.imp (fun {a b} (h : a < b) (e : a = b) => irr b (e ▸ h)) h
    · exact List.Pairwise.imp (fun {a b} (h : a < b) (e : a = b) => irr b (e ▸ h)) h'

theorem packages_ok {root : Xml} {qs : List Pos} (h : Packages root qs) : Loader.subPackages [] root = qs :=
  sorted_unique (sorted_subPackages [] root) h.1 fun q => by
    rw [mem_subPackages, h.2]
    simp

theorem packages_exist (root : Xml) : Packages root (Loader.subPackages [] root) :=
  ⟨sorted_subPackages [] root, fun q => by rw [mem_subPackages]; simp⟩

theorem frames_ok {root : Xml} {r : Refs} {F : FloatRead} (hreg : Regular root) (hr : createDicts root = .ok r)
    (hns : NoStray root) (hpk : kids root "AR-PACKAGES" ≠ []) {trigs : List (String × Pos)} (h : Triggerings root trigs)
    (fuel : Nat) : (Loader.mk root r F).loadFrames fuel =
      trigs.mapM fun t => (Loader.mk root r F).loadFrame fuel t.1 t.2 := by
  obtain ⟨qs, parts, h1, h2, rfl⟩ := h
  unfold Loader.loadFrames
  have : (root.find? "AR-PACKAGES").isNone = false := by
    rw [Cdd.find_kids]
    cases hk : kids root "AR-PACKAGES" with
    | nil => exact absurd hk hpk
    | cons => rfl
  dsimp only
  rw [this, packages_ok h1, mapM_flatten]
  simp only [Bool.false_eq_true, if_false]
  congr 1
  clear h1
  induction h2 with
  | nil => rfl
  | cons h _ ih => rw [List.mapM_cons, List.mapM_cons, ih, package_ok hreg hr hns h]

theorem frames_say {root : Xml} {r : Refs} {F : FloatRead} (hreg : Regular root) (hr : createDicts root = .ok r)
    (hns : NoStray root) {trigs : List (String × Pos)} {ds : List FrameContent}
    (h : List.Forall₂ (FrameSays F root) trigs ds) : ∃ os, List.Forall₂ FramePdus ds os ∧
      ∀ fuel, (∀ d ∈ ds, d.depth ≤ fuel) →
        (trigs.mapM fun t => (Loader.mk root r F).loadFrame fuel t.1 t.2) =
          (ds.zip os).mapM fun p => frameInfo p.1 p.2 := by
  induction h with
  | nil => exact ⟨[], .nil, fun _ _ => rfl⟩
  | cons h _ ih =>
    obtain ⟨os, h1, h2⟩ := ih
    obtain ⟨o, h3, h4⟩ := frame_ok hreg hr hns h
    refine ⟨o :: os, .cons h3 h1, fun fuel hd => ?_⟩
    rw [List.zip_cons_cons, List.mapM_cons, List.mapM_cons, h4 fuel (hd _ (by simp)),
      h2 fuel fun d hm => hd d (by simp [hm])]

theorem exists_of_is {ds : List SignalContent} {ss : List Signal} (h : List.Forall₂ SignalIs ds ss) {s : Signal} (hs : s ∈ ss) :
    ∃ d, d ∈ ds ∧ SignalIs d s := by
  induction h with
  | nil => cases hs
  | cons h _ ih =>
    rcases List.mem_cons.1 hs with rfl | hs
    · exact ⟨_, List.mem_cons_self, h⟩
    · obtain ⟨d, hd, hi⟩ := ih hs
      exact ⟨d, List.mem_cons_of_mem _ hd, hi⟩

mutual
/-- The copies of selector fields are not selectors if the selector fields are at different places. -/
theorem clean_of_tidy {frame : String} : ∀ (c : PduContent) {p : Arxml.Pdu} {i : Nat}, PduIs c p → c.Tidy →
    CleanPdu frame p i ∧ ∀ s ∈ signalsIn frame (fun _ _ => true) p i, s.isMultiplexer = true → s.start ∈ c.selectors
  | .plain ds, p, i, h, _ => by
    cases p with
    | plain ss =>
      simp only [PduIs] at h
      have hp : ∀ s ∈ ss, PlainSignal s := by
        intro s hs
        obtain ⟨d, -, hd⟩ := exists_of_is h hs
        exact hd.plain
      refine ⟨by rw [CleanPdu]; exact hp, fun s hs hm => ?_⟩
      rw [signalsIn] at hs
      rw [(hp s hs).1] at hm
      cases hm
    | secured => simp [PduIs] at h
    | multiplexed => simp [PduIs] at h
  | .secured c, p, i, h, ht => by
    cases p with
    | plain ss => simp [PduIs] at h
    | secured p =>
      simp only [PduIs] at h
      simp only [PduContent.Tidy] at ht
      obtain ⟨h1, h2⟩ := clean_of_tidy (frame := frame) (i := i) c h ht
      exact ⟨by rw [CleanPdu]; exact h1, by rw [signalsIn, PduContent.selectors]; exact h2⟩
    | multiplexed => simp [PduIs] at h
  | .multiplexed ds pos len order alts statics, p, i, h, ht => by
    cases p with
    | plain ss => simp [PduIs] at h
    | secured p => simp [PduIs] at h
    | multiplexed ss pos' len' order' alts' statics' =>
      simp only [PduIs] at h
      obtain ⟨h0, rfl, rfl, rfl, h1, h2⟩ := h
      simp only [PduContent.Tidy] at ht
      obtain ⟨t1, t2, t3⟩ := ht
      obtain ⟨a1, a2⟩ := clean_alts (frame := frame) (field := selectorField pos' len' order') (i := i + 1) alts h1 t1 t3
      obtain ⟨s1, s2⟩ := clean_pdus (frame := frame) (i := i + 1) statics h2 t2
      have hp : ∀ s ∈ ss, PlainSignal s := by
        intro s hs
        obtain ⟨d, -, hd⟩ := exists_of_is h0 hs
        exact hd.plain
      refine ⟨by rw [CleanPdu]; exact ⟨hp, a1, s1⟩, fun s hs hm => ?_⟩
      rw [signalsIn] at hs
      rw [PduContent.selectors, List.mem_cons, List.mem_append]
      rcases List.mem_append.1 hs with hs | hs
      · rw [(hp s hs).1] at hm
        cases hm
      · rcases List.mem_cons.1 hs with rfl | hs
        · exact .inl rfl
        · rcases List.mem_append.1 hs with hs | hs
          · exact .inr (.inl (a2 s hs hm))
          · exact .inr (.inr (s2 s hs hm))
theorem clean_alts {frame : String} {field : Signal} : ∀ (c : AltContents) {p : Arxml.Alts} {i : Nat}, AltsAre c p → c.Tidy →
    field.start ∉ c.selectors →
    CleanAlts frame field.start p i ∧
      ∀ s ∈ alternativeSignals frame (fun _ _ => true) field p i, s.isMultiplexer = true → s.start ∈ c.selectors
  | .nil, p, i, h, _, _ => by
    cases p with
    | nil => exact ⟨by rw [CleanAlts]; trivial, fun s hs => by rw [alternativeSignals] at hs; cases hs⟩
    | cons => simp [AltsAre] at h
  | .cons code initial c rest, p, i, h, ht, hn => by
    cases p with
    | nil => simp [AltsAre] at h
    | cons code' initial' p rest' =>
      simp only [AltsAre] at h
      obtain ⟨rfl, rfl, h1, h2⟩ := h
      simp only [AltContents.Tidy] at ht
      rw [AltContents.selectors, List.mem_append, not_or] at hn
      obtain ⟨a1, a2⟩ := clean_of_tidy (frame := frame) (i := i) c h1 ht.1
      obtain ⟨b1, b2⟩ := clean_alts (frame := frame) (field := field) (i := i) rest h2 ht.2 hn.2
      refine ⟨?_, fun s hs hm => ?_⟩
      · rw [CleanAlts]
        refine ⟨a1, fun s hs e => ?_, b1⟩
        by_contra hm
        exact hn.1 (e ▸ a2 s hs (by simpa using hm))
      · rw [alternativeSignals, if_pos rfl] at hs
        rw [AltContents.selectors, List.mem_append]
        rcases List.mem_append.1 hs with hs | hs
        · exact .inl (a2 s (List.mem_filter.1 hs).1 hm)
        · exact .inr (b2 s hs hm)
theorem clean_pdus {frame : String} : ∀ (c : PduContents) {p : Arxml.Pdus} {i : Nat}, PdusAre c p → c.Tidy →
    CleanPdus frame p i ∧
      ∀ s ∈ staticSignals frame (fun _ _ => true) p i, s.isMultiplexer = true → s.start ∈ c.selectors
  | .nil, p, i, h, _ => by
    cases p with
    | nil => exact ⟨by rw [CleanPdus]; trivial, fun s hs => by rw [staticSignals] at hs; cases hs⟩
    | cons => simp [PdusAre] at h
  | .cons c rest, p, i, h, ht => by
    cases p with
    | nil => simp [PdusAre] at h
    | cons p rest' =>
      simp only [PdusAre] at h
      simp only [PduContents.Tidy] at ht
      obtain ⟨a1, a2⟩ := clean_of_tidy (frame := frame) (i := i) c h.1 ht.1
      obtain ⟨b1, b2⟩ := clean_pdus (frame := frame) (i := i) rest h.2 ht.2
      refine ⟨by rw [CleanPdus]; exact ⟨a1, b1⟩, fun s hs hm => ?_⟩
      rw [staticSignals] at hs
      rw [PduContents.selectors, List.mem_append]
      rcases List.mem_append.1 hs with hs | hs
      · exact .inl (a2 s hs hm)
      · exact .inr (b2 s hs hm)
end

theorem signals_of_plain {frame : String} {chosen : Signal → Int → Bool} {ds : List SignalContent} : ∀ (c : PduContent)
    {p : Arxml.Pdu} {i : Nat}, PduIs c p → c.signals? = some ds → List.Forall₂ SignalIs ds (signalsIn frame chosen p i)
  | .plain ds', p, i, h, hs => by
    cases p with
    | plain ss =>
      simp only [PduIs] at h
      rw [PduContent.signals?] at hs
      cases hs
      rw [signalsIn]
      exact h
    | secured => simp [PduIs] at h
    | multiplexed => simp [PduIs] at h
  | .secured c, p, i, h, hs => by
    cases p with
    | plain => simp [PduIs] at h
    | secured p =>
      simp only [PduIs] at h
      rw [PduContent.signals?] at hs
      rw [signalsIn]
      exact signals_of_plain c h hs
    | multiplexed => simp [PduIs] at h
  | .multiplexed .., p, i, h, hs => by
    rw [PduContent.signals?] at hs
    cases hs

/-- What the user sees of a signal. -/
theorem shows_of_is {fo : FloatOps} {d : SignalContent} {s : Signal} (h : SignalIs d s) {data : Bytes} {raw : Rat}
    (hraw : RawIn fo s data raw) :
    Shows d raw (shown s true true raw) := by
  obtain ⟨-, -, -, hb, hch⟩ := h.plain
  have hor : raw.den = 1 ∨ s.conversion.choices = none := by
    by_cases hf : s.conversion.isFloat = true
    · exact .inr (hch hf)
    · exact .inl (rawIn_den (by simpa using hf) hraw)
  have hv : shown s true true raw = s.conversion.rawToScaled raw true := (decodeSignalValue_eq hb hor).symm
  rw [hv]
  refine ⟨fun e => (h.unscaled e).2.2 raw, ?_, ?_, ?_⟩
  · rintro k cs e c hc i rfl hin hfree
    exact (h.scaled k cs e).shows c hc i hin hfree
  · intro cs e c hc v0 v1 den hbody
    exact h.linear cs e c hc v0 v1 den hbody raw
  · rintro k cs e hall i rfl hno
    exact ((h.scaled k cs e).others hall).2.2 i hno

/-! ### Messages -/

/-- The message for a message in a container with this PDU. -/
structure PartMade (sort : SortSignals) (frame : String) (d : PartContent) (u : Arxml.Pdu) (l : Loader.Part) : Prop where
  headerId : l.headerId = d.headerId
  pattern : 0 ≤ d.pattern ∧ d.pattern < 256
  created : ∃ sigs, Arxml.loadFrameSignals frame d.name u d.trailer = .ok sigs ∧
    Message.create 1 d.name d.length sigs (UInt8.ofNat d.pattern.toNat) false true sort = .ok l.message
  secoc : l.secoc = d.secoc
  e2e : l.e2e = d.e2e

theorem makePart_ok {sort : SortSignals} {frame : String} {d : PartContent} {u : Arxml.Pdu} {f : Loader.PartInfo}
    {l : Loader.Part} (hf : partInfo frame d u = .ok f) (hl : Loader.makePart sort f = .ok l) :
    PartMade sort frame d u l := by
  obtain ⟨sigs, h1, h2⟩ := bind_ok_iff.1 hf
  obtain rfl := Except.ok.inj h2
  unfold Loader.makePart at hl
  split at hl
  next hp =>
    obtain ⟨m, h3, h4⟩ := bind_ok_iff.1 hl
    obtain rfl := Except.ok.inj h4
    exact ⟨rfl, hp, ⟨sigs, h1, h3⟩, rfl, rfl⟩
  next => cases hl

theorem makeParts_ok {sort : SortSignals} {frame : String} {ds : List PartContent} {us : List Arxml.Pdu}
    (h : List.Forall₂ (fun d u => PduIs (PartContent.pdu d) u) ds us) : ∀ {fs : List Loader.PartInfo} {ls : List Loader.Part},
    ((ds.zip us).mapM fun p => partInfo frame p.1 p.2) = .ok fs → fs.mapM (Loader.makePart sort) = .ok ls →
    List.Forall₂ (fun d l => ∃ u, PduIs d.pdu u ∧ PartMade sort frame d u l) ds ls := by
  induction h with
  | nil =>
    intro fs ms h1 h2
    obtain rfl := Except.ok.inj h1
    obtain rfl := Except.ok.inj h2
    exact .nil
  | cons h _ ih =>
    intro fs ms h1 h2
    rw [List.zip_cons_cons] at h1
    have h1 := mapM_forall₂.1 h1
    cases h1 with
    | cons a1 b1 =>
      have h2 := mapM_forall₂.1 h2
      cases h2 with
      | cons a2 b2 => exact .cons ⟨_, h, makePart_ok a1 a2⟩ (ih (mapM_forall₂.2 b1) (mapM_forall₂.2 b2))

/-- The message of a frame with this PDU. -/
structure Made (strict : Bool) (sort : SortSignals) (d : FrameContent) (o : Option Arxml.Pdu × List Arxml.Pdu) (l : Loader.Loaded) : Prop where
  bus : l.bus = d.bus
  isFd : l.isFd = d.isFd
  pattern : 0 ≤ d.patternNumber ∧ d.patternNumber < 256
  created : ∃ sigs, frameSignals d o.1 = .ok sigs ∧
    Message.create d.frameId d.name d.length sigs (UInt8.ofNat d.patternNumber.toNat) d.isExtended
      strict sort = .ok l.message
  secoc : l.secoc = d.secoc
  e2e : l.e2e = d.e2e
  contained : List.Forall₂ (fun d' l => ∃ u, PduIs d'.pdu u ∧ PartMade sort d.name d' u l) d.contained l.contained

theorem make_ok {strict : Bool} {sort : SortSignals} {d : FrameContent} {o : Option Arxml.Pdu × List Arxml.Pdu} {f : Loader.FrameInfo}
    {l : Loader.Loaded} (ho : FramePdus d o) (hf : frameInfo d o = .ok f)
    (hl : Loader.makeMessage strict sort f = .ok l) : Made strict sort d o l := by
  obtain ⟨ps, h0, hf⟩ := bind_ok_iff.1 hf
  obtain ⟨sigs, h1, h2⟩ := bind_ok_iff.1 hf
  obtain rfl := Except.ok.inj h2
  unfold Loader.makeMessage at hl
  obtain ⟨ls, h5, hl⟩ := bind_ok_iff.1 hl
  split at hl
  next hp =>
    obtain ⟨m, h3, h4⟩ := bind_ok_iff.1 hl
    obtain rfl := Except.ok.inj h4
    exact ⟨rfl, rfl, hp, ⟨sigs, h1, h3⟩, rfl, rfl, makeParts_ok ho.2 h0 h5⟩
  next => cases hl

theorem makes_ok {strict : Bool} {sort : SortSignals} {ds : List FrameContent} {os : List (Option Arxml.Pdu × List Arxml.Pdu)}
    (h : List.Forall₂ FramePdus ds os) : ∀ {fs : List Loader.FrameInfo} {ms : List Loader.Loaded},
    ((ds.zip os).mapM fun p => frameInfo p.1 p.2) = .ok fs → fs.mapM (Loader.makeMessage strict sort) = .ok ms →
    List.Forall₂ (fun d l => ∃ o, FramePdus d o ∧ Made strict sort d o l) ds ms := by
  induction h with
  | nil =>
    intro fs ms h1 h2
    obtain rfl := Except.ok.inj h1
    obtain rfl := Except.ok.inj h2
    exact .nil
  | cons h _ ih =>
    intro fs ms h1 h2
    rw [List.zip_cons_cons] at h1
    have h1 := mapM_forall₂.1 h1
    cases h1 with
    | cons a1 b1 =>
      have h2 := mapM_forall₂.1 h2
      cases h2 with
      | cons a2 b2 => exact .cons ⟨_, h, make_ok h a1 a2⟩ (ih (mapM_forall₂.2 b1) (mapM_forall₂.2 b2))

theorem bind_error {α β : Type} {x : Except Err α} {f : α → Except Err β} {e : Err} (h : (x >>= f) = .error e) :
    x = .error e ∨ ∃ a, x = .ok a ∧ f a = .error e := by
  cases x with
  | error e' => exact .inl (congrArg Except.error (Except.error.inj h))
  | ok a => exact .inr ⟨a, rfl, h⟩

theorem mapM_error {α β : Type} {f : α → Except Err β} {e : Err} {l : List α} (h : l.mapM f = .error e) :
    ∃ a ∈ l, f a = .error e := by
  induction l with
  | nil => cases h
  | cons a l ih =>
    rw [List.mapM_cons] at h
    rcases bind_error h with h | ⟨b, -, h⟩
    · exact ⟨a, by simp, h⟩
    · rcases bind_error h with h | ⟨_, -, h⟩
      · obtain ⟨x, hx, h⟩ := ih h
        exact ⟨x, by simp [hx], h⟩
      · cases h

theorem zip_mem {α β : Type} {R : α → β → Prop} {as : List α} {bs : List β} (h : List.Forall₂ R as bs) {a : α} {b : β}
    (hm : (a, b) ∈ as.zip bs) : a ∈ as ∧ R a b := by
  induction h with
  | nil => cases hm
  | cons h _ ih =>
    rw [List.zip_cons_cons, List.mem_cons] at hm
    rcases hm with hm | hm
    · obtain ⟨rfl, rfl⟩ := Prod.mk.inj hm
      exact ⟨by simp, h⟩
    · obtain ⟨h1, h2⟩ := ih hm
      exact ⟨by simp [h1], h2⟩

theorem mapM_source {α β : Type} {f : α → Except Err β} {l : List α} {bs : List β} (h : l.mapM f = .ok bs) {b : β}
    (hb : b ∈ bs) : ∃ a ∈ l, f a = .ok b := by
  have := mapM_forall₂.1 h
  clear h
  induction this with
  | nil => cases hb
  | cons a _ ih =>
    rcases List.mem_cons.1 hb with rfl | hb
    · exact ⟨_, by simp, a⟩
    · obtain ⟨p, hp, h⟩ := ih hb
      exact ⟨p, List.mem_cons_of_mem _ hp, h⟩

theorem makePart_error {frame : String} {d : PartContent} {u : Arxml.Pdu} {f : Loader.PartInfo} {e : Err}
    (hu : PduIs d.pdu u) (hf : partInfo frame d u = .ok f) (hl : Loader.makePart .default f = .error e) :
    PartFails frame d e := by
  obtain ⟨sigs, h1, h2⟩ := bind_ok_iff.1 hf
  obtain rfl := Except.ok.inj h2
  unfold Loader.makePart at hl
  split at hl
  next hp =>
    rcases bind_error hl with hl | ⟨_, -, hl⟩
    · exact .inr (.inr ⟨u, sigs, hu, h1, hl⟩)
    · cases hl
  next hp => exact .inr (.inl ⟨(Except.error.inj hl).symm, hp⟩)

theorem load_error {strict : Bool} {e : Err} {ds : List FrameContent} {os : List (Option Arxml.Pdu × List Arxml.Pdu)}
    (h : List.Forall₂ FramePdus ds os)
    (hl : (((ds.zip os).mapM fun p => frameInfo p.1 p.2) >>= fun fs => fs.mapM (Loader.makeMessage strict .default)) = .error e) :
    ∃ d ∈ ds, (∃ c n pdu, d.pdu = some (c, n) ∧ PduIs c pdu ∧ Arxml.loadFrameSignals d.name d.name pdu d.trailer = .error e) ∨
      (e = .valueError ∧ ¬ (0 ≤ d.patternNumber ∧ d.patternNumber < 256)) ∨
      (∃ sigs, (d.pdu = none ∧ sigs = [] ∨ ∃ c n pdu, d.pdu = some (c, n) ∧ PduIs c pdu ∧
          Arxml.loadFrameSignals d.name d.name pdu d.trailer = .ok sigs) ∧
        Message.create d.frameId d.name d.length sigs (UInt8.ofNat d.patternNumber.toNat) d.isExtended strict .default =
          .error e) ∨
      ∃ p ∈ d.contained, PartFails d.name p e := by
  rcases bind_error hl with hl | ⟨fs, h1, h2⟩
  · obtain ⟨⟨d, o⟩, hm, he⟩ := mapM_error hl
    obtain ⟨hd, ho, hparts⟩ := zip_mem h hm
    refine ⟨d, hd, ?_⟩
    rcases bind_error he with he | ⟨_, -, he⟩
    · refine .inr (.inr (.inr ?_))
      obtain ⟨⟨p, u⟩, hp, he⟩ := mapM_error he
      obtain ⟨hp, hu⟩ := zip_mem hparts hp
      refine ⟨p, hp, .inl ⟨u, hu, ?_⟩⟩
      rcases bind_error he with he | ⟨_, -, he⟩
      · exact he
      · cases he
    rcases bind_error he with he | ⟨_, -, he⟩
    · refine .inl ?_
      revert ho he
      generalize hp : d.pdu = p
      generalize o.1 = o'
      intro ho he
      cases ho with
      | none => cases he
      | some hi => exact ⟨_, _, _, rfl, hi, he⟩
    · cases he
  · obtain ⟨f, hf, he⟩ := mapM_error h2
    obtain ⟨⟨d, o⟩, hm, hi⟩ := mapM_source h1 hf
    obtain ⟨hd, ho, hparts⟩ := zip_mem h hm
    refine ⟨d, hd, .inr ?_⟩
    obtain ⟨ps, k0, hi⟩ := bind_ok_iff.1 hi
    obtain ⟨sigs, k1, k2⟩ := bind_ok_iff.1 hi
    obtain rfl := Except.ok.inj k2
    unfold Loader.makeMessage at he
    rcases bind_error he with he | ⟨_, -, he⟩
    · obtain ⟨x, hx, he⟩ := mapM_error he
      obtain ⟨⟨p, u⟩, hp, hi⟩ := mapM_source k0 hx
      obtain ⟨hp, hu⟩ := zip_mem hparts hp
      exact .inr (.inr ⟨p, hp, makePart_error hu hi he⟩)
    split at he
    next hp =>
      rcases bind_error he with he | ⟨_, -, he⟩
      · refine .inr (.inl ⟨sigs, ?_, he⟩)
        revert ho k1
        generalize hp : d.pdu = p
        generalize o.1 = o'
        intro ho k1
        cases ho with
        | none => exact .inl ⟨rfl, (Except.ok.inj k1).symm⟩
        | some hi' => exact .inr ⟨_, _, _, rfl, hi', k1⟩
      · cases he
    next hp => exact .inl ⟨(Except.error.inj he).symm, hp⟩

/-- What loading a document does. -/
theorem load_eq {F : FloatRead} {root : Xml} {trigs : List (String × Pos)} {ds : List FrameContent}
    (h : Describes F root trigs ds) {fuel : Nat} (hd : ∀ d ∈ ds, d.depth ≤ fuel) (strict : Bool) (sort : SortSignals) :
    ∃ os, List.Forall₂ FramePdus ds os ∧
      load F root fuel strict sort = ((ds.zip os).mapM fun p => frameInfo p.1 p.2) >>= fun fs =>
        fs.mapM (Loader.makeMessage strict sort) := by
  obtain ⟨r, hr⟩ := (C53_accepted h.regular).1.2 h.accepted
  obtain ⟨os, h1, h2⟩ := frames_say (F := F) h.regular hr h.plain h.frames
  refine ⟨os, h1, ?_⟩
  have hpk : kids root "AR-PACKAGES" ≠ [] := by
    obtain ⟨x, hx, ht⟩ := h.packages
    intro e
    unfold kids at e
    exact absurd (List.mem_filter.2 ⟨hx, by simpa using ht⟩) (e ▸ List.not_mem_nil)
  refine (bind_of_ok hr).trans ?_
  rw [frames_ok h.regular hr h.plain hpk h.triggerings, h2 fuel hd]

theorem forall₂_at {α β : Type} {R : α → β → Prop} {l : List α} {m : List β} (h : List.Forall₂ R l m) :
    ∀ {k : Nat} {a : α} {b : β}, l[k]? = some a → m[k]? = some b → R a b := by
  induction h with
  | nil => intro k a b ha; cases ha
  | cons h _ ih =>
    intro k a b ha hb
    cases k with
    | zero => cases ha; cases hb; exact h
    | succ k => exact ih ha hb

theorem shape_of_is {ds : List SignalContent} {ss : List Signal} (h : List.Forall₂ SignalIs ds ss) :
    ss.map (·.name) = ds.map (·.name) := by
  induction h with
  | nil => rfl
  | cons h _ ih => rw [List.map_cons, List.map_cons, h.name, ih]

theorem of_is_left {ds : List SignalContent} {ss : List Signal} (h : List.Forall₂ SignalIs ds ss) {d : SignalContent}
    (hd : d ∈ ds) : ∃ s ∈ ss, SignalIs d s := by
  induction h with
  | nil => cases hd
  | cons h _ ih =>
    rcases List.mem_cons.1 hd with rfl | hd
    · exact ⟨_, by simp, h⟩
    · obtain ⟨s, hs, hi⟩ := ih hd
      exact ⟨s, by simp [hs], hi⟩

theorem tidy_of_plain {ds : List SignalContent} : ∀ (c : PduContent), c.signals? = some ds → c.Tidy
  | .plain _, _ => by rw [PduContent.Tidy]; trivial
  | .secured c, h => by
    rw [PduContent.signals?] at h
    rw [PduContent.Tidy]
    exact tidy_of_plain c h
  | .multiplexed .., h => by rw [PduContent.signals?] at h; cases h

/-- The signals of a message. -/
theorem made_signals {frame name : String} {c : PduContent} {u : Arxml.Pdu} {t : Option Arxml.Trailer} {sigs : List Signal}
    (hu : PduIs c u) (ht : c.Tidy) (hs : Arxml.loadFrameSignals frame name u t = .ok sigs) :
    ((SortSignals.default.apply sigs).map fun s => { s with multiplexerSignal := none, multiplexerIds := none }).Perm
      (frameSignalsIn frame name (fun _ _ => true) u t) := by
  obtain ⟨⟨j, L⟩, hL, hl⟩ := bind_ok_iff.1 hs
  obtain ⟨T, hT, hl⟩ := bind_ok_iff.1 hl
  obtain rfl := Arxml.trailerSignals_ok hT
  have hl : L ++ trailerIn name t = sigs := Except.ok.inj hl
  obtain ⟨-, k⟩ := Arxml.loadPdu_contents _ (clean_of_tidy c hu ht).1 hL
  have hb : (trailerIn name t).map (fun s => { s with multiplexerSignal := none, multiplexerIds := none }) =
      trailerIn name t :=
    (List.map_congr_left fun s hs => Arxml.bare_of_plain (Arxml.trailer_plain s hs)).trans (List.map_id _)
  unfold frameSignalsIn
  rw [← k, ← hb]
  refine ((default_perm sigs).map _).trans ?_
  rw [← hl, List.map_append, hb]
  exact List.Perm.refl _

theorem part_is {frame : String} {d : PartContent} {u : Arxml.Pdu} {l : Loader.Part} (hu : PduIs d.pdu u)
    (hm : PartMade .default frame d u l) : PartIs frame d l := by
  obtain ⟨sigs, hs, hc⟩ := hm.created
  obtain ⟨-, -, c, -, -, e⟩ := create_ok_iff.1 hc
  refine ⟨hm.headerId, by rw [e], by rw [e], ?_, fun ht => ⟨u, hu, e ▸ made_signals hu ht hs⟩, hm.secoc, hm.e2e⟩
  rw [e]
  have := hm.pattern
  dsimp only
  rw [UInt8.toNat_ofNat_of_lt' (by show _ < 256; omega)]
  omega

theorem Made.pos {strict : Bool} {sort : SortSignals} {d : FrameContent} {o : Option Arxml.Pdu × List Arxml.Pdu} {l : Loader.Loaded}
    (h : Made strict sort d o l) {s : Signal} (hs : s ∈ l.message.signals) : 0 < s.length := by
  obtain ⟨sigs, -, hc⟩ := h.created
  obtain ⟨-, hpos, c, -, -, e⟩ := create_ok_iff.1 hc
  rw [e] at hs
  exact hpos s hs

theorem rawIn_of_is {fo : FloatOps} {d : SignalContent} {s : Signal} (h : SignalIs d s) {data : Bytes} {raw : Rat} :
    RawIn fo s data raw ↔ RawIn fo (fieldOf d) data raw := by
  have h1 : (fieldOf d).conversion.isFloat = d.isFloat := (factory_scale 1 0 d.isFloat).2.2
  have h2 : ∀ j, bitPos s j = bitPos (fieldOf d) j := by
    intro j
    unfold bitPos fieldOf
    rw [h.start, h.length, h.order]
  have h3 : s.length = (fieldOf d).length := h.length
  have h4 : ∀ i, InRange s i ↔ InRange (fieldOf d) i := by
    intro i
    unfold InRange fieldOf
    rw [h.isSigned, h.length]
  unfold RawIn ReadsAs
  rw [h1, h.isFloat, h3]
  simp only [h2, h4]

/-- The signals of a trailer show the number in their bits. -/
theorem trailer_shown {fo : FloatOps} {name : String} {t : Option Arxml.Trailer} {s : Signal}
    (hs : s ∈ trailerIn name t) (data : Bytes) :
    ∃ i : Int, ReadsAs s data i ∧ RawIn fo s data i ∧ shown s true true i = .num i := by
  have h : 0 < s.length ∧ s.conversion = .factory 1 0 none false := by
    cases t with
    | none => cases hs
    | some t =>
      obtain ⟨h1, h2⟩ := List.mem_filter.1 hs
      refine ⟨by simpa using h2, ?_⟩
      simp only [List.mem_cons, List.not_mem_nil, or_false] at h1
      rcases h1 with rfl | rfl <;> rfl
  have hraw := unpack_rawIn (fo := fo) h.1 data
  have hf : s.conversion.isFloat = false := by rw [h.2]; rfl
  have hraw' := hraw
  unfold RawIn at hraw
  rw [if_neg (by rw [hf]; nofun)] at hraw
  obtain ⟨i, hi, hr⟩ := hraw
  rw [hi] at hraw'
  refine ⟨i, hr, hraw', ?_⟩
  have ht : (if true = true ∧ ((i : Int) : Rat).den = 1 then dictGet? (table s) ((i : Int) : Rat).num else none) = none := by
    unfold table
    rw [h.2]
    split <;> rfl
  unfold shown
  rw [ht, h.2]
  show Value.num ((i : Rat) * 1 + 0) = _
  rw [mul_one, add_zero]

end Cantools.ArxmlFile
