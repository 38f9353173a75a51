import Verif.Lemmas.ListingSame

/-
The lines of a listing have no line ends.
-/

namespace Cantools.Listing
open Cantools Dbc Spec Spec.Listed

variable {F : Type} {T : FloatText F}

theorem oneLine_append {a b : Chars} (ha : OneLine a) (hb : OneLine b) : OneLine (a ++ b) := fun h =>
  (List.mem_append.1 h).elim ha hb

theorem oneLine_line {label : String} {v : Chars} (hl : OneLine label.toList) (hv : OneLine v) : OneLine (line label v) :=
  oneLine_append hl hv

theorem oneLine_int (i : Int) : OneLine (intText i) := by
  intro h
  rcases intText_chars h with e | e <;> exact absurd e (by decide)

theorem oneLine_nat (n : Nat) : OneLine (decimal n) := by
  rw [← intText_nat]
  exact oneLine_int n

theorem oneLine_bool (b : Bool) : OneLine (boolText b) := by cases b <;> exact (by decide +kernel)

theorem oneLine_order (o : ByteOrder) : OneLine (orderText o) := by cases o <;> exact (by decide +kernel)

theorem toDigitsCore_chars {c : Char} : ∀ (fuel n : Nat) (ds : List Char),
    c ∈ Nat.toDigitsCore 16 fuel n ds → c ∈ ds ∨ ∃ k < 16, c = Nat.digitChar k
  | 0, n, ds, h => .inl h
  | fuel + 1, n, ds, h => by
    have hk : n % 16 < 16 := Nat.mod_lt _ (by decide)
    rw [Nat.toDigitsCore] at h
    split at h
    · rcases List.mem_cons.1 h with rfl | h
      · exact .inr ⟨_, hk, rfl⟩
      · exact .inl h
    · rcases toDigitsCore_chars fuel _ _ h with h | h
      · rcases List.mem_cons.1 h with rfl | h
        · exact .inr ⟨_, hk, rfl⟩
        · exact .inl h
      · exact .inr h

theorem digitChar_ne : ∀ k < 16, Nat.digitChar k ≠ '\n' := by decide

theorem oneLine_hex (i : Int) : OneLine (hexText i) := by
  refine oneLine_append (by decide +kernel) (oneLine_append ?_ ?_)
  · split <;> exact (by decide +kernel)
  · intro h
    rcases toDigitsCore_chars _ _ _ h with h | ⟨k, hk, h⟩
    · cases h
    · exact digitChar_ne k hk h.symm

theorem oneLine_ids (i : Int) : OneLine (idsText i) :=
  oneLine_append (oneLine_hex i) (oneLine_append (by decide +kernel) (oneLine_append (oneLine_int i) (by decide +kernel)))

theorem oneLine_join {sep : Chars} (hs : OneLine sep) {l : List Chars} (h : ∀ t ∈ l, OneLine t) : OneLine (joinC sep l) := by
  induction l with
  | nil => exact (by decide +kernel : OneLine [])
  | cons x l ih =>
    cases l with
    | nil => exact h x (by simp)
    | cons y l => exact oneLine_append (h x (by simp)) (oneLine_append hs (ih fun t ht => h t (by simp [ht])))

theorem oneLine_digits {d : Chars} (h : Digits d) : OneLine d := fun hc => absurd (h.2 _ hc) (by decide)

theorem oneLine_float {t : Chars} (h : FloatSyntax t) : OneLine t := by
  obtain ⟨negative, d, frac, ex, rfl, hd, hf, he, -⟩ := h
  unfold numberText
  refine oneLine_append ?_ (oneLine_append (oneLine_digits hd) (oneLine_append ?_ ?_))
  · split <;> exact (by decide +kernel)
  · cases frac with
    | none => exact (by decide +kernel)
    | some f => exact oneLine_append (a := ['.']) (by decide +kernel) (oneLine_digits (hf f rfl))
  · cases ex with
    | none => exact (by decide +kernel)
    | some p =>
      obtain ⟨s, e⟩ := p
      obtain ⟨hs, hde⟩ := he s e rfl
      refine oneLine_append (a := ['e', s]) ?_ (oneLine_digits hde)
      rcases hs with rfl | rfl <;> exact (by decide +kernel)

theorem oneLine_num (L : FloatLaws T) (n : Num F) : OneLine (n.text T) := by
  cases n with
  | int i => exact oneLine_int i
  | float f => exact oneLine_float (L.syntax_ f)

theorem oneLine_format (L : FloatLaws T) {unit : Chars} (hu : OneLine unit) {v : Shown F} (hv : FineValue (some v)) :
    OneLine (formatVal T v unit) := by
  cases v with
  | name t => exact hv
  | num n =>
    unfold formatVal
    dsimp only
    split
    · exact oneLine_num L n
    · exact oneLine_append (oneLine_num L n) (oneLine_append (a := [' ']) (by decide +kernel) hu)

theorem oneLine_option {α : Type} {text : α → Chars} {o : Option α} (h : ∀ a, o = some a → OneLine (text a)) :
    OneLine (optionText text o) := by
  cases o with
  | none => exact (by decide +kernel : OneLine "None".toList)
  | some a => exact h a rfl

theorem fineText_some {o : Option Chars} (h : FineText o) : OneLine (optionText id o) :=
  oneLine_option fun a e => by rw [e] at h; exact h

theorem oneLine_list (l : List Int) : OneLine (listText l) :=
  oneLine_append (a := ['[']) (by decide +kernel) (oneLine_append (oneLine_join (by decide +kernel) fun t ht => by
    obtain ⟨i, -, rfl⟩ := List.mem_map.1 ht
    exact oneLine_int i) (by decide +kernel))

/-- All lines of a list. -/
def OneLines (l : List Line) : Prop := ∀ t ∈ l, OneLine t

theorem oneLines_nil : OneLines [] := fun _ h => by cases h

theorem oneLines_cons {t : Line} {l : List Line} (ht : OneLine t) (h : OneLines l) : OneLines (t :: l) := fun x hx => by
  rcases List.mem_cons.1 hx with rfl | hx
  · exact ht
  · exact h x hx

theorem oneLines_append {a b : List Line} (ha : OneLines a) (hb : OneLines b) : OneLines (a ++ b) := fun x hx =>
  (List.mem_append.1 hx).elim (ha x) (hb x)

macro "lit1" : tactic => `(tactic| exact (by decide +kernel))

theorem oneLines_comments {label : String} (hl : OneLine label.toList) {cs : Comments} (h : FineComments cs) :
    OneLines (commentLines label cs) := by
  intro t ht
  obtain ⟨c, hc, rfl⟩ := List.mem_map.1 ht
  exact oneLine_line hl (oneLine_append (h c hc).1 (oneLine_append (by lit1) (h c hc).2.2))

theorem oneLines_names {label : String} (hl : OneLine label.toList) {names : List Chars} (h : Separable names) :
    OneLines (namesLine label names) := by
  unfold namesLine
  split
  · exact oneLines_nil
  · exact oneLines_cons (oneLine_line hl (oneLine_join (by lit1) fun t ht => (h t ((sortTexts_perm _).mem_iff.1 ht)).1))
      oneLines_nil

theorem oneLines_value (L : FloatLaws T) {label : String} (hl : OneLine label.toList) {unit : Chars} (hu : OneLine unit)
    {v : Option (Shown F)} (hv : FineValue v) : OneLines (valueLine T label unit v) := by
  cases v with
  | none => exact oneLines_nil
  | some v => exact oneLines_cons (oneLine_line hl (oneLine_format L hu hv)) oneLines_nil

theorem fineValue_num (o : Option (Num F)) : FineValue (o.map .num) := by cases o <;> trivial

/-! ### Messages -/

theorem oneLines_bus {m : LMessage F} (h : OneLine (m.busName.getD [])) : OneLines (busLine m) := by
  unfold busLine
  split
  · exact oneLines_nil
  · exact oneLines_cons (oneLine_line (by lit1) h) oneLines_nil

theorem oneLines_ids (c : Bool) (m : LMessage F) : OneLines (idLines c m) := by
  unfold idLines
  cases m.headerId with
  | none =>
    refine oneLines_cons (oneLine_line (by lit1) (oneLine_ids _)) (oneLines_cons ?_ (oneLines_cons
      (oneLine_line (by lit1) (oneLine_bool _)) (oneLines_cons (oneLine_line (by lit1) (oneLine_bool _)) oneLines_nil)))
    cases c <;> exact oneLine_line (by lit1) (oneLine_append (oneLine_nat _) (by lit1))
  | some h =>
    exact oneLines_cons (oneLine_line (by lit1) (oneLine_ids _)) (oneLines_cons
      (oneLine_line (by lit1) (oneLine_append (oneLine_nat _) (by lit1))) oneLines_nil)

theorem oneLines_cycle (L : FloatLaws T) (m : LMessage F) : OneLines (cycleLine T m) := by
  unfold cycleLine
  cases m.cycleTime with
  | none => exact oneLines_nil
  | some t => exact oneLines_cons (oneLine_line (by lit1) (oneLine_format L (by lit1) trivial)) oneLines_nil

theorem oneLines_autosar {a : Autosar} (h : FineAutosar a) : OneLines (autosarLines a) := by
  unfold autosarLines
  have hi : ∀ o : Option Int, OneLine (optionText intText o) := fun o => oneLine_option fun i _ => oneLine_int i
  refine oneLines_append (oneLines_cons (oneLine_line (by lit1) (oneLine_bool _)) oneLines_nil) (oneLines_append ?_
    (oneLines_append (oneLines_cons (oneLine_line (by lit1) (oneLine_bool _)) oneLines_nil) ?_))
  · cases he : a.e2e with
    | none => exact oneLines_nil
    | some e =>
      exact oneLines_cons (by lit1) (oneLines_cons (oneLine_line (by lit1) (fineText_some (h.1 e he)))
        (oneLines_cons (oneLine_line (by lit1) (oneLine_option fun l _ => oneLine_list l))
        (oneLines_cons (oneLine_line (by lit1) (oneLine_append (oneLine_int _) (by lit1))) oneLines_nil)))
  · cases hs : a.secoc with
    | none => exact oneLines_nil
    | some s =>
      obtain ⟨h1, h2⟩ := h.2 s hs
      exact oneLines_cons (by lit1) (oneLines_cons (oneLine_line (by lit1) (fineText_some h1))
        (oneLines_cons (oneLine_line (by lit1) (fineText_some h2))
        (oneLines_cons (oneLine_line (by lit1) (hi _)) (oneLines_cons (oneLine_line (by lit1) (hi _))
        (oneLines_cons (oneLine_line (by lit1) (oneLine_append (hi _) (by lit1)))
        (oneLines_cons (oneLine_line (by lit1) (oneLine_append (hi _) (by lit1)))
        (oneLines_cons (oneLine_line (by lit1) (oneLine_append (hi _) (by lit1))) oneLines_nil)))))))

theorem oneLines_specific {b : Bool} {m : LMessage F} (h : ∀ a, m.autosar = some a → FineAutosar a) :
    OneLines (specificLines b m) := fun t ht => by
  obtain ⟨a, ha, ht⟩ := specific_key ht
  exact oneLines_autosar (h a ha) t ht

/-! ### The signal tree -/

theorem oneLine_idText {choices : List (Int × NamedValue)} (h : ∀ e ∈ choices, OneLine e.2.name) (i : Int) :
    OneLine (idText choices i) := by
  unfold idText
  cases hc : dictGet? choices i with
  | none => exact oneLine_int i
  | some c =>
    exact oneLine_append (h _ (dictGet?_mem hc)) (oneLine_append (by lit1) (oneLine_append (oneLine_int i) (by lit1)))

theorem oneLine_prefix (b : Bool) : OneLine (treePrefix b) := by cases b <;> lit1

theorem oneLines_prefix {p : Chars} (hp : OneLine p) {l : List Line} (h : OneLines l) : OneLines (l.map (p ++ ·)) := fun t ht => by
  obtain ⟨x, hx, rfl⟩ := List.mem_map.1 ht
  exact oneLine_append hp (h x hx)

theorem oneLines_mux {choices : List (Int × NamedValue)} (h : ∀ e ∈ choices, OneLine e.2.name) {l : List (Int × List Line)}
    (hl : ∀ e ∈ l, OneLines e.2) : OneLines (muxLines choices l) := by
  induction l with
  | nil => exact oneLines_nil
  | cons e l ih =>
    obtain ⟨id, lines⟩ := e
    exact oneLines_cons (oneLine_append (by lit1) (oneLine_idText h id)) (oneLines_append
      (oneLines_prefix (oneLine_prefix _) (hl (id, lines) (by simp))) (ih fun e he => hl e (by simp [he])))

theorem oneLine_signalLine {n : Chars} (h : OneLine n) : OneLine (signalLine n) := by
  unfold signalLine
  split
  · lit1
  · exact oneLine_append (by lit1) h

section
variable {choices : String → List (Int × NamedValue)} (hc : ∀ n, ∀ e ∈ choices n, OneLine e.2.name)
include hc
mutual
theorem oneLines_level : ∀ (t : SigTree), (∀ n ∈ t.names, OneLine n.toList) → OneLines (levelLines choices t)
  | .nil, _ => oneLines_nil
  | .leaf n rest, h => by
    rw [levelLines]
    exact oneLines_cons (oneLine_signalLine (h n (by simp [SigTree.names]))) (oneLines_level rest fun m hm =>
      h m (by simp [SigTree.names, hm]))
  | .mux n b rest, h => by
    rw [levelLines]
    refine oneLines_cons (oneLine_signalLine (h n (by simp [SigTree.names]))) (oneLines_append
      (oneLines_prefix (oneLine_prefix _) (oneLines_mux (hc n) fun e he => ?_)) (oneLines_level rest fun m hm =>
        h m (by simp [SigTree.names, hm])))
    exact oneLines_branches b (fun m hm => h m (by simp [SigTree.names, hm])) e ((pySorted_perm _ _).mem_iff.1 he)
theorem oneLines_branches : ∀ (b : TreeBranches), (∀ n ∈ b.names, OneLine n.toList) →
    ∀ e ∈ branchLines choices b, OneLines e.2
  | .nil, _, e, he => by rw [branchLines] at he; cases he
  | .cons i t rest, h, e, he => by
    rw [branchLines] at he
    rcases List.mem_cons.1 he with rfl | he
    · exact oneLines_level t fun m hm => h m (by simp [TreeBranches.names, hm])
    · exact oneLines_branches rest (fun m hm => h m (by simp [TreeBranches.names, hm])) e he
end
end

theorem oneLines_tree {signals : List (LSignal F)} (hw : ∀ s ∈ signals, OneLine s.name)
    (hc : ∀ s ∈ signals, ∀ e ∈ s.choices.getD [], OneLine e.2.name) {lines : List Line}
    (h : treeLines T signals = .ok lines) : OneLines lines := by
  intro l hl
  rcases mem_treeLines h hl with rfl | rfl | rfl | ⟨codec, x, hcodec, hx, rfl⟩
  · lit1
  · lit1
  · lit1
  · refine oneLine_append (by lit1) (oneLines_level (fun n e he => ?_) _ (fun n hn => ?_) x hx)
    · unfold choicesOf at he
      cases hs : signalNamed signals n.toList with
      | error _ => rw [hs] at he; cases he
      | ok s =>
        rw [hs] at he
        exact hc s (signalNamed_ok hs).1 e he
    · obtain ⟨s, hs, rfl⟩ := treeOfCodec_names codec (createCodec_WF hcodec) n hn
      obtain ⟨t, ht, rfl⟩ := List.mem_map.1 hs
      show OneLine (String.ofList t.name).toList
      rw [String.toList_ofList]
      exact hw t ht

/-! ### Signals -/

theorem oneLines_choices {s : LSignal F} (h : ∀ e ∈ s.choices.getD [], OneLine e.2.name ∧ FineComments e.2.comments) :
    OneLines (choicesLines s) := by
  unfold choicesLines
  split
  · exact oneLines_nil
  · refine oneLines_cons (by lit1) fun t ht => ?_
    obtain ⟨e, he, ht⟩ := List.mem_flatMap.1 ht
    exact oneLines_cons (oneLine_line (by lit1) (oneLine_append (oneLine_int _) (oneLine_append (by lit1) (h e he).1)))
      (oneLines_comments (by lit1) (h e he).2) t ht

theorem oneLines_signal (L : FloatLaws T) {signals : List (LSignal F)} (fine : ∀ s ∈ signals, FineSignal T signals s)
    {s : LSignal F} (hs : s ∈ signals) {lines : List Line} (h : signalLines T signals s = .ok lines) : OneLines lines := by
  have f := fine s hs
  obtain ⟨selector, hsel, rfl⟩ := signalLines_ok h
  refine oneLines_cons (oneLine_line (by lit1) (oneLine_append f.name.2.2 (by lit1))) ?_
  simp only [signalSections, List.flatten_cons, List.flatten_nil, List.append_nil]
  have hu := f.unit
  refine oneLines_append (oneLines_comments (by lit1) f.comments) (oneLines_append (oneLines_names (by lit1) f.receivers)
    (oneLines_append ?_ (oneLines_append ?_ (oneLines_append ?_ (oneLines_append ?_
    (oneLines_append (oneLines_value L (by lit1) hu f.initial) (oneLines_append (oneLines_value L (by lit1) hu f.invalid)
    (oneLines_append (oneLines_cons (oneLine_line (by lit1) (oneLine_bool _)) oneLines_nil)
    (oneLines_append (oneLines_value L (by lit1) hu (fineValue_num _)) (oneLines_append (oneLines_value L (by lit1) hu (fineValue_num _))
    (oneLines_append ?_ (oneLines_choices f.choiceNames))))))))))))
  · refine oneLines_cons (oneLine_line (by lit1) ?_) oneLines_nil
    unfold signalType
    split
    · lit1
    · split <;> lit1
  · rcases selectorLines_cases hsel with ⟨-, rfl⟩ | ⟨n, sel, hn, hsel', rfl⟩
    · exact oneLines_nil
    · obtain ⟨m1, m2⟩ := signalNamed_ok hsel'
      have fs := fine sel m1
      refine oneLines_cons (oneLine_line (by lit1) (m2 ▸ fs.name.2.2)) (oneLines_cons (oneLine_line (by lit1)
        (oneLine_join (by lit1) fun t ht => ?_)) oneLines_nil)
      obtain ⟨i, -, rfl⟩ := List.mem_map.1 ht
      unfold selectorValue
      cases hc : dictGet? (sel.choices.getD []) i with
      | none => exact oneLine_int i
      | some c => exact (fs.choiceNames _ (dictGet?_mem hc)).1
  · exact oneLines_cons (oneLine_line (by lit1) (oneLine_nat _)) (oneLines_cons (oneLine_line (by lit1)
      (oneLine_append (oneLine_nat _) (by lit1))) (oneLines_cons (oneLine_line (by lit1) (oneLine_order _)) oneLines_nil))
  · unfold unitLine
    split
    · exact oneLines_nil
    · exact oneLines_cons (oneLine_line (by lit1) hu) oneLines_nil
  · unfold scalingLines
    split
    · exact oneLines_cons (oneLine_line (by lit1) (oneLine_format L hu trivial)) (oneLines_cons (oneLine_line (by lit1)
        (oneLine_format L hu trivial)) oneLines_nil)
    · exact oneLines_nil

theorem oneLines_sections (L : FloatLaws T) {sp c : Bool} {m : LMessage F} (hm : FineMessage T m) {tree : List Line}
    (h : treeLines T m.signals = .ok tree) : OneLines (messageSections T sp c m tree).flatten := by
  simp only [messageSections, List.flatten_cons, List.flatten_nil, List.append_nil]
  exact oneLines_append (oneLines_comments (by lit1) hm.comments) (oneLines_append (oneLines_bus hm.busName)
    (oneLines_append (oneLines_names (by lit1) hm.senders) (oneLines_append (oneLines_ids _ _)
    (oneLines_append (oneLines_cycle L m) (oneLines_append (oneLines_specific hm.autosar)
    (oneLines_tree (fun s hs => (hm.signals s hs).name.2.2) (fun s hs e he => ((hm.signals s hs).choiceNames e he).1) h))))))

theorem oneLines_details (L : FloatLaws T) {signals : List (LSignal F)} (fine : ∀ s ∈ signals, FineSignal T signals s)
    {lines : List Line} (h : detailLines T signals = .ok lines) : OneLines lines := by
  rcases details_cases h with ⟨-, rfl⟩ | ⟨-, d, hd, rfl⟩
  · exact oneLines_nil
  · refine oneLines_cons (by lit1) fun t ht => ?_
    obtain ⟨b, hb, ht⟩ := List.mem_flatten.1 ht
    obtain ⟨s, hs, e⟩ := forall₂_partner' (mapM_ok hd) hb
    exact oneLines_signal L fine hs e t ht

theorem oneLines_message (L : FloatLaws T) {sp : Bool} {m : LMessage F} (hm : FineMessage T m) {lines : List Line}
    (h : messageLines T sp m = .ok lines) : OneLines lines := by
  obtain ⟨tree, details, h1, h2, rfl⟩ := messageLines_ok h
  exact oneLines_cons (oneLine_append hm.name.1 (by lit1)) (oneLines_append (oneLines_sections L hm h1)
    (oneLines_details L hm.signals h2))

end Cantools.Listing
