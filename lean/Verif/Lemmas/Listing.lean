import Verif.Lemmas.ListingText
import Verif.Lemmas.Path
import Verif.Lemmas.SpreadFrame
import Verif.Spec.Listing

/-
What the listing of a message tells about it.
-/

namespace Cantools.Listing
open Cantools Dbc Spec Spec.Listed

variable {F : Type} {T : FloatText F}

/-! ### Keys of lines -/

/-- What a line begins with: many blanks, or a label. -/
def key (n : Nat) (l : Line) : Chars :=
  if (List.replicate n ' ').isPrefixOf l then List.replicate n ' ' else l.takeWhile (fun c => c ≠ ':' && c ≠ '[')

def messageKeys : List (List Chars) :=
  [["  Comment".toList], ["  Bus".toList], ["  Sending ECUs".toList],
   ["  Frame ID".toList, "  Maximum Size".toList, "  Size".toList, "  Is extended frame".toList,
     "  Is CAN-FD frame".toList, "  Header ID".toList],
   ["  Cycle time".toList],
   ["  Is network management frame".toList, "  End-to-end properties".toList, "    Category".toList,
     "    Data IDs".toList, "    Protected size".toList, "  Is secured".toList, "  Security properties".toList,
     "    Authentication algorithm".toList, "    Freshness algorithm".toList, "    Data ID".toList,
     "    Authentication transmit bits".toList, "    Freshness counter size".toList,
     "    Freshness counter transmit size".toList, "    Secured size".toList],
   [[], "  Signal tree".toList, "    -- {root}".toList, "       ".toList]]

def signalKeys : List (List Chars) :=
  [["      Comment".toList], ["      Receiving ECUs".toList], ["      Internal type".toList],
   ["      Selector signal".toList, "      Selector values".toList],
   ["      Start bit".toList, "      Length".toList, "      Byte order".toList], ["      Unit".toList],
   ["      Initial value".toList], ["      Invalid value".toList], ["      Is signed".toList],
   ["      Minimum".toList], ["      Maximum".toList], ["      Offset".toList, "      Scaling factor".toList],
   ["      Named values".toList, "        ".toList]]

theorem messageKeys_disjoint : messageKeys.Pairwise fun K K' => ∀ k ∈ K, k ∉ K' := by decide +kernel

theorem signalKeys_disjoint : signalKeys.Pairwise fun K K' => ∀ k ∈ K, k ∉ K' := by decide +kernel

theorem comments_key {n : Nat} {label k : String} {cs : Comments} (h : ∀ v, key n (line label v) = k.toList)
    {l : Line} (hl : l ∈ commentLines label cs) : key n l ∈ [k.toList] := by
  obtain ⟨c, -, rfl⟩ := List.mem_map.1 hl
  rw [h]
  simp

theorem names_key {n : Nat} {label k : String} {names : List Chars} (h : ∀ v, key n (line label v) = k.toList)
    {l : Line} (hl : l ∈ namesLine label names) : key n l ∈ [k.toList] := by
  unfold namesLine at hl
  split at hl
  · cases hl
  · rw [List.mem_singleton] at hl
    rw [hl, h]
    simp

theorem value_key {n : Nat} {label k : String} {unit : Chars} {v : Option (Shown F)}
    (h : ∀ v, key n (line label v) = k.toList) {l : Line} (hl : l ∈ valueLine T label unit v) : key n l ∈ [k.toList] := by
  cases v with
  | none => cases hl
  | some v =>
    rw [valueLine, List.mem_singleton] at hl
    rw [hl, h]
    simp

theorem bus_key {m : LMessage F} {l : Line} (hl : l ∈ busLine m) : key 7 l ∈ ["  Bus".toList] := by
  unfold busLine at hl
  split at hl
  · cases hl
  · rw [List.mem_singleton] at hl
    rw [hl]
    exact List.mem_of_elem_eq_true rfl

theorem id_key {c : Bool} {m : LMessage F} {l : Line} (hl : l ∈ idLines c m) :
    key 7 l ∈ ["  Frame ID".toList, "  Maximum Size".toList, "  Size".toList, "  Is extended frame".toList,
     "  Is CAN-FD frame".toList, "  Header ID".toList] := by
  unfold idLines at hl
  cases hh : m.headerId with
  | none =>
    rw [hh] at hl
    simp only [List.mem_cons, List.not_mem_nil, or_false] at hl
    rcases hl with rfl | rfl | rfl | rfl
    · exact List.mem_of_elem_eq_true rfl
    · cases c <;> exact List.mem_of_elem_eq_true rfl
    · exact List.mem_of_elem_eq_true rfl
    · exact List.mem_of_elem_eq_true rfl
  | some h =>
    rw [hh] at hl
    simp only [List.mem_cons, List.not_mem_nil, or_false] at hl
    rcases hl with rfl | rfl <;> exact List.mem_of_elem_eq_true rfl

theorem cycle_key {m : LMessage F} {l : Line} (hl : l ∈ cycleLine T m) : key 7 l ∈ ["  Cycle time".toList] := by
  unfold cycleLine at hl
  cases hh : m.cycleTime with
  | none => rw [hh] at hl; cases hl
  | some t =>
    rw [hh] at hl
    replace hl := List.mem_singleton.1 hl
    rw [hl]
    exact List.mem_of_elem_eq_true rfl

theorem autosar_key {a : Autosar} {l : Line} (hl : l ∈ autosarLines a) :
    key 7 l ∈ ["  Is network management frame".toList, "  End-to-end properties".toList, "    Category".toList,
     "    Data IDs".toList, "    Protected size".toList, "  Is secured".toList, "  Security properties".toList,
     "    Authentication algorithm".toList, "    Freshness algorithm".toList, "    Data ID".toList,
     "    Authentication transmit bits".toList, "    Freshness counter size".toList,
     "    Freshness counter transmit size".toList, "    Secured size".toList] := by
  unfold autosarLines at hl
  simp only [List.mem_append, List.mem_singleton] at hl
  rcases hl with rfl | hl | rfl | hl
  · exact List.mem_of_elem_eq_true rfl
  · cases he : a.e2e with
    | none => rw [he] at hl; cases hl
    | some e =>
      rw [he] at hl
      simp only [List.mem_cons, List.not_mem_nil, or_false] at hl
      rcases hl with rfl | rfl | rfl | rfl <;> exact List.mem_of_elem_eq_true rfl
  · exact List.mem_of_elem_eq_true rfl
  · cases he : a.secoc with
    | none => rw [he] at hl; cases hl
    | some e =>
      rw [he] at hl
      simp only [List.mem_cons, List.not_mem_nil, or_false] at hl
      rcases hl with rfl | rfl | rfl | rfl | rfl | rfl | rfl | rfl <;> exact List.mem_of_elem_eq_true rfl

theorem specific_key {b : Bool} {m : LMessage F} {l : Line} (hl : l ∈ specificLines b m) :
    ∃ a, m.autosar = some a ∧ l ∈ autosarLines a := by
  unfold specificLines at hl
  cases ha : m.autosar with
  | none => rw [ha] at hl; cases hl
  | some a =>
    rw [ha] at hl
    cases b
    · cases hl
    · exact ⟨a, rfl, hl⟩

/-- The lines of the signal tree. -/
theorem mem_treeLines {signals : List (LSignal F)} {lines : List Line} (h : treeLines T signals = .ok lines) {l : Line}
    (hl : l ∈ lines) : l = "  Signal tree:".toList ∨ l = [] ∨ l = "    -- {root}".toList ∨
      ∃ codec x, createCodec (signals.map (·.core T)) (signals.length + 1) none none = some codec ∧
        x ∈ levelLines (choicesOf signals) (treeOfCodec codec) ∧ l = "       ".toList ++ x := by
  unfold treeLines at h
  split at h
  · cases h
    cases hl
  · obtain ⟨tree, h1, h2⟩ := bind_ok_iff.1 h
    cases h2
    unfold signalTree at h1
    cases hc : createCodec (signals.map (·.core T)) (signals.length + 1) none none with
    | none => rw [hc] at h1; cases h1
    | some codec =>
      rw [hc] at h1
      cases h1
      simp only [List.map_cons, List.map_map, List.mem_append, List.mem_cons, List.mem_map, List.not_mem_nil, or_false] at hl
      rcases hl with (rfl | rfl) | (rfl | ⟨x, hx, rfl⟩) | rfl
      · exact .inl rfl
      · exact .inr (.inl rfl)
      · exact .inr (.inr (.inl rfl))
      · exact .inr (.inr (.inr ⟨codec, x, rfl, hx, rfl⟩))
      · exact .inr (.inl rfl)

theorem tree_key {signals : List (LSignal F)} {lines : List Line} (h : treeLines T signals = .ok lines) {l : Line}
    (hl : l ∈ lines) : key 7 l ∈ [[], "  Signal tree".toList, "    -- {root}".toList, "       ".toList] := by
  rcases mem_treeLines h hl with rfl | rfl | rfl | ⟨-, x, -, -, rfl⟩ <;> exact List.mem_of_elem_eq_true rfl

/-! ### Messages -/

/-- The parts of a listing. -/
def messageSections (T : FloatText F) (specifics c : Bool) (m : LMessage F) (tree : List Line) : List (List Line) :=
  [commentLines "  Comment[" (m.comments.getD []), busLine m, namesLine "  Sending ECUs: " m.senders, idLines c m,
    cycleLine T m, specificLines specifics m, tree]

theorem message_keys {specifics c : Bool} {m : LMessage F} {tree : List Line} (h : treeLines T m.signals = .ok tree) :
    List.Forall₂ (fun s K => ∀ l ∈ s, key 7 l ∈ K) (messageSections T specifics c m tree) messageKeys :=
  .cons (fun _ hl => comments_key (k := "  Comment") (fun _ => rfl) hl) (.cons (fun _ hl => bus_key hl)
    (.cons (fun _ hl => names_key (k := "  Sending ECUs") (fun _ => rfl) hl) (.cons (fun _ hl => id_key hl)
    (.cons (fun _ hl => cycle_key hl) (.cons (fun _ hl => by obtain ⟨a, -, ha⟩ := specific_key hl; exact autosar_key ha)
    (.cons (fun _ hl => tree_key h hl) .nil))))))

theorem details_cases {signals : List (LSignal F)} {lines : List Line} (h : detailLines T signals = .ok lines) :
    (signals = [] ∧ lines = []) ∨ (signals ≠ [] ∧ ∃ details, signals.mapM (signalLines T signals) = .ok details ∧
      lines = "  Signal details:".toList :: details.flatten) := by
  unfold detailLines at h
  split at h
  · rename_i he
    cases h
    exact .inl ⟨he, rfl⟩
  · rename_i he
    obtain ⟨details, h1, h2⟩ := bind_ok_iff.1 h
    cases h2
    exact .inr ⟨he, details, h1, rfl⟩

theorem messageLines_ok {specifics : Bool} {m : LMessage F} {lines : List Line}
    (h : messageLines T specifics m = .ok lines) : ∃ tree details, treeLines T m.signals = .ok tree ∧
      detailLines T m.signals = .ok details ∧
      lines = (m.name ++ [':']) :: ((messageSections T specifics false m tree).flatten ++ details) := by
  unfold messageLines at h
  obtain ⟨tree, h1, h⟩ := bind_ok_iff.1 h
  obtain ⟨details, h2, h⟩ := bind_ok_iff.1 h
  cases h
  refine ⟨tree, details, h1, h2, ?_⟩
  simp [headLines, messageSections]

theorem details_not_mem {specifics c : Bool} {m : LMessage F} {tree : List Line} (h : treeLines T m.signals = .ok tree) :
    "  Signal details:".toList ∉ (messageSections T specifics c m tree).flatten := by
  intro hl
  obtain ⟨s, hs, hl⟩ := List.mem_flatten.1 hl
  have : ∀ {A : List (List Line)} {Ks : List (List Chars)}, List.Forall₂ (fun s K => ∀ l ∈ s, key 7 l ∈ K) A Ks →
      s ∈ A → ∃ K ∈ Ks, key 7 "  Signal details:".toList ∈ K := by
    intro A Ks h hs
    induction h with
    | nil => cases hs
    | @cons a K A Ks e _ ih =>
      rcases List.mem_cons.1 hs with rfl | hs
      · exact ⟨K, by simp, e _ hl⟩
      · obtain ⟨K', h1, h2⟩ := ih hs
        exact ⟨K', by simp [h1], h2⟩
  obtain ⟨K, hK, hk⟩ := this (message_keys h) hs
  exact absurd hk ((by decide +kernel : ∀ K ∈ messageKeys, key 7 "  Signal details:".toList ∉ K) K hK)

/-- The parts of two listings that are the same. -/
theorem message_split {sp sp' : Bool} {m m' : LMessage F} {lines : List Line} (h : messageLines T sp m = .ok lines)
    (h' : messageLines T sp' m' = .ok lines) :
    m.name = m'.name ∧ (∃ tree tree', messageSections T sp false m tree = messageSections T sp' false m' tree') ∧
      ∃ details, detailLines T m.signals = .ok details ∧ detailLines T m'.signals = .ok details := by
  obtain ⟨tree, details, h1, h2, rfl⟩ := messageLines_ok h
  obtain ⟨tree', details', h1', h2', e⟩ := messageLines_ok h'
  rw [List.cons.injEq] at e
  obtain ⟨e1, e2⟩ := e
  have hs : (messageSections T sp false m tree).flatten = (messageSections T sp' false m' tree').flatten ∧
      details = details' := by
    rcases details_cases h2 with ⟨-, rfl⟩ | ⟨-, d, -, rfl⟩ <;> rcases details_cases h2' with ⟨-, rfl⟩ | ⟨-, d', -, rfl⟩
    · exact ⟨by simpa using e2, rfl⟩
    · refine absurd ?_ (details_not_mem (T := T) (specifics := sp) (c := false) h1)
      rw [List.append_nil] at e2
      rw [e2]
      simp
    · refine absurd ?_ (details_not_mem (T := T) (specifics := sp') (c := false) h1')
      rw [List.append_nil] at e2
      rw [← e2]
      simp
    · obtain ⟨a, b⟩ := cut_eq (details_not_mem h1) (details_not_mem h1') e2
      exact ⟨a, by rw [b]⟩
  refine ⟨List.append_cancel_right e1, ⟨tree, tree', ?_⟩, details, h2, hs.2 ▸ h2'⟩
  exact sections_eq (key := key 7) messageKeys_disjoint (message_keys h1) (message_keys h1') hs.1

/-! ### Values -/

theorem comments_eq {label : String} {a b : Comments} (ha : FineComments a) (hb : FineComments b)
    (h : commentLines label a = commentLines label b) : a = b := by
  induction a generalizing b with
  | nil =>
    cases b with
    | nil => rfl
    | cons c b => cases h
  | cons c a ih =>
    cases b with
    | nil => cases h
    | cons d b =>
      rw [commentLines, commentLines, List.map_cons, List.map_cons, List.cons.injEq] at h
      obtain ⟨e, h⟩ := h
      replace e : c.1 ++ ']' :: ':' :: ' ' :: c.2 = d.1 ++ ']' :: ':' :: ' ' :: d.2 := List.append_cancel_left e
      obtain ⟨e1, e2⟩ := cut_eq (ha c (by simp)).2.1 (hb d (by simp)).2.1 e
      rw [List.cons.injEq, List.cons.injEq] at e2
      rw [ih (fun x hx => ha x (by simp [hx])) (fun x hx => hb x (by simp [hx])) h, Prod.ext e1 e2.2.2]

theorem pySorted_perm {α : Type} (le : α → α → Bool) (l : List α) : (pySorted le l).Perm l := by
  have ins : ∀ (a : α) (l : List α), (pySorted.ins le a l).Perm (a :: l) := by
    intro a l
    induction l with
    | nil => exact .refl _
    | cons b l ih =>
      rw [pySorted.ins]
      split
      · exact .refl _
      · exact (List.Perm.cons b ih).trans (.swap a b l)
  induction l with
  | nil => exact .refl _
  | cons a l ih => exact (ins a _).trans (.cons a ih)

theorem sortTexts_perm (l : List Chars) : (sortTexts l).Perm l := pySorted_perm _ l

theorem names_eq {label : String} {a b : List Chars} (ha : Separable a) (hb : Separable b)
    (h : namesLine label a = namesLine label b) : b.Perm a := by
  unfold namesLine at h
  split at h <;> split at h
  · subst_vars; exact .refl _
  · cases h
  · cases h
  · rw [List.cons.injEq] at h
    have e := List.append_cancel_left h.1
    have hp := sortTexts_perm a
    have hq := sortTexts_perm b
    rename_i ha0 hb0
    have := join_eq (fun t ht => (ha t (hp.mem_iff.1 ht)).2) (fun t ht => (hb t (hq.mem_iff.1 ht)).2)
      (fun e => ha0 (List.perm_nil.1 (e ▸ hp).symm)) (fun e => hb0 (List.perm_nil.1 (e ▸ hq).symm)) e
    exact hq.symm.trans (this ▸ hp)

theorem idsText_inj {i j : Int} (h : idsText i = idsText j) : i = j := by
  have := congrArg List.reverse h
  unfold idsText at this
  simp only [List.reverse_append, List.reverse_cons, List.reverse_nil, List.nil_append, List.append_assoc] at this
  replace this : ')' :: ((intText i).reverse ++ '(' :: ' ' :: (hexText i).reverse) =
      ')' :: ((intText j).reverse ++ '(' :: ' ' :: (hexText j).reverse) := by simpa using this
  rw [List.cons.injEq] at this
  have no : ∀ i : Int, '(' ∉ (intText i).reverse := by
    intro i hi
    rcases intText_chars (List.mem_reverse.1 hi) with e | e
    · exact absurd e (by decide)
    · exact absurd e (by decide)
  obtain ⟨e, -⟩ := cut_eq (no i) (no j) this.2
  exact intText_inj (List.reverse_injective e)

theorem boolText_inj {a b : Bool} (h : boolText a = boolText b) : a = b := by
  cases a <;> cases b <;> first | rfl | exact absurd h (by decide)

theorem orderText_inj {a b : ByteOrder} (h : orderText a = orderText b) : a = b := by
  cases a <;> cases b <;> first | rfl | exact absurd h (by decide)

theorem formatNum_inj (L : FloatLaws T) {a b : Num F} {unit : Chars}
    (h : formatVal T (.num a) unit = formatVal T (.num b) unit) : a = b := by
  unfold formatVal at h
  dsimp only at h
  split at h
  · exact Num.text_inj L h
  · exact Num.text_inj L (List.append_cancel_right h)

theorem valueNum_inj (L : FloatLaws T) {label : String} {a b : Option (Num F)} {unit : Chars}
    (h : valueLine T label unit (a.map .num) = valueLine T label unit (b.map .num)) : a = b := by
  cases a with
  | none =>
    cases b with
    | none => rfl
    | some b => cases h
  | some a =>
    cases b with
    | none => cases h
    | some b =>
      simp only [Option.map_some, valueLine, List.cons.injEq, and_true] at h
      rw [formatNum_inj L (List.append_cancel_left h)]


/-! ### Signals -/

def signalSections (T : FloatText F) (signals : List (LSignal F)) (s : LSignal F) (selector : List Line) :
    List (List Line) :=
  [commentLines "      Comment[" (s.comments.getD []), namesLine "      Receiving ECUs: " s.receivers,
    [line "      Internal type: " (signalType signals s)], selector, placeLines s, unitLine s,
    valueLine T "      Initial value: " (s.unit.getD []) s.initial,
    valueLine T "      Invalid value: " (s.unit.getD []) s.invalid,
    [line "      Is signed: " (boolText s.isSigned)],
    valueLine T "      Minimum: " (s.unit.getD []) (s.minimum.map .num),
    valueLine T "      Maximum: " (s.unit.getD []) (s.maximum.map .num),
    scalingLines T s, choicesLines s]

theorem signalLines_ok {signals : List (LSignal F)} {s : LSignal F} {lines : List Line}
    (h : signalLines T signals s = .ok lines) : ∃ selector, selectorLines signals s = .ok selector ∧
      lines = line "    " (s.name ++ [':']) :: (signalSections T signals s selector).flatten := by
  unfold signalLines at h
  obtain ⟨selector, h1, h⟩ := bind_ok_iff.1 h
  cases h
  refine ⟨selector, h1, ?_⟩
  simp [signalSections]

theorem selectorLines_cases {signals : List (LSignal F)} {s : LSignal F} {lines : List Line}
    (h : selectorLines signals s = .ok lines) : (s.multiplexerSignal = none ∧ lines = []) ∨
      ∃ n sel, s.multiplexerSignal = some n ∧ signalNamed signals n = .ok sel ∧
        lines = [line "      Selector signal: " n, line "      Selector values: "
          (joinC ", ".toList ((s.multiplexerIds.getD []).map (selectorValue sel)))] := by
  unfold selectorLines at h
  cases hs : s.multiplexerSignal with
  | none =>
    rw [hs] at h
    cases h
    exact .inl ⟨rfl, rfl⟩
  | some n =>
    rw [hs] at h
    obtain ⟨sel, h1, h⟩ := bind_ok_iff.1 h
    cases h
    exact .inr ⟨n, sel, rfl, h1, rfl⟩

theorem selector_key {signals : List (LSignal F)} {s : LSignal F} {lines : List Line}
    (h : selectorLines signals s = .ok lines) {l : Line} (hl : l ∈ lines) :
    key 8 l ∈ ["      Selector signal".toList, "      Selector values".toList] := by
  rcases selectorLines_cases h with ⟨-, rfl⟩ | ⟨n, sel, -, -, rfl⟩
  · cases hl
  · simp only [List.mem_cons, List.not_mem_nil, or_false] at hl
    rcases hl with rfl | rfl <;> exact List.mem_of_elem_eq_true rfl

theorem place_key {s : LSignal F} {l : Line} (hl : l ∈ placeLines s) :
    key 8 l ∈ ["      Start bit".toList, "      Length".toList, "      Byte order".toList] := by
  simp only [placeLines, List.mem_cons, List.not_mem_nil, or_false] at hl
  rcases hl with rfl | rfl | rfl <;> exact List.mem_of_elem_eq_true rfl

theorem unit_key {s : LSignal F} {l : Line} (hl : l ∈ unitLine s) : key 8 l ∈ ["      Unit".toList] := by
  unfold unitLine at hl
  split at hl
  · cases hl
  · rw [List.mem_singleton] at hl
    rw [hl]
    exact List.mem_of_elem_eq_true rfl

theorem scaling_key {s : LSignal F} {l : Line} (hl : l ∈ scalingLines T s) :
    key 8 l ∈ ["      Offset".toList, "      Scaling factor".toList] := by
  unfold scalingLines at hl
  split at hl
  · simp only [List.mem_cons, List.not_mem_nil, or_false] at hl
    rcases hl with rfl | rfl <;> exact List.mem_of_elem_eq_true rfl
  · cases hl

theorem mem_choiceLines {e : Int × NamedValue} {l : Line} (hl : l ∈ choiceLines e) :
    ∃ x, l = "        ".toList ++ x := by
  rcases List.mem_cons.1 hl with rfl | hl
  · exact ⟨_, rfl⟩
  · obtain ⟨c, -, rfl⟩ := List.mem_map.1 hl
    exact ⟨"  Comment[".toList ++ (c.1 ++ ("]: ".toList ++ c.2)), rfl⟩

theorem choices_key {s : LSignal F} {l : Line} (hl : l ∈ choicesLines s) :
    key 8 l ∈ ["      Named values".toList, "        ".toList] := by
  unfold choicesLines at hl
  split at hl
  · cases hl
  · rcases List.mem_cons.1 hl with rfl | hl
    · exact List.mem_of_elem_eq_true rfl
    · obtain ⟨e, -, hl⟩ := List.mem_flatMap.1 hl
      obtain ⟨x, rfl⟩ := mem_choiceLines hl
      exact List.mem_of_elem_eq_true rfl

theorem signal_keys {signals : List (LSignal F)} {s : LSignal F} {selector : List Line}
    (h : selectorLines signals s = .ok selector) :
    List.Forall₂ (fun s K => ∀ l ∈ s, key 8 l ∈ K) (signalSections T signals s selector) signalKeys :=
  .cons (fun _ hl => comments_key (k := "      Comment") (fun _ => rfl) hl)
    (.cons (fun _ hl => names_key (k := "      Receiving ECUs") (fun _ => rfl) hl)
    (.cons (fun _ hl => by rw [List.mem_singleton.1 hl]; exact List.mem_of_elem_eq_true rfl)
    (.cons (fun _ hl => selector_key h hl) (.cons (fun _ hl => place_key hl) (.cons (fun _ hl => unit_key hl)
    (.cons (fun _ hl => value_key (k := "      Initial value") (fun _ => rfl) hl)
    (.cons (fun _ hl => value_key (k := "      Invalid value") (fun _ => rfl) hl)
    (.cons (fun _ hl => by rw [List.mem_singleton.1 hl]; exact List.mem_of_elem_eq_true rfl)
    (.cons (fun _ hl => value_key (k := "      Minimum") (fun _ => rfl) hl)
    (.cons (fun _ hl => value_key (k := "      Maximum") (fun _ => rfl) hl)
    (.cons (fun _ hl => scaling_key hl) (.cons (fun _ hl => choices_key hl) .nil))))))))))))

/-- Lines with the name of a signal: no more than four blanks. -/
def isName (l : Line) : Bool := !("     ".toList.isPrefixOf l)

theorem isName_key {l : Line} (h : ∃ K ∈ signalKeys, key 8 l ∈ K) : isName l = false := by
  obtain ⟨K, hK, hk⟩ := h
  have h1 : ∀ K ∈ signalKeys, ∀ k ∈ K, isName k = false := by decide +kernel
  have h2 := h1 K hK _ hk
  unfold key at h2
  unfold isName at h2 ⊢
  rw [Bool.not_eq_false'] at h2 ⊢
  rw [List.isPrefixOf_iff_prefix] at h2 ⊢
  split at h2
  · rename_i h3
    exact h2.trans (List.isPrefixOf_iff_prefix.1 h3)
  · exact h2.trans (List.takeWhile_prefix _)

theorem mem_keys {n : Nat} {A : List (List Line)} {Ks : List (List Chars)}
    (h : List.Forall₂ (fun s K => ∀ l ∈ s, key n l ∈ K) A Ks) {l : Line} (hl : l ∈ A.flatten) : ∃ K ∈ Ks, key n l ∈ K := by
  induction h with
  | nil => cases hl
  | @cons a K A Ks e _ ih =>
    rw [List.flatten_cons] at hl
    rcases List.mem_append.1 hl with hs | hs
    · exact ⟨K, by simp, e _ hs⟩
    · obtain ⟨K', h1, h2⟩ := ih hs
      exact ⟨K', by simp [h1], h2⟩

theorem isName_name {name : Chars} (h : Word name) : isName (line "    " (name ++ [':'])) = true := by
  obtain ⟨h1, h2, -⟩ := h
  cases name with
  | nil => exact absurd rfl h1
  | cons c r =>
    have : (' ' == c) = false := by
      rw [beq_eq_false_iff_ne]
      intro e
      exact h2 (List.mem_cons.2 (.inl e))
    show (!(' ' == ' ' && (' ' == ' ' && (' ' == ' ' && (' ' == ' ' && (' ' == c && true)))))) = true
    rw [this]
    rfl

/-- Blocks of lines of signals. -/
theorem signal_block {signals : List (LSignal F)} {s : LSignal F} {lines : List Line} (hw : Word s.name)
    (h : signalLines T signals s = .ok lines) :
    ∃ x t, lines = x :: t ∧ isName x = true ∧ ∀ y ∈ t, isName y = false := by
  obtain ⟨selector, h1, rfl⟩ := signalLines_ok h
  exact ⟨_, _, rfl, isName_name hw, fun y hy => isName_key (mem_keys (signal_keys (T := T) h1) hy)⟩

theorem mapM_ok {α β : Type} {f : α → Except Err β} {l : List α} {r : List β} (h : l.mapM f = .ok r) :
    List.Forall₂ (fun a b => f a = .ok b) l r := by
  induction l generalizing r with
  | nil =>
    cases h
    exact .nil
  | cons a l ih =>
    rw [List.mapM_cons] at h
    obtain ⟨b, h1, h⟩ := bind_ok_iff.1 h
    obtain ⟨bs, h2, h⟩ := bind_ok_iff.1 h
    cases h
    exact .cons h1 (ih h2)

theorem forall₂_join {α β γ : Type} {R : α → γ → Prop} {S : β → γ → Prop} {l : List α} {k : List β} {m : List γ}
    (h : List.Forall₂ R l m) (h' : List.Forall₂ S k m) : List.Forall₂ (fun a b => ∃ c, R a c ∧ S b c) l k := by
  induction h generalizing k with
  | nil => cases h'; exact .nil
  | cons e _ ih =>
    cases h' with
    | cons e' h' => exact .cons ⟨_, e, e'⟩ (ih h')

theorem blocks_of {signals : List (LSignal F)} {details : List (List Line)} (hw : ∀ s ∈ signals, Word s.name)
    {all : List (LSignal F)} (h : List.Forall₂ (fun s l => signalLines T all s = .ok l) signals details) :
    ∀ b ∈ details, ∃ x t, b = x :: t ∧ isName x = true ∧ ∀ y ∈ t, isName y = false := by
  intro b hb
  induction h with
  | nil => cases hb
  | @cons s l _ _ e _ ih =>
    rcases List.mem_cons.1 hb with rfl | hb
    · exact signal_block (hw s (by simp)) e
    · exact ih (fun s hs => hw s (by simp [hs])) hb

/-- Signals with the same listing, one by one. -/
theorem details_split {sigs sigs' : List (LSignal F)} {lines : List Line} (hw : ∀ s ∈ sigs, Word s.name)
    (hw' : ∀ s ∈ sigs', Word s.name) (h : detailLines T sigs = .ok lines) (h' : detailLines T sigs' = .ok lines) :
    List.Forall₂ (fun s s' => ∃ l, signalLines T sigs s = .ok l ∧ signalLines T sigs' s' = .ok l) sigs sigs' := by
  rcases details_cases h with ⟨rfl, rfl⟩ | ⟨hn, d, hd, rfl⟩ <;> rcases details_cases h' with ⟨e, e'⟩ | ⟨hn', d', hd', e'⟩
  · subst e
    exact .nil
  · cases e'
  · cases e'
  · have e := (List.cons.inj e').2
    have := blocks_eq (blocks_of hw (mapM_ok hd)) (blocks_of hw' (mapM_ok hd')) e
    subst this
    exact forall₂_join (mapM_ok hd) (mapM_ok hd')

/-! ### Named values -/

/-- Lines with a named value: no more than eight blanks. -/
def isValue (l : Line) : Bool := !("         ".toList.isPrefixOf l)

theorem choice_block (e : Int × NamedValue) :
    ∃ x t, choiceLines e = x :: t ∧ isValue x = true ∧ ∀ y ∈ t, isValue y = false := by
  refine ⟨_, _, rfl, ?_, ?_⟩
  · obtain ⟨c, r, hc⟩ : ∃ c r, intText e.1 = c :: r := by
      cases h : intText e.1 with
      | nil =>
        exfalso
        unfold intText at h
        split at h
        · cases h
        · exact (decimal_digits _).1 h
      | cons c r => exact ⟨c, r, rfl⟩
    have hb : (' ' == c) = false := by
      rw [beq_eq_false_iff_ne]
      rintro rfl
      have hm : ' ' ∈ intText e.1 := by rw [hc]; simp
      rcases intText_chars hm with h | h
      · exact absurd h (by decide)
      · exact absurd h (by decide)
    rw [hc]
    show (!(' ' == ' ' && (' ' == ' ' && (' ' == ' ' && (' ' == ' ' && (' ' == ' ' && (' ' == ' ' && (' ' == ' ' &&
      (' ' == ' ' && (' ' == c && true)))))))))) = true
    rw [hb]
    rfl
  · intro y hy
    obtain ⟨c, -, rfl⟩ := List.mem_map.1 hy
    rfl

theorem choices_eq {a b : List (Int × NamedValue)} (ha : ∀ e ∈ a, OneLine e.2.name ∧ FineComments e.2.comments)
    (hb : ∀ e ∈ b, OneLine e.2.name ∧ FineComments e.2.comments)
    (h : a.flatMap choiceLines = b.flatMap choiceLines) : a = b := by
  have hblock : ∀ l : List (Int × NamedValue), ∀ x ∈ l.map choiceLines,
      ∃ y t, x = y :: t ∧ isValue y = true ∧ ∀ z ∈ t, isValue z = false := by
    intro l x hx
    obtain ⟨e, -, rfl⟩ := List.mem_map.1 hx
    exact choice_block e
  have := blocks_eq (hblock a) (hblock b) (by rw [← List.flatMap_def, ← List.flatMap_def]; exact h)
  clear h
  induction a generalizing b with
  | nil =>
    cases b with
    | nil => rfl
    | cons e b => cases this
  | cons d a ih =>
    cases b with
    | nil => cases this
    | cons e b =>
      rw [List.map_cons, List.map_cons, List.cons.injEq] at this
      rw [ih (fun x hx => ha x (by simp [hx])) (fun x hx => hb x (by simp [hx])) this.2]
      have h1 := this.1
      rw [choiceLines, choiceLines, List.cons.injEq] at h1
      have hc := comments_eq (ha d (by simp)).2 (hb e (by simp)).2 h1.2
      replace h1 : intText d.1 ++ ':' :: ' ' :: d.2.name = intText e.1 ++ ':' :: ' ' :: e.2.name :=
        List.append_cancel_left h1.1
      have no : ∀ i : Int, ':' ∉ intText i := by
        intro i hi
        rcases intText_chars hi with e | e <;> exact absurd e (by decide)
      obtain ⟨h2, h3⟩ := cut_eq (no d.1) (no e.1) h1
      have h4 := (List.cons.inj h3).2
      obtain ⟨i, ⟨n, cs⟩⟩ := d
      obtain ⟨j, ⟨n', cs'⟩⟩ := e
      dsimp only at hc h2 h4
      rw [intText_inj h2, h4, hc]

theorem choicesLines_eq {a b : LSignal F} (ha : ∀ e ∈ a.choices.getD [], OneLine e.2.name ∧ FineComments e.2.comments)
    (hb : ∀ e ∈ b.choices.getD [], OneLine e.2.name ∧ FineComments e.2.comments) (ha0 : a.choices ≠ some [])
    (hb0 : b.choices ≠ some []) (h : choicesLines a = choicesLines b) : a.choices = b.choices := by
  have e : a.choices.getD [] = b.choices.getD [] := by
    unfold choicesLines at h
    split at h <;> split at h
    · rename_i h1 h2
      rw [h1, h2]
    · cases h
    · cases h
    · exact choices_eq ha hb (List.cons.inj h).2
  cases hca : a.choices with
  | none =>
    cases hcb : b.choices with
    | none => rfl
    | some y =>
      rw [hca, hcb] at e
      exact absurd (hcb.trans (congrArg some e.symm)) hb0
  | some x =>
    cases hcb : b.choices with
    | none =>
      rw [hca, hcb] at e
      exact absurd (hca.trans (congrArg some e)) ha0
    | some y =>
      rw [hca, hcb] at e
      exact congrArg some e

end Cantools.Listing
