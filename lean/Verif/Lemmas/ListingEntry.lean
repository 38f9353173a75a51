import Verif.Lemmas.ListingLines

/-
Listings of several messages, and of messages that contain messages.
-/

namespace Cantools.Listing
open Cantools Dbc Spec Spec.Listed

variable {F : Type} {T : FloatText F}

/-! ### Where a message begins -/

/-- The first line of a message. -/
def isTitle (l : Line) : Bool := !(l.isEmpty || l.head? == some ' ')

theorem isTitle_blank {r : List Char} : isTitle (' ' :: r) = false := rfl

theorem isTitle_key {n : Nat} {l : Line} {K : List Chars} (h : key n l ∈ K) (hK : ∀ k ∈ K, k.head? = some ' ') :
    isTitle l = false := by
  have h1 := hK _ h
  have hp : key n l <+: l := by
    unfold key
    split
    · exact List.isPrefixOf_iff_prefix.1 ‹_›
    · exact List.takeWhile_prefix _
  obtain ⟨r, hr⟩ := hp
  cases hk : key n l with
  | nil => rw [hk] at h1; cases h1
  | cons c k =>
    rw [hk] at h1 hr
    cases h1
    rw [← hr]
    rfl

theorem isTitle_name {m : LMessage F} (hm : FineMessage T m) : isTitle (m.name ++ [':']) = true := by
  obtain ⟨-, h1, h2⟩ := hm.name
  cases hn : m.name with
  | nil => exact absurd hn h1
  | cons c r =>
    rw [hn] at h2
    have : (c == ' ') = false := by
      rw [beq_eq_false_iff_ne]
      rintro rfl
      exact h2 rfl
    show (!(some c == some ' ')) = true
    rw [show (some c == some ' ') = (c == ' ') from rfl, this]
    rfl

theorem sections_noTitle {sp c : Bool} {m : LMessage F} {tree : List Line} (h : treeLines T m.signals = .ok tree) :
    ∀ l ∈ (messageSections T sp c m tree).flatten, isTitle l = false := by
  intro l hl
  simp only [messageSections, List.flatten_cons, List.flatten_nil, List.append_nil, List.mem_append] at hl
  rcases hl with hl | hl | hl | hl | hl | hl | hl
  · exact isTitle_key (n := 7) (comments_key (k := "  Comment") (fun _ => rfl) hl) (by decide +kernel)
  · exact isTitle_key (bus_key hl) (by decide +kernel)
  · exact isTitle_key (n := 7) (names_key (k := "  Sending ECUs") (fun _ => rfl) hl) (by decide +kernel)
  · exact isTitle_key (id_key hl) (by decide +kernel)
  · exact isTitle_key (cycle_key hl) (by decide +kernel)
  · obtain ⟨a, -, ha⟩ := specific_key hl
    exact isTitle_key (autosar_key ha) (by decide +kernel)
  · rcases mem_treeLines h hl with rfl | rfl | rfl | ⟨-, x, -, -, rfl⟩ <;> rfl

theorem details_noTitle {signals : List (LSignal F)} {lines : List Line} (h : detailLines T signals = .ok lines) :
    ∀ l ∈ lines, isTitle l = false := by
  intro l hl
  rcases details_cases h with ⟨-, rfl⟩ | ⟨-, d, hd, rfl⟩
  · cases hl
  · rcases List.mem_cons.1 hl with rfl | hl
    · rfl
    · obtain ⟨b, hb, hl⟩ := List.mem_flatten.1 hl
      obtain ⟨s, hs, e⟩ := forall₂_partner' (mapM_ok hd) hb
      obtain ⟨selector, h1, rfl⟩ := signalLines_ok e
      rcases List.mem_cons.1 hl with rfl | hl
      · rfl
      · have := isName_key (mem_keys (signal_keys (T := T) h1) hl)
        unfold isName at this
        rw [Bool.not_eq_false', List.isPrefixOf_iff_prefix] at this
        obtain ⟨r, rfl⟩ := this
        rfl

/-- The block of lines of a message. -/
theorem message_block {sp : Bool} {m : LMessage F} (hm : FineMessage T m) {lines : List Line}
    (h : messageLines T sp m = .ok lines) : ∃ x t, lines = x :: t ∧ isTitle x = true ∧ ∀ y ∈ t, isTitle y = false := by
  obtain ⟨tree, details, h1, h2, rfl⟩ := messageLines_ok h
  exact ⟨_, _, rfl, isTitle_name hm, fun y hy => (List.mem_append.1 hy).elim (sections_noTitle h1 y) (details_noTitle h2 y)⟩

/-! ### Messages that contain messages -/

theorem entryLines_ok {sp : Bool} {e : Entry F} {lines : List Line} (h : entryLines T sp e = .ok lines) :
    ∃ tree contained details, treeLines T e.message.signals = .ok tree ∧ containedLines T sp e.contained = .ok contained ∧
      detailLines T e.message.signals = .ok details ∧
      lines = (e.message.name ++ [':']) ::
        ((messageSections T sp (!e.contained.isEmpty) e.message tree).flatten ++ (contained ++ details)) := by
  unfold entryLines at h
  obtain ⟨tree, h1, h⟩ := bind_ok_iff.1 h
  obtain ⟨contained, h2, h⟩ := bind_ok_iff.1 h
  obtain ⟨details, h3, h⟩ := bind_ok_iff.1 h
  cases h
  refine ⟨tree, contained, details, h1, h2, h3, ?_⟩
  simp [headLines, messageSections]

theorem contained_cases {sp : Bool} {l : List (LMessage F)} {lines : List Line} (h : containedLines T sp l = .ok lines) :
    (l = [] ∧ lines = []) ∨ (l ≠ [] ∧ ∃ names details, l.mapM containedLine = .ok names ∧
      l.mapM (messageLines T sp) = .ok details ∧
      lines = "  Potentially contained messages:".toList :: [] :: (names ++
        ([] :: "  Potentially contained message details:".toList :: details.flatten.map (indented "    ")))) := by
  unfold containedLines at h
  split at h
  · rename_i he
    cases h
    exact .inl ⟨he, rfl⟩
  · rename_i he
    obtain ⟨names, h1, h⟩ := bind_ok_iff.1 h
    obtain ⟨details, h2, h⟩ := bind_ok_iff.1 h
    cases h
    exact .inr ⟨he, names, details, h1, h2, rfl⟩

theorem containedLine_ok {c : LMessage F} {l : Line} (h : containedLine c = .ok l) :
    ∃ i, c.headerId = some i ∧ l = line "    " (c.name ++ (" (".toList ++ (hexText i ++ [')']))) := by
  unfold containedLine at h
  cases hh : c.headerId with
  | none => rw [hh] at h; cases h
  | some i =>
    rw [hh] at h
    cases h
    exact ⟨i, rfl, rfl⟩

theorem indented_noTitle (l : Line) : isTitle (indented "    " l) = false := by
  unfold indented
  split <;> rfl

theorem indented_inj {l l' : Line} (h : indented "    " l = indented "    " l') : l = l' := by
  unfold indented at h
  split at h <;> split at h
  · rename_i h1 h2
    rw [h1, h2]
  · cases h
  · cases h
  · exact List.append_cancel_left h

theorem contained_noTitle {sp : Bool} {l : List (LMessage F)} {lines : List Line} (h : containedLines T sp l = .ok lines) :
    ∀ x ∈ lines, isTitle x = false := by
  intro x hx
  rcases contained_cases h with ⟨-, rfl⟩ | ⟨-, names, details, h1, -, rfl⟩
  · cases hx
  · simp only [List.mem_cons, List.mem_append, List.mem_map] at hx
    rcases hx with rfl | rfl | hx | rfl | rfl | ⟨y, -, rfl⟩
    · rfl
    · rfl
    · obtain ⟨c, -, e⟩ := forall₂_partner' (mapM_ok h1) hx
      obtain ⟨i, -, rfl⟩ := containedLine_ok e
      rfl
    · rfl
    · rfl
    · exact indented_noTitle y

theorem entry_block {sp : Bool} {e : Entry F} (he : FineEntry T e) {lines : List Line}
    (h : entryLines T sp e = .ok lines) : ∃ x t, lines = x :: t ∧ isTitle x = true ∧ ∀ y ∈ t, isTitle y = false := by
  obtain ⟨tree, contained, details, h1, h2, h3, rfl⟩ := entryLines_ok h
  exact ⟨_, _, rfl, isTitle_name he.message, fun y hy => (List.mem_append.1 hy).elim (sections_noTitle h1 y)
    fun hy => (List.mem_append.1 hy).elim (contained_noTitle h2 y) (details_noTitle h3 y)⟩

/-- Lists that are cut at the first element of some kind. -/
theorem rest_eq {α : Type} {p : α → Bool} {A A' B B' : List α} (hA : ∀ x ∈ A, p x = false) (hA' : ∀ x ∈ A', p x = false)
    (hB : B = [] ∨ ∃ x t, B = x :: t ∧ p x = true) (hB' : B' = [] ∨ ∃ x t, B' = x :: t ∧ p x = true)
    (h : A ++ B = A' ++ B') : A = A' ∧ B = B' := by
  have cut : ∀ {A B : List α}, (∀ x ∈ A, p x = false) → (B = [] ∨ ∃ x t, B = x :: t ∧ p x = true) →
      (A ++ B).takeWhile (fun x => !p x) = A := by
    intro A B hA hB
    rw [List.takeWhile_append_of_pos (fun x hx => by simp [hA x hx])]
    rcases hB with rfl | ⟨x, t, rfl, hx⟩
    · simp
    · simp [hx]
  have e := congrArg (List.takeWhile fun x => !p x) h
  rw [cut hA hB, cut hA' hB'] at e
  subst e
  exact ⟨rfl, List.append_cancel_left h⟩

/-- The lines with which the properties of a message end. -/
def isRest (l : Line) : Bool := l == "  Signal details:".toList || l == "  Potentially contained messages:".toList

theorem sections_noRest {sp c : Bool} {m : LMessage F} {tree : List Line} (h : treeLines T m.signals = .ok tree) :
    ∀ l ∈ (messageSections T sp c m tree).flatten, isRest l = false := by
  intro l hl
  obtain ⟨K, hK, hk⟩ := mem_keys (message_keys (T := T) (specifics := sp) (c := c) h) hl
  by_contra hr
  rw [Bool.not_eq_false] at hr
  unfold isRest at hr
  rw [Bool.or_eq_true, beq_iff_eq, beq_iff_eq] at hr
  rcases hr with rfl | rfl
  · exact absurd hk ((by decide +kernel : ∀ K ∈ messageKeys, key 7 "  Signal details:".toList ∉ K) K hK)
  · exact absurd hk ((by decide +kernel : ∀ K ∈ messageKeys, key 7 "  Potentially contained messages:".toList ∉ K) K hK)

theorem rest_of {sp : Bool} {e : Entry F} {contained details : List Line}
    (h2 : containedLines T sp e.contained = .ok contained) (h3 : detailLines T e.message.signals = .ok details) :
    contained ++ details = [] ∨ ∃ x t, contained ++ details = x :: t ∧ isRest x = true := by
  rcases contained_cases h2 with ⟨-, rfl⟩ | ⟨-, names, d, -, -, rfl⟩
  · rcases details_cases h3 with ⟨-, rfl⟩ | ⟨-, d, -, rfl⟩
    · exact .inl rfl
    · exact .inr ⟨_, _, rfl, by decide +kernel⟩
  · exact .inr ⟨_, _, rfl, by decide +kernel⟩

theorem contained_split (L : FloatLaws T) {sp sp' : Bool} {l l' : List (LMessage F)} (hl : ∀ m ∈ l, FineMessage T m)
    (hl' : ∀ m ∈ l', FineMessage T m) {lines : List Line} (h : containedLines T sp l = .ok lines)
    (h' : containedLines T sp' l' = .ok lines) : List.Forall₂ (Listed.SameMessage T) l l' := by
  rcases contained_cases h with ⟨rfl, rfl⟩ | ⟨-, names, details, h1, h2, rfl⟩ <;>
    rcases contained_cases h' with ⟨rfl, e⟩ | ⟨-, names', details', h1', h2', e⟩
  · exact .nil
  · cases e
  · cases e
  · have blank : ∀ {l : List (LMessage F)} {names : List Line}, l.mapM containedLine = .ok names → [] ∉ names := by
      intro l names h hn
      obtain ⟨c, -, e⟩ := forall₂_partner' (mapM_ok h) hn
      obtain ⟨i, -, e⟩ := containedLine_ok e
      cases e
    simp only [List.cons.injEq, true_and] at e
    obtain ⟨-, e⟩ := cut_eq (blank h1) (blank h1') e
    have e := List.map_injective_iff.2 (fun _ _ => indented_inj) (List.cons.inj e).2
    have blocks : ∀ {sp : Bool} {l : List (LMessage F)} {details : List (List Line)}, (∀ m ∈ l, FineMessage T m) →
        l.mapM (messageLines T sp) = .ok details →
        ∀ b ∈ details, ∃ x t, b = x :: t ∧ isTitle x = true ∧ ∀ y ∈ t, isTitle y = false := by
      intro sp l details hl h b hb
      obtain ⟨m, hm, e⟩ := forall₂_partner' (mapM_ok h) hb
      exact message_block (hl m hm) e
    have := blocks_eq (blocks hl h2) (blocks hl' h2') e
    subst this
    exact (forall₂_mem (forall₂_join (mapM_ok h2) (mapM_ok h2'))).imp fun m m' ⟨⟨x, e, e'⟩, hm, hm'⟩ =>
      sameMessage L (hl m hm) (hl' m' hm') e e'

/-- What the same listings tell. -/
theorem sameEntry (L : FloatLaws T) {sp sp' : Bool} {e e' : Entry F} (he : FineEntry T e) (he' : FineEntry T e')
    {lines : List Line} (h : entryLines T sp e = .ok lines) (h' : entryLines T sp' e' = .ok lines) : SameEntry T e e' := by
  obtain ⟨tree, contained, details, h1, h2, h3, rfl⟩ := entryLines_ok h
  obtain ⟨tree', contained', details', h1', h2', h3', eq⟩ := entryLines_ok h'
  rw [List.cons.injEq] at eq
  obtain ⟨hn, eq⟩ := eq
  obtain ⟨hs, hr⟩ := rest_eq (p := isRest) (sections_noRest h1) (sections_noRest h1') (rest_of h2 h3) (rest_of h2' h3') eq
  have hs := sections_eq (key := key 7) messageKeys_disjoint (message_keys h1) (message_keys h1') hs
  have hn := List.append_cancel_right hn
  have hcd : contained = contained' ∧ details = details' := by
    rcases contained_cases h2 with ⟨c, rfl⟩ | ⟨c, names, d, -, -, rfl⟩ <;>
      rcases contained_cases h2' with ⟨c', rfl⟩ | ⟨c', names', d', -, -, rfl⟩
    · exact ⟨rfl, hr⟩
    · rcases details_cases h3 with ⟨-, rfl⟩ | ⟨-, d, -, rfl⟩
      · cases hr
      · exact absurd (List.cons.inj hr).1 (by decide +kernel)
    · rcases details_cases h3' with ⟨-, rfl⟩ | ⟨-, d, -, rfl⟩
      · cases hr
      · exact absurd (List.cons.inj hr).1 (by decide +kernel)
    · rw [he.signals c] at h3
      rw [he'.signals c'] at h3'
      cases h3
      cases h3'
      rw [List.append_nil, List.append_nil] at hr
      exact ⟨hr, rfl⟩
  obtain ⟨rfl, rfl⟩ := hcd
  exact ⟨same_of_parts L he.message he'.message hn hs h3 h3', contained_split L he.contained he'.contained h2 h2'⟩

theorem oneLines_entry (L : FloatLaws T) {sp : Bool} {e : Entry F} (he : FineEntry T e) {lines : List Line}
    (h : entryLines T sp e = .ok lines) : OneLines lines := by
  obtain ⟨tree, contained, details, h1, h2, h3, rfl⟩ := entryLines_ok h
  refine oneLines_cons (oneLine_append he.message.name.1 (by lit1)) (oneLines_append (oneLines_sections L he.message h1)
    (oneLines_append ?_ (oneLines_details L he.message.signals h3)))
  rcases contained_cases h2 with ⟨-, rfl⟩ | ⟨-, names, d, h4, h5, rfl⟩
  · exact oneLines_nil
  · refine oneLines_cons (by lit1) (oneLines_cons (by lit1) (oneLines_append (fun x hx => ?_) (oneLines_cons (by lit1)
      (oneLines_cons (by lit1) fun x hx => ?_))))
    · obtain ⟨c, hc, ec⟩ := forall₂_partner' (mapM_ok h4) hx
      obtain ⟨i, -, rfl⟩ := containedLine_ok ec
      exact oneLine_line (by lit1) (oneLine_append (he.contained c hc).name.1 (oneLine_append (by lit1)
        (oneLine_append (oneLine_hex i) (by lit1))))
    · obtain ⟨y, hy, rfl⟩ := List.mem_map.1 hx
      obtain ⟨b, hb, hy⟩ := List.mem_flatten.1 hy
      obtain ⟨m, hm, em⟩ := forall₂_partner' (mapM_ok h5) hb
      have := oneLines_message L (he.contained m hm) em y hy
      unfold indented
      split
      · lit1
      · exact oneLine_append (by lit1) this

/-- Blocks of lines of messages. -/
theorem entries_split (L : FloatLaws T) {sp sp' : Bool} {es es' : List (Entry F)} (he : ∀ e ∈ es, FineEntry T e)
    (he' : ∀ e ∈ es', FineEntry T e) {ls ls' : List (List Line)} (h : List.Forall₂ (fun e l => entryLines T sp e = .ok l) es ls)
    (h' : List.Forall₂ (fun e l => entryLines T sp' e = .ok l) es' ls') (eq : ls.flatten = ls'.flatten) :
    List.Forall₂ (SameEntry T) es es' := by
  have blocks : ∀ {sp : Bool} {es : List (Entry F)} {ls : List (List Line)}, (∀ e ∈ es, FineEntry T e) →
      List.Forall₂ (fun e l => entryLines T sp e = .ok l) es ls →
      ∀ b ∈ ls, ∃ x t, b = x :: t ∧ isTitle x = true ∧ ∀ y ∈ t, isTitle y = false := by
    intro sp es ls he h b hb
    obtain ⟨m, hm, e⟩ := forall₂_partner' h hb
    exact entry_block (he m hm) e
  have := blocks_eq (blocks he h) (blocks he' h') eq
  subst this
  exact (forall₂_mem (forall₂_join h h')).imp fun m m' ⟨⟨x, e, e'⟩, hm, hm'⟩ => sameEntry L (he m hm) (he' m' hm') e e'

/-! ### Buses -/

def busKeys : List (List Chars) := [["  Comment".toList], ["  Baudrate".toList], ["  CAN-FD enabled".toList, "  FD Baudrate".toList]]

def busSections (b : LBus) : List (List Line) :=
  [commentLines "  Comment[" (b.comments.getD []), (match b.baudrate with
    | none => []
    | some r => [line "  Baudrate: " (intText r)]),
   (match b.fdBaudrate with
    | none => ["  CAN-FD enabled: False".toList]
    | some r => ["  CAN-FD enabled: True".toList, line "  FD Baudrate: " (intText r)])]

theorem busLines_eq (b : LBus) : busLines b = (b.name ++ [':']) :: (busSections b).flatten := by
  unfold busLines busSections
  rw [List.flatten_cons, List.flatten_cons, List.flatten_cons, List.flatten_nil, List.append_nil]
  rfl

theorem bus_keys (b : LBus) : List.Forall₂ (fun s K => ∀ l ∈ s, key 7 l ∈ K) (busSections b) busKeys := by
  refine .cons (fun _ hl => comments_key (k := "  Comment") (fun _ => rfl) hl) (.cons (fun l hl => ?_) (.cons (fun l hl => ?_) .nil))
  · cases hr : b.baudrate with
    | none => rw [hr] at hl; cases hl
    | some r =>
      rw [hr] at hl
      replace hl := List.mem_singleton.1 hl
      rw [hl]
      exact List.mem_of_elem_eq_true rfl
  · cases hr : b.fdBaudrate with
    | none =>
      rw [hr] at hl
      replace hl := List.mem_singleton.1 hl
      rw [hl]
      exact List.mem_of_elem_eq_true rfl
    | some r =>
      rw [hr] at hl
      simp only [List.mem_cons, List.not_mem_nil, or_false] at hl
      rcases hl with rfl | rfl <;> exact List.mem_of_elem_eq_true rfl

theorem oneLines_busLines {b : LBus} (hb : OneLine b.name ∧ FineComments (b.comments.getD [])) : OneLines (busLines b) := by
  unfold busLines
  refine oneLines_append (oneLines_cons (oneLine_append hb.1 (by lit1)) oneLines_nil) (oneLines_append
    (oneLines_comments (by lit1) hb.2) (oneLines_append ?_ ?_))
  · cases b.baudrate with
    | none => exact oneLines_nil
    | some r => exact oneLines_cons (oneLine_line (by lit1) (oneLine_int r)) oneLines_nil
  · cases b.fdBaudrate with
    | none => exact oneLines_cons (by lit1) oneLines_nil
    | some r => exact oneLines_cons (by lit1) (oneLines_cons (oneLine_line (by lit1) (oneLine_int r)) oneLines_nil)

theorem bus_determines {b b' : LBus} (hb : OneLine b.name ∧ FineComments (b.comments.getD []))
    (hb' : OneLine b'.name ∧ FineComments (b'.comments.getD [])) (same : output (busLines b) = output (busLines b')) :
    b'.name = b.name ∧ b'.comments.getD [] = b.comments.getD [] ∧ b'.baudrate = b.baudrate ∧ b'.fdBaudrate = b.fdBaudrate := by
  have h := lines_eq (oneLines_busLines hb) (oneLines_busLines hb') same
  rw [busLines_eq, busLines_eq, List.cons.injEq] at h
  have hs := sections_eq (key := key 7) (Ks := busKeys) (by decide +kernel) (bus_keys b) (bus_keys b') h.2
  simp only [busSections, List.cons.injEq, and_true] at hs
  obtain ⟨h1, h2, h3⟩ := hs
  refine ⟨(List.append_cancel_right h.1).symm, (comments_eq hb.2 hb'.2 h1).symm, ?_, ?_⟩
  · cases hr : b.baudrate <;> cases hr' : b'.baudrate <;> rw [hr, hr'] at h2
    · cases h2
    · cases h2
    · exact congrArg some (intText_inj (List.append_cancel_left (List.cons.inj h2).1)).symm
  · cases hr : b.fdBaudrate <;> cases hr' : b'.fdBaudrate <;> rw [hr, hr'] at h3
    · exact absurd (List.cons.inj h3).1 (by decide +kernel)
    · exact absurd (List.cons.inj h3).1 (by decide +kernel)
    · exact congrArg some (intText_inj (List.append_cancel_left (List.cons.inj (List.cons.inj h3).2).1)).symm

/-! ### Which messages are listed -/

theorem lastNamed_iff {db : LDatabase F} {name : Chars} {e : Entry F} :
    messageNamed db name = some e ↔ LastNamed db name e := by
  unfold messageNamed LastNamed
  constructor
  · intro h
    obtain ⟨h1, as, bs, h2, h3⟩ := List.find?_eq_some_iff_append.1 h
    refine ⟨bs.reverse, as.reverse, ?_, by simpa using h1, fun x hx => by simpa using h3 x (List.mem_reverse.1 hx)⟩
    have := congrArg List.reverse h2
    simpa using this
  · rintro ⟨b, a, h, rfl, h3⟩
    refine List.find?_eq_some_iff_append.2 ⟨by simp, a.reverse, b.reverse, ?_, fun x hx => ?_⟩
    · rw [h]
      simp
    · simpa using h3 x (List.mem_reverse.1 hx)

theorem messageNamed_none {db : LDatabase F} {name : Chars} :
    messageNamed db name = none ↔ ∀ e ∈ db.messages, e.message.name ≠ name := by
  unfold messageNamed
  rw [List.find?_eq_none]
  simp

theorem itemShown_iff {db : LDatabase F} {sp : Bool} {name : Chars} {lines : List Line} :
    itemLines T db sp name = .ok lines ↔ ItemShown T db sp name lines := by
  unfold itemLines ItemShown
  cases h : messageNamed db name with
  | none =>
    have hn := messageNamed_none.1 h
    constructor
    · intro e
      cases e
      exact .inr ⟨hn, rfl⟩
    · rintro (⟨e, he, -⟩ | ⟨-, rfl⟩)
      · rw [lastNamed_iff.2 he] at h
        cases h
      · rfl
  | some e =>
    constructor
    · intro he
      exact .inl ⟨e, lastNamed_iff.1 h, he⟩
    · rintro (⟨e', he, h'⟩ | ⟨hn, -⟩)
      · rw [lastNamed_iff.2 he] at h
        cases h
        exact h'
      · rw [messageNamed_none.2 hn] at h
        cases h

theorem messageNamed_unique {db : LDatabase F} (hn : (db.messages.map (·.message.name)).Nodup) {e : Entry F}
    (he : e ∈ db.messages) : messageNamed db e.message.name = some e := by
  cases h : messageNamed db e.message.name with
  | none => exact absurd rfl (messageNamed_none.1 h e he)
  | some e' =>
    obtain ⟨b, a, h1, h2, -⟩ := lastNamed_iff.1 h
    have : e' ∈ db.messages := by rw [h1]; simp
    rw [List.inj_on_of_nodup_map hn this he h2]

theorem messageNames_eq (db : LDatabase F) (args : Args) :
    messageNames db args = (db.messages.filter fun e => decide (Included args e)).map (·.message.name) := by
  unfold messageNames
  congr 1
  apply List.filter_congr
  intro e _
  rw [Bool.eq_iff_iff, decide_eq_true_iff]
  unfold Included
  cases e.message.isExtendedFrame <;> cases args.excludeExtended <;> cases args.excludeNormal <;> simp

theorem sortTexts_sorted (l : List Chars) : Sorted (sortTexts l) := by
  have := pySorted_pairwise (le := fun a b : Chars => decide (a ≤ b))
    (fun a b => by simpa using List.le_total a b)
    (fun a b c h1 h2 => by simpa using List.le_trans (of_decide_eq_true h1) (of_decide_eq_true h2)) l
  exact this.imp fun h => of_decide_eq_true h

theorem sortTexts_nil {l : List Chars} : sortTexts l = [] ↔ l = [] := by
  constructor
  · intro h
    have := sortTexts_perm l
    rw [h] at this
    exact this.symm.eq_nil
  · rintro rfl
    rfl

end Cantools.Listing
