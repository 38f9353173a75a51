import Verif.Spec.DumpCommand
import Verif.Lemmas.ListingSame
import Verif.Lemmas.ListingEntry

/-
Lemmas for C68: the lines printed by the `dump` command can be read back.
-/

namespace Cantools.DumpCommand
open Dbc Spec Spec.Dumping
open Listing (Line LSignal LMessage NamedValue hexText line signalTree sections_eq blocks_eq cut_eq rest_eq join_eq
  intText_inj decimal_inj intText_chars pySorted_perm mapM_ok)
open Dump (rstrip layoutLines)

variable {F : Type} {T : FloatText F}

/-! ### Hexadecimal numbers -/

/-- The value of a hexadecimal digit. -/
def hexValue (c : Char) : Nat := if c.toNat < 58 then c.toNat - 48 else c.toNat - 87

/-- The number with these hexadecimal digits. -/
def hexNumber (l : List Char) : Nat := l.foldl (fun n c => 16 * n + hexValue c) 0

theorem hexValue_digit : ∀ k < 16, hexValue (Nat.digitChar k) = k := by decide

theorem hexNumber_toDigits (n : Nat) : hexNumber (Nat.toDigits 16 n) = n := by
  induction n using Nat.strongRecOn with
  | _ n ih =>
    by_cases h : n < 16
    · rw [Nat.toDigits_of_lt_base h]
      show 16 * 0 + hexValue _ = n
      rw [hexValue_digit n h]; omega
    · rw [Nat.toDigits_of_base_le (by omega) (by omega), hexNumber, List.foldl_append]
      have := ih (n / 16) (by omega)
      rw [hexNumber] at this
      rw [this]
      show 16 * (n / 16) + hexValue _ = n
      rw [hexValue_digit _ (by omega)]
      omega

theorem toDigits_inj {m n : Nat} (h : Nat.toDigits 16 m = Nat.toDigits 16 n) : m = n := by
  rw [← hexNumber_toDigits m, h, hexNumber_toDigits]

theorem hexNumber_padded (k : Nat) (l : List Char) : hexNumber (List.replicate k '0' ++ l) = hexNumber l := by
  induction k with
  | zero => rfl
  | succ k ih => rw [List.replicate_succ, List.cons_append, ← ih]; rfl

theorem hexPadded_inj {w m n : Nat} (h : hexPadded w m = hexPadded w n) : m = n := by
  have := congrArg hexNumber (List.append_cancel_left h)
  rwa [hexNumber_padded, hexNumber_padded, hexNumber_toDigits, hexNumber_toDigits] at this

theorem minus_not_digit (n : Nat) : '-' ∉ Nat.toDigits 16 n := by
  induction n using Nat.strongRecOn with
  | _ n ih =>
    have hd : ∀ k < 16, '-' ≠ Nat.digitChar k := by decide
    by_cases h : n < 16
    · rw [Nat.toDigits_of_lt_base h, List.mem_singleton]
      exact hd n h
    · rw [Nat.toDigits_of_base_le (by omega) (by omega), List.mem_append]
      rintro (h' | h')
      · exact ih (n / 16) (by omega) h'
      · exact hd (n % 16) (Nat.mod_lt _ (by omega)) (List.mem_singleton.1 h')

theorem hexText_inj {i j : Int} (h : hexText i = hexText j) : i = j := by
  have h' := List.append_cancel_left h
  by_cases hi : i < 0 <;> by_cases hj : j < 0
  · rw [if_pos hi, if_pos hj] at h'
    have := toDigits_inj (List.append_cancel_left h')
    omega
  · rw [if_pos hi, if_neg hj] at h'
    exact absurd (h' ▸ (by simp : '-' ∈ ['-'] ++ Nat.toDigits 16 i.natAbs)) (by simpa using minus_not_digit _)
  · rw [if_neg hi, if_pos hj] at h'
    exact absurd (h' ▸ (by simp : '-' ∈ ['-'] ++ Nat.toDigits 16 j.natAbs)) (by simpa using minus_not_digit _)
  · rw [if_neg hi, if_neg hj] at h'
    have := toDigits_inj (List.append_cancel_left h')
    omega

/-! ### Lines that are shown -/

theorem rstrip_append (a l : Chars) : rstrip (a ++ l) = if rstrip l = [] then rstrip a else a ++ rstrip l := by
  unfold rstrip
  rw [List.reverse_append, List.dropWhile_append]
  by_cases h : l.reverse.dropWhile Char.isWhitespace = []
  · rw [h]; rfl
  · rw [if_neg (by simpa using h), if_neg (by simpa using h), List.reverse_append, List.reverse_reverse]

theorem shown_eq (l : Line) : shown l = if rstrip l = [] then [] else "    ".toList ++ rstrip l := by
  rw [shown, rstrip_append]
  rfl

theorem shown_inj {l l' : Line} (h : shown l = shown l') : rstrip l = rstrip l' := by
  rw [shown_eq, shown_eq] at h
  by_cases h1 : rstrip l = [] <;> by_cases h2 : rstrip l' = []
  · rw [h1, h2]
  · rw [if_pos h1, if_neg h2] at h; cases h
  · rw [if_neg h1, if_pos h2] at h; cases h
  · rw [if_neg h1, if_neg h2] at h; exact List.append_cancel_left h

theorem rstrip_rstrip (l : Line) : rstrip (rstrip l) = rstrip l := by
  have idem : ∀ k : Line, (k.dropWhile Char.isWhitespace).dropWhile Char.isWhitespace = k.dropWhile Char.isWhitespace := by
    intro k
    induction k with
    | nil => rfl
    | cons c k ih =>
      by_cases h : c.isWhitespace = true
      · simp only [List.dropWhile_cons, h, if_true, ih]
      · simp only [List.dropWhile_cons, h, if_false, Bool.false_eq_true]
  unfold rstrip
  rw [List.reverse_reverse, idem]

theorem rstrip_visible {n : Line} (h : n ≠ [] ∧ ∀ c ∈ n, c.isWhitespace = false) : rstrip n = n := by
  obtain ⟨l, c, rfl⟩ : ∃ l c, n = l ++ [c] := ⟨_, _, (List.dropLast_append_getLast h.1).symm⟩
  have hc : c.isWhitespace = false := h.2 c (by simp)
  simp [rstrip, hc]

theorem map_shown_inj {a b : List Line} (h : a.map shown = b.map shown) : a.map rstrip = b.map rstrip := by
  induction a generalizing b with
  | nil => cases b with
    | nil => rfl
    | cons _ _ => cases h
  | cons x a ih => cases b with
    | nil => cases h
    | cons y b =>
      rw [List.map_cons, List.map_cons, List.cons.injEq] at h
      rw [List.map_cons, List.map_cons, shown_inj h.1, ih h.2]

theorem splitJoined_getD (l : List Line) (i : Nat) : (splitJoined l).getD i [] = l.getD i [] := by
  unfold splitJoined
  split
  · next h =>
    obtain ⟨l', rfl⟩ := List.getLast?_eq_some_iff.1 h
    rw [List.dropLast_concat]
    rw [List.getD_eq_getElem?_getD, List.getD_eq_getElem?_getD, List.getElem?_append]
    split
    · rfl
    · next hi =>
      rw [List.getElem?_eq_none (by omega)]
      cases i - l'.length <;> rfl
  · rfl

/-- What is seen of lines that are shown. -/
theorem split_shown {a b : List Line} (h : (splitJoined a).map shown = (splitJoined b).map shown) (i : Nat) :
    rstrip (b.getD i []) = rstrip (a.getD i []) := by
  have get : ∀ k : List Line, (k.map rstrip).getD i [] = rstrip (k.getD i []) := by
    intro k
    rw [List.getD_eq_getElem?_getD, List.getD_eq_getElem?_getD, List.getElem?_map]
    cases k[i]? <;> rfl
  rw [← splitJoined_getD b, ← splitJoined_getD a, ← get, ← get, map_shown_inj h]

/-- The lines that are shown are empty or indented. -/
theorem shown_third (l : Line) : (shown l).getD 2 ' ' = ' ' := by
  rw [shown_eq]
  split
  · rfl
  · rfl

/-! ### Senders -/

theorem formatAnd_many {a b : Chars} {l : List Chars} :
    formatAnd (a :: b :: l) = .ok (joinC ", ".toList (a :: b :: l).dropLast ++ (" and ".toList ++
      (b :: l).getLast (by simp))) := by
  have : (a :: b :: l).getLast?.getD [] = (b :: l).getLast (by simp) := by
    rw [List.getLast?_cons_cons, List.getLast?_eq_some_getLast (by simp)]
    rfl
  rw [← this]
  rfl

theorem formatAnd_inj {l l' : List Chars} (hl : ∀ t ∈ l, ' ' ∉ t ∧ ',' ∉ t) (hl' : ∀ t ∈ l', ' ' ∉ t ∧ ',' ∉ t) {t : Chars}
    (h : formatAnd l = .ok t) (h' : formatAnd l' = .ok t) : l' = l := by
  have blank : ∀ x y : Chars, ' ' ∈ x ++ (" and ".toList ++ y) := by
    intro x y; simp
  match l, l', hl, hl', h, h' with
  | [], _, _, _, h, _ => cases h
  | _, [], _, _, _, h' => cases h'
  | [a], [b], _, _, h, h' => cases h; cases h'; rfl
  | [a], b :: c :: k, hl, _, h, h' =>
    cases h; rw [formatAnd_many] at h'; cases h'
    exact absurd (blank _ _) (hl _ List.mem_cons_self).1
  | b :: c :: k, [a], _, hl', h, h' =>
    cases h'; rw [formatAnd_many] at h; cases h
    exact absurd (blank _ _) (hl' _ List.mem_cons_self).1
  | a :: b :: l, c :: d :: k, hl, hl', h, h' =>
    rw [formatAnd_many] at h h'
    have e := (Except.ok.inj h).trans (Except.ok.inj h').symm
    have m1 := List.getLast_mem (l := b :: l) (by simp)
    have m2 := List.getLast_mem (l := d :: k) (by simp)
    generalize hx : (b :: l).getLast (by simp) = x at e m1
    generalize hy : (d :: k).getLast (by simp) = y at e m2
    have r := congrArg List.reverse e
    have rev : ∀ u v : Chars, (u ++ (" and ".toList ++ v)).reverse = v.reverse ++ ' ' :: (['d', 'n', 'a', ' '] ++ u.reverse) := by
      intro u v
      simp
    rw [rev, rev] at r
    obtain ⟨r1, r2⟩ := cut_eq (d := ' ') (A := x.reverse) (A' := y.reverse)
      (by simpa using (hl x (List.mem_cons_of_mem _ m1)).1) (by simpa using (hl' y (List.mem_cons_of_mem _ m2)).1) r
    have exy := List.reverse_injective r1
    have ej := List.reverse_injective (List.append_cancel_left r2)
    have := join_eq (fun t ht => (hl t (List.dropLast_subset _ ht)).2) (fun t ht => (hl' t (List.dropLast_subset _ ht)).2)
      (by simp) (by simp) ej
    have s1 := List.dropLast_append_getLast (l := a :: b :: l) (by simp)
    have s2 := List.dropLast_append_getLast (l := c :: d :: k) (by simp)
    refine s2.symm.trans (Eq.trans ?_ s1)
    rw [this, List.getLast_cons (List.cons_ne_nil b l), List.getLast_cons (List.cons_ne_nil d k), hx, hy, exy]

/-! ### The head of a page -/

/-- The first characters of a line. -/
def key (l : Line) : Chars := l.take 8

def headKeys : List (List Chars) :=
  [[[]], ["  Name: ".toList], ["  Id:   ".toList], ["  Header".toList],
   ["      Pr".toList, "      PG".toList, "      So".toList, "      De".toList, "      Fo".toList],
   ["  Length".toList, "  Maximu".toList], ["  Cycle ".toList], ["  Sender".toList]]

theorem headKeys_disjoint : headKeys.Pairwise fun K K' => ∀ k ∈ K, k ∉ K' := by decide +kernel

def idLine (namePrefix : Chars) (m : LMessage F) : List Line :=
  if namePrefix = [] then [line "  Id:             " (hexText m.frameId)] else []

def headerLine (namePrefix : Chars) (m : LMessage F) : List Line :=
  match m.headerId with
  | some h => if namePrefix = [] then [] else [line "  Header id:      " (hexPadded 6 h.toNat)]
  | none => []

def lengthLine (isContainer : Bool) (m : LMessage F) : Line :=
  line (if isContainer then "  Maximum length: " else "  Length:         ") (decimal m.length ++ " bytes".toList)

theorem bind_ok {α β : Type} {x : Except Err α} {f : α → Except Err β} {b : β} (h : (x >>= f) = .ok b) :
    ∃ a, x = .ok a ∧ f a = .ok b := by
  cases x with
  | ok a => exact ⟨a, rfl, h⟩
  | error e => cases h

/-- The parts of the head. -/
theorem headLines_ok {namePrefix : Chars} {j c : Bool} {m : LMessage F} {lines : List Line}
    (h : headLines T namePrefix j c m = .ok lines) :
    ∃ protocol senders, (if j then j1939Lines m.frameId else .ok []) = .ok protocol ∧
      formatAnd (noted m.senders) = .ok senders ∧
      lines = [[[]], [line "  Name:           " (namePrefix ++ m.name)], idLine namePrefix m, headerLine namePrefix m,
        protocol, [lengthLine c m], [line "  Cycle time:     " (cycleText T m.cycleTime ++ " ms".toList)],
        [line "  Senders:        " senders]].flatten := by
  unfold headLines at h
  obtain ⟨protocol, h1, h⟩ := bind_ok h
  obtain ⟨senders, h2, h⟩ := bind_ok h
  refine ⟨protocol, senders, h1, h2, ?_⟩
  cases h
  simp only [List.flatten_cons, List.flatten_nil, List.append_nil]
  rfl

theorem j1939Lines_shape {id : Int} {lines : List Line} (h : j1939Lines id = .ok lines) :
    ∃ a b c d e, lines = [line "      Priority:       " a, line "      PGN:            " b, line "      Source:         " c,
      line "      Destination:    " d, line "      Format:         " e] := by
  unfold j1939Lines at h
  obtain ⟨u, -, h⟩ := bind_ok h
  obtain ⟨p, -, h⟩ := bind_ok h
  cases h
  exact ⟨_, _, _, _, _, rfl⟩

theorem protocol_shape {j : Bool} {id : Int} {lines : List Line} (h : (if j then j1939Lines id else .ok []) = .ok lines) :
    (j = false ∧ lines = []) ∨ (j = true ∧ ∃ a b c d e, lines = [line "      Priority:       " a,
      line "      PGN:            " b, line "      Source:         " c, line "      Destination:    " d,
      line "      Format:         " e]) := by
  cases j with
  | false => cases h; exact .inl ⟨rfl, rfl⟩
  | true => exact .inr ⟨rfl, j1939Lines_shape h⟩

theorem head_keys {namePrefix : Chars} {j c : Bool} {m : LMessage F} {protocol : List Line} {senders : Chars}
    (hp : (if j then j1939Lines m.frameId else .ok []) = .ok protocol) :
    List.Forall₂ (fun s K => ∀ l ∈ s, key l ∈ K)
      [[[]], [line "  Name:           " (namePrefix ++ m.name)], idLine namePrefix m, headerLine namePrefix m,
        protocol, [lengthLine c m], [line "  Cycle time:     " (cycleText T m.cycleTime ++ " ms".toList)],
        [line "  Senders:        " senders]] headKeys := by
  unfold headKeys
  refine .cons ?_ (.cons ?_ (.cons ?_ (.cons ?_ (.cons ?_ (.cons ?_ (.cons ?_ (.cons ?_ .nil)))))))
  · intro l hl; cases List.mem_singleton.1 hl; exact List.mem_singleton.2 rfl
  · intro l hl; cases List.mem_singleton.1 hl; exact List.mem_singleton.2 rfl
  · intro l hl
    unfold idLine at hl
    split at hl
    · cases List.mem_singleton.1 hl; exact List.mem_singleton.2 rfl
    · cases hl
  · intro l hl
    unfold headerLine at hl
    split at hl
    · split at hl
      · cases hl
      · cases List.mem_singleton.1 hl; exact List.mem_singleton.2 rfl
    · cases hl
  · intro l hl
    rcases protocol_shape hp with ⟨-, rfl⟩ | ⟨-, a, b, c, d, e, rfl⟩
    · cases hl
    · simp only [List.mem_cons, List.not_mem_nil, or_false] at hl ⊢
      rcases hl with rfl | rfl | rfl | rfl | rfl
      · exact .inl rfl
      · exact .inr (.inl rfl)
      · exact .inr (.inr (.inl rfl))
      · exact .inr (.inr (.inr (.inl rfl)))
      · exact .inr (.inr (.inr (.inr rfl)))
  · intro l hl; cases List.mem_singleton.1 hl
    unfold lengthLine
    cases c
    · exact List.mem_cons_self
    · exact List.mem_cons_of_mem _ List.mem_cons_self
  · intro l hl; cases List.mem_singleton.1 hl; exact List.mem_singleton.2 rfl
  · intro l hl; cases List.mem_singleton.1 hl; exact List.mem_singleton.2 rfl

theorem section_key {A : List (List Line)} {Ks : List (List Chars)}
    (h : List.Forall₂ (fun s K => ∀ l ∈ s, key l ∈ K) A Ks) {s : List Line} (hs : s ∈ A) {l : Line} (hl : l ∈ s) :
    ∃ K ∈ Ks, key l ∈ K := by
  induction h with
  | nil => cases hs
  | cons h1 _ ih =>
    rcases List.mem_cons.1 hs with rfl | hs
    · exact ⟨_, List.mem_cons_self, h1 l hl⟩
    · obtain ⟨K, hK, h2⟩ := ih hs
      exact ⟨K, List.mem_cons_of_mem _ hK, h2⟩

/-- Lines by which the parts of a page are told apart. -/
def isBody (l : Line) : Bool := l == "  Layout:".toList || l == "  Possibly contained children:".toList

/-- The lines of the head are neither the rule nor the beginning of the body. -/
theorem head_line {namePrefix : Chars} {j c : Bool} {m : LMessage F} {lines : List Line}
    (h : headLines T namePrefix j c m = .ok lines) {l : Line} (hl : l ∈ lines) :
    l.getD 2 ' ' ≠ '-' ∧ isBody l = false := by
  obtain ⟨protocol, senders, hp, -, rfl⟩ := headLines_ok h
  have hk : ∃ K ∈ headKeys, key l ∈ K := by
    have := head_keys (T := T) (namePrefix := namePrefix) (c := c) (senders := senders) hp
    obtain ⟨s, hs, hl⟩ := List.mem_flatten.1 hl
    exact section_key this hs hl
  obtain ⟨K, hK, hk⟩ := hk
  have third : l.getD 2 ' ' = (key l).getD 2 ' ' := by
    unfold key
    match l with
    | [] => rfl
    | [_] => rfl
    | [_, _] => rfl
    | _ :: _ :: _ :: _ => rfl
  have all : ∀ K ∈ headKeys, ∀ k ∈ K, k.getD 2 ' ' ≠ '-' ∧ k ≠ key "  Layout:".toList ∧
      k ≠ key "  Possibly contained children:".toList := by decide +kernel
  obtain ⟨a1, a2, a3⟩ := all K hK _ hk
  refine ⟨third ▸ a1, ?_⟩
  unfold isBody
  rw [Bool.or_eq_false_iff, beq_eq_false_iff_ne, beq_eq_false_iff_ne]
  exact ⟨fun e => a2 (e ▸ rfl), fun e => a3 (e ▸ rfl)⟩

/-- The text of the name of a page. -/
def prefixOf (parent : Option Chars) : Chars :=
  match parent with
  | none => []
  | some n => n ++ " :: ".toList

theorem prefixOf_nil {parent : Option Chars} : prefixOf parent = [] ↔ parent = none := by
  cases parent with
  | none => exact ⟨fun _ => rfl, fun _ => rfl⟩
  | some n => simp [prefixOf]

theorem titles_eq {p p' : Option Chars} {n n' : Chars} (hp : ∀ x, p = some x → ' ' ∉ x) (hp' : ∀ x, p' = some x → ' ' ∉ x)
    (hn : ' ' ∉ n) (hn' : ' ' ∉ n') (h : prefixOf p ++ n = prefixOf p' ++ n') : p' = p ∧ n' = n := by
  cases p with
  | none =>
    cases p' with
    | none => exact ⟨rfl, h.symm⟩
    | some x => exact absurd (show ' ' ∈ n from (show n = _ from h) ▸ by simp [prefixOf]) hn
  | some x =>
    cases p' with
    | none => exact absurd (show ' ' ∈ n' from (show _ = n' from h) ▸ by simp [prefixOf]) hn'
    | some y =>
      have h' : x ++ ' ' :: (":: ".toList ++ n) = y ++ ' ' :: (":: ".toList ++ n') := by
        simpa [prefixOf] using h
      obtain ⟨rfl, e⟩ := cut_eq (hp x rfl) (hp' y rfl) h'
      exact ⟨rfl, (List.append_cancel_left e).symm⟩

theorem cycleText_inj (L : FloatLaws T) {a b : Option (Num F)} (h : cycleText T a = cycleText T b) : b = a := by
  have no : ∀ n : Num F, n.text T ≠ "-".toList := by
    have dig : ∀ d : Chars, Digits d → ∃ c ∈ d, isDigit c = true := fun d hd => by
      cases d with
      | nil => exact absurd rfl hd.1
      | cons c d => exact ⟨c, List.mem_cons_self, hd.2 c List.mem_cons_self⟩
    have has : ∀ n : Num F, ∃ c ∈ n.text T, isDigit c = true := by
      intro n
      cases n with
      | int i =>
        obtain ⟨c, hc, h⟩ := dig _ (decimal_digits i.natAbs)
        refine ⟨c, ?_, h⟩
        show c ∈ intText i
        unfold intText
        split
        · exact List.mem_cons_of_mem _ hc
        · exact hc
      | float f =>
        obtain ⟨ng, d, fr, ex, e, hd, -⟩ := L.syntax_ f
        obtain ⟨c, hc, h⟩ := dig _ hd
        refine ⟨c, ?_, h⟩
        show c ∈ T.show_ f
        rw [e, numberText]
        exact List.mem_append_right _ (List.mem_append_left _ hc)
    intro n e
    obtain ⟨c, hc, h⟩ := has n
    rw [e] at hc
    cases List.mem_singleton.1 (show c ∈ ['-'] from hc)
    exact absurd h (by decide)
  cases a with
  | none =>
    cases b with
    | none => rfl
    | some n => exact absurd h.symm (no n)
  | some m =>
    cases b with
    | none => exact absurd h (no m)
    | some n => exact congrArg some (Listing.Num.text_inj L h).symm

/-- What the head tells. -/
theorem head_eq (L : FloatLaws T) {p q : Page F} (hp : FinePage p) (hq : FinePage q) {c d : Bool} {lines : List Line}
    (h : headLines T (prefixOf p.parent) p.j1939 c p.message = .ok lines)
    (h' : headLines T (prefixOf q.parent) q.j1939 d q.message = .ok lines) :
    q.parent = p.parent ∧ q.message.name = p.message.name ∧
    (p.parent = none → q.message.frameId = p.message.frameId) ∧
    (p.parent ≠ none → q.message.headerId = p.message.headerId) ∧ q.j1939 = p.j1939 ∧ d = c ∧
    q.message.length = p.message.length ∧ q.message.cycleTime = p.message.cycleTime ∧
    shownSenders q.message = shownSenders p.message := by
  obtain ⟨pr, se, h1, h2, rfl⟩ := headLines_ok h
  obtain ⟨pr', se', h1', h2', e⟩ := headLines_ok h'
  have e' := sections_eq headKeys_disjoint (head_keys h1) (head_keys h1') e
  simp only [List.cons.injEq, and_true, true_and] at e'
  obtain ⟨e1, e2, e3, e4, e5, e6, e7⟩ := e'
  obtain ⟨n1, n2⟩ := titles_eq hp.parent hq.parent hp.name hq.name (List.append_cancel_left e1)
  subst e4
  refine ⟨n1, n2, ?_, ?_, ?_, ?_⟩
  · intro hn
    unfold idLine at e2
    have hx : prefixOf (none : Option Chars) = [] := rfl
    rw [n1, hn, if_pos hx, if_pos hx] at e2
    exact (hexText_inj (List.append_cancel_left (List.cons.inj e2).1)).symm
  · intro hn
    unfold headerLine at e3
    rw [n1] at e3
    have hne : prefixOf p.parent ≠ [] := fun x => hn (prefixOf_nil.1 x)
    cases hh : p.message.headerId with
    | none =>
      cases hh' : q.message.headerId with
      | none => rfl
      | some _ => rw [hh, hh'] at e3; simp only [if_neg hne] at e3; cases e3
    | some x =>
      cases hh' : q.message.headerId with
      | none => rw [hh, hh'] at e3; simp only [if_neg hne] at e3; cases e3
      | some y =>
        rw [hh, hh'] at e3
        simp only [if_neg hne] at e3
        have := hexPadded_inj (List.append_cancel_left (List.cons.inj e3).1)
        have a := hp.header x hh
        have b := hq.header y hh'
        exact congrArg some (by omega)
  · rcases protocol_shape h1 with ⟨j1, x⟩ | ⟨j1, a, b, c, d, e, x⟩ <;>
      rcases protocol_shape h1' with ⟨j2, y⟩ | ⟨j2, a', b', c', d', e', y⟩
    · rw [j1, j2]
    · rw [x] at y; cases y
    · rw [x] at y; cases y
    · rw [j1, j2]
  · have hc : d = c ∧ decimal q.message.length ++ " bytes".toList = decimal p.message.length ++ " bytes".toList := by
      unfold lengthLine at e5
      cases c <;> cases d
      · exact ⟨rfl, (List.append_cancel_left e5).symm⟩
      · exact absurd (show 'L' = 'M' from congrArg (fun l : List Char => l.getD 2 ' ') e5) (by decide)
      · exact absurd (show 'M' = 'L' from congrArg (fun l : List Char => l.getD 2 ' ') e5) (by decide)
      · exact ⟨rfl, (List.append_cancel_left e5).symm⟩
    refine ⟨hc.1, decimal_inj (List.append_cancel_right hc.2), ?_, ?_⟩
    · exact cycleText_inj L (List.append_cancel_right (List.append_cancel_left e6))
    · have fine : ∀ {x : Page F}, FinePage x → ∀ t ∈ noted x.message.senders, ' ' ∉ t ∧ ',' ∉ t := by
        intro x hx t ht
        unfold noted at ht
        split at ht
        · cases List.mem_singleton.1 ht; decide
        · exact hx.senders t ht
      have es : se = se' := List.append_cancel_left e7
      subst es
      exact formatAnd_inj (fine hp) (fine hq) h2 h2'

/-! ### Named values -/

/-- The line of a named value, as it is shown. -/
theorem shown_value (e : Int × NamedValue) :
    shown ("    ".toList ++ (intText e.1 ++ (' ' :: e.2.name))) =
      "        ".toList ++ (intText e.1 ++ (if rstrip e.2.name = [] then [] else ' ' :: rstrip e.2.name)) := by
  have hi : intText e.1 ≠ [] ∧ ∀ c ∈ intText e.1, c.isWhitespace = false := by
    refine ⟨?_, fun c hc => ?_⟩
    · unfold intText
      split
      · simp
      · exact (decimal_digits _).1
    · rcases intText_chars hc with rfl | h
      · decide
      · have h' : '0' ≤ c ∧ c ≤ '9' := by simpa [isDigit] using h
        have h1 : (48 : Nat) ≤ c.toNat := h'.1
        have h2 : c.toNat ≤ 57 := h'.2
        cases hw : c.isWhitespace with
        | false => rfl
        | true =>
          simp only [Char.isWhitespace, Bool.or_eq_true, decide_eq_true_eq] at hw
          rcases hw with ((rfl | rfl) | rfl) | rfl <;> exact absurd h1 (by decide)
  have plain : rstrip (intText e.1) = intText e.1 := rstrip_visible hi
  have h1 : rstrip (intText e.1 ++ (' ' :: e.2.name)) =
      intText e.1 ++ (if rstrip e.2.name = [] then [] else ' ' :: rstrip e.2.name) := by
    have : rstrip (' ' :: e.2.name) = if rstrip e.2.name = [] then [] else ' ' :: rstrip e.2.name := by
      have := rstrip_append [' '] e.2.name
      exact this
    rw [rstrip_append, this]
    by_cases h : rstrip e.2.name = []
    · rw [if_pos h, if_pos rfl, plain, List.append_nil]
    · rw [if_neg h, if_neg (by simp)]
  have h2 : rstrip ("    ".toList ++ (intText e.1 ++ (' ' :: e.2.name))) =
      "    ".toList ++ (intText e.1 ++ (if rstrip e.2.name = [] then [] else ' ' :: rstrip e.2.name)) := by
    rw [rstrip_append, h1, if_neg (by simp [hi.1])]
  rw [shown_eq, h2, if_neg (by simp)]
  rfl

theorem value_inj {e e' : Int × NamedValue}
    (h : shown ("    ".toList ++ (intText e.1 ++ (' ' :: e.2.name))) =
      shown ("    ".toList ++ (intText e'.1 ++ (' ' :: e'.2.name)))) : told e' = told e := by
  rw [shown_value, shown_value] at h
  have h := List.append_cancel_left h
  have no : ∀ i : Int, ' ' ∉ intText i := by
    intro i hi
    rcases intText_chars hi with e | e <;> exact absurd e (by decide)
  unfold told
  by_cases h1 : rstrip e.2.name = [] <;> by_cases h2 : rstrip e'.2.name = []
  · rw [if_pos h1, if_pos h2, List.append_nil, List.append_nil] at h
    rw [h1, h2, intText_inj h]
  · rw [if_pos h1, if_neg h2, List.append_nil] at h
    exact absurd (h ▸ (by simp) : ' ' ∈ intText e.1) (no _)
  · rw [if_neg h1, if_pos h2, List.append_nil] at h
    exact absurd (h ▸ (by simp) : ' ' ∈ intText e'.1) (no _)
  · rw [if_neg h1, if_neg h2] at h
    obtain ⟨a, b⟩ := cut_eq (no _) (no _) h
    rw [intText_inj a, b]

/-- The named values of a signal, as they are shown. -/
def shownChoices (s : LSignal F) : List Line := (choiceLines s).map shown

theorem shown_word {n : Chars} (h : n ≠ [] ∧ ∀ c ∈ n, c.isWhitespace = false) : shown n = "    ".toList ++ n := by
  rw [shown_eq, rstrip_visible h, if_neg h.1]

theorem sortedChoices_perm (s : LSignal F) :
    (pySorted (fun a b => decide (a.1 ≤ b.1)) (s.choices.getD [])).Perm (s.choices.getD []) := pySorted_perm _ _

/-- The block of a signal with named values. -/
theorem shownChoices_block {s : LSignal F} (hs : s.name ≠ [] ∧ ∀ c ∈ s.name, c.isWhitespace = false)
    (hc : s.choices.getD [] ≠ []) : ∃ h t, shownChoices s = h :: t ∧ (h == []) = true ∧ ∀ x ∈ t, (x == []) = false := by
  refine ⟨[], (("    ".toList ++ s.name) :: ((pySorted (fun a b => decide (a.1 ≤ b.1)) (s.choices.getD [])).map
      fun e => shown ("    ".toList ++ (intText e.1 ++ (' ' :: e.2.name))))), ?_, rfl, ?_⟩
  · unfold shownChoices choiceLines
    rw [if_neg hc, List.map_cons, List.map_cons, List.map_map, shown_word hs]
    rfl
  · intro x hx
    rcases List.mem_cons.1 hx with rfl | hx
    · rfl
    · obtain ⟨e, -, rfl⟩ := List.mem_map.1 hx
      rw [shown_value]
      rfl

theorem shownChoices_eq {s s' : LSignal F} (hs : s.name ≠ [] ∧ ∀ c ∈ s.name, c.isWhitespace = false)
    (hs' : s'.name ≠ [] ∧ ∀ c ∈ s'.name, c.isWhitespace = false) (hc : s.choices.getD [] ≠ []) (hc' : s'.choices.getD [] ≠ [])
    (h : shownChoices s = shownChoices s') :
    s'.name = s.name ∧ ((s'.choices.getD []).map told).Perm ((s.choices.getD []).map told) := by
  unfold shownChoices choiceLines at h
  rw [if_neg hc, if_neg hc', List.map_cons, List.map_cons, List.map_cons, List.map_cons, shown_word hs, shown_word hs',
    List.map_map, List.map_map, List.cons.injEq, List.cons.injEq] at h
  obtain ⟨-, h1, h2⟩ := h
  refine ⟨(List.append_cancel_left h1).symm, ?_⟩
  refine ((sortedChoices_perm s').map told).symm.trans (.trans (.of_eq ?_) ((sortedChoices_perm s).map told))
  generalize pySorted (fun a b => decide (a.1 ≤ b.1)) (s.choices.getD []) = a at h2
  generalize pySorted (fun a b => decide (a.1 ≤ b.1)) (s'.choices.getD []) = b at h2
  induction a generalizing b with
  | nil => cases b with
    | nil => rfl
    | cons _ _ => cases h2
  | cons x a ih => cases b with
    | nil => cases h2
    | cons y b =>
      rw [List.map_cons, List.map_cons, List.cons.injEq] at h2
      rw [List.map_cons, List.map_cons, ih b h2.2, value_inj h2.1]

theorem signalChoices_split (signals : List (LSignal F)) : splitJoined (signalChoices signals) = signalChoices signals := by
  have : (signalChoices signals).getLast? ≠ some [] := by
    unfold signalChoices
    induction signals with
    | nil => simp
    | cons s l ih =>
      rw [List.flatMap_cons, List.getLast?_append]
      cases hl : (l.flatMap choiceLines).getLast? with
      | some x => rw [hl] at ih; simpa using ih
      | none =>
        rw [Option.none_or]
        unfold choiceLines
        split
        · simp
        · next hc =>
          have hne : pySorted (fun a b => decide (a.1 ≤ b.1)) (s.choices.getD []) ≠ [] := fun e => by
            have := sortedChoices_perm s
            rw [e] at this
            exact hc this.symm.eq_nil
          rw [List.getLast?_cons_cons, List.getLast?_cons, List.getLast?_map]
          cases hx : (pySorted (fun a b => decide (a.1 ≤ b.1)) (s.choices.getD [])).getLast? with
          | none => exact absurd (List.getLast?_eq_none_iff.1 hx) hne
          | some e => simp
  rw [splitJoined, if_neg this]

/-- The named values that are shown tell the signals and their named values. -/
theorem choices_told {m m' : LMessage F} (hm : ∀ s ∈ m.signals, s.name ≠ [] ∧ ∀ c ∈ s.name, c.isWhitespace = false)
    (hm' : ∀ s ∈ m'.signals, s.name ≠ [] ∧ ∀ c ∈ s.name, c.isWhitespace = false)
    (h : (signalChoices m.signals).map shown = (signalChoices m'.signals).map shown) :
    List.Forall₂ (fun s s' => s'.name = s.name ∧ ((s'.choices.getD []).map told).Perm ((s.choices.getD []).map told))
      (withChoices m) (withChoices m') := by
  have flat : ∀ x : LMessage F, (signalChoices x.signals).map shown = ((withChoices x).map shownChoices).flatten := by
    intro x
    unfold signalChoices withChoices
    induction x.signals with
    | nil => rfl
    | cons s l ih =>
      rw [List.flatMap_cons, List.map_append, ih]
      by_cases hc : s.choices.getD [] = []
      · rw [List.filter_cons_of_neg (by simp [hc]), choiceLines, if_pos hc]
        rfl
      · rw [List.filter_cons_of_pos (by simp [hc])]
        rfl
  have ok : ∀ {x : LMessage F}, ∀ s ∈ withChoices x, s ∈ x.signals ∧ s.choices.getD [] ≠ [] := by
    intro x s hs
    unfold withChoices at hs
    simpa using hs
  have block : ∀ {x : LMessage F}, (∀ s ∈ x.signals, s.name ≠ [] ∧ ∀ c ∈ s.name, c.isWhitespace = false) →
      ∀ b ∈ (withChoices x).map shownChoices, ∃ h t, b = h :: t ∧ (h == []) = true ∧ ∀ y ∈ t, (y == []) = false := by
    intro x hx b hb
    obtain ⟨s, hs, rfl⟩ := List.mem_map.1 hb
    exact shownChoices_block (hx s (ok s hs).1) (ok s hs).2
  rw [flat, flat] at h
  have e := blocks_eq (p := fun l => l == []) (block hm) (block hm') h
  have k1 : ∀ s ∈ withChoices m, (s.name ≠ [] ∧ ∀ c ∈ s.name, c.isWhitespace = false) ∧ s.choices.getD [] ≠ [] :=
    fun s hs => ⟨hm s (ok s hs).1, (ok s hs).2⟩
  have k2 : ∀ s ∈ withChoices m', (s.name ≠ [] ∧ ∀ c ∈ s.name, c.isWhitespace = false) ∧ s.choices.getD [] ≠ [] :=
    fun s hs => ⟨hm' s (ok s hs).1, (ok s hs).2⟩
  generalize withChoices m = a at e k1
  generalize withChoices m' = b at e k2
  induction a generalizing b with
  | nil => cases b with
    | nil => exact .nil
    | cons _ _ => cases e
  | cons x a ih => cases b with
    | nil => cases e
    | cons y b =>
      rw [List.map_cons, List.map_cons, List.cons.injEq] at e
      exact .cons (shownChoices_eq (k1 x (by simp)).1 (k2 y (by simp)).1 (k1 x (by simp)).2 (k2 y (by simp)).2 e.1)
        (ih (fun s hs => k1 s (by simp [hs])) b e.2 (fun s hs => k2 s (by simp [hs])))

/-! ### The body of a page -/

theorem pictureLines_ok {m : LMessage F} {lines : List Line} (h : pictureLines T m = .ok lines) :
    ∃ core layout tree, coreMessage T m = .ok core ∧ layoutLines core true = .ok layout ∧
      signalTree T m.signals = .ok tree ∧
      lines = "  Layout:".toList :: (([[]] ++ ((splitJoined layout).map shown ++ [[]])) ++ ("  Signal tree:".toList ::
        ((([[]] ++ ((splitJoined tree).map shown ++ [[]]))) ++
        (if signalChoices m.signals = [] then []
          else "  Signal choices:".toList :: ((signalChoices m.signals).map shown ++ [[]]))))) := by
  unfold pictureLines at h
  obtain ⟨core, h1, h⟩ := bind_ok h
  obtain ⟨layout, h2, h⟩ := bind_ok h
  obtain ⟨tree, h3, h⟩ := bind_ok h
  refine ⟨core, layout, tree, h1, h2, h3, ?_⟩
  cases h
  rw [signalChoices_split]
  simp only [List.append_assoc, List.cons_append, List.nil_append]

theorem shown_ne {l t : Line} (ht : t.getD 2 ' ' ≠ ' ') : t ≠ shown l := fun e => ht (e ▸ shown_third l)

theorem mem_picture {m : LMessage F} {lines : List Line} (h : pictureLines T m = .ok lines) {l : Line} (hl : l ∈ lines) :
    l.getD 2 ' ' ≠ '-' := by
  obtain ⟨core, layout, tree, -, -, -, rfl⟩ := pictureLines_ok h
  have sh : ∀ {k : List Line}, l ∈ k.map shown → l.getD 2 ' ' ≠ '-' := by
    intro k hk
    obtain ⟨x, -, rfl⟩ := List.mem_map.1 hk
    rw [shown_third]; decide
  have nil : l = [] → l.getD 2 ' ' ≠ '-' := by rintro rfl; decide
  have hch : l ∈ (if signalChoices m.signals = [] then []
          else "  Signal choices:".toList :: ((signalChoices m.signals).map shown ++ [[]])) → l.getD 2 ' ' ≠ '-' := by
    split
    · intro h; cases h
    · intro h
      rcases List.mem_cons.1 h with rfl | h
      · decide
      · rcases List.mem_append.1 h with h | h
        · exact sh h
        · exact nil (List.mem_singleton.1 h)
  have mid : ∀ {k : List Line}, l ∈ [[]] ++ (k.map shown ++ [[]]) → l.getD 2 ' ' ≠ '-' := by
    intro k hk
    rcases List.mem_append.1 hk with h | h
    · exact nil (List.mem_singleton.1 h)
    · rcases List.mem_append.1 h with h | h
      · exact sh h
      · exact nil (List.mem_singleton.1 h)
  rcases List.mem_cons.1 hl with rfl | hl
  · decide
  · rcases List.mem_append.1 hl with hl | hl
    · exact mid hl
    · rcases List.mem_cons.1 hl with rfl | hl
      · decide
      · rcases List.mem_append.1 hl with hl | hl
        · exact mid hl
        · exact hch hl

theorem layout_stripped {core : Message} {layout : List Line} (h : layoutLines core true = .ok layout) (i : Nat) :
    rstrip (layout.getD i []) = layout.getD i [] := by
  unfold layoutLines at h
  obtain ⟨x, -, h⟩ := bind_ok h
  cases h
  rw [List.getD_eq_getElem?_getD, List.getElem?_map]
  cases (Dump.addAxisName _)[i]? with
  | none => rfl
  | some l => exact rstrip_rstrip l

/-- What the body of a page tells. -/
theorem picture_eq {m m' : LMessage F} (hm : ∀ s ∈ m.signals, s.name ≠ [] ∧ ∀ c ∈ s.name, c.isWhitespace = false)
    (hm' : ∀ s ∈ m'.signals, s.name ≠ [] ∧ ∀ c ∈ s.name, c.isWhitespace = false) {lines : List Line}
    (h : pictureLines T m = .ok lines) (h' : pictureLines T m' = .ok lines) :
    (∃ c c' l l', coreMessage T m = .ok c ∧ coreMessage T m' = .ok c' ∧ layoutLines c true = .ok l ∧
      layoutLines c' true = .ok l' ∧ ∀ i, l'.getD i [] = l.getD i []) ∧
    (∃ t t', signalTree T m.signals = .ok t ∧ signalTree T m'.signals = .ok t' ∧
      ∀ i, rstrip (t'.getD i []) = rstrip (t.getD i [])) ∧
    List.Forall₂ (fun s s' => s'.name = s.name ∧ ((s'.choices.getD []).map told).Perm ((s.choices.getD []).map told))
      (withChoices m) (withChoices m') := by
  obtain ⟨core, layout, tree, h1, h2, h3, rfl⟩ := pictureLines_ok h
  obtain ⟨core', layout', tree', h1', h2', h3', e⟩ := pictureLines_ok h'
  have out : ∀ {t : Line} {k : List Line}, t.getD 2 ' ' ≠ ' ' → t ∉ [[]] ++ (k.map shown ++ [[]]) := by
    intro t k ht hk
    rcases List.mem_append.1 hk with h | h
    · cases List.mem_singleton.1 h; exact ht rfl
    · rcases List.mem_append.1 h with h | h
      · obtain ⟨x, -, e⟩ := List.mem_map.1 h; exact shown_ne ht e.symm
      · cases List.mem_singleton.1 h; exact ht rfl
  obtain ⟨e1, e2⟩ := cut_eq (out (by decide)) (out (by decide)) (List.cons.inj e).2
  have start : ∀ x : LMessage F, (if signalChoices x.signals = [] then []
        else "  Signal choices:".toList :: ((signalChoices x.signals).map shown ++ [[]])) = [] ∨
      ∃ y t, (if signalChoices x.signals = [] then []
        else "  Signal choices:".toList :: ((signalChoices x.signals).map shown ++ [[]])) = y :: t ∧
          (y == "  Signal choices:".toList) = true := by
    intro x
    split
    · exact .inl rfl
    · exact .inr ⟨_, _, rfl, by simp⟩
  have no : ∀ {k : List Line}, ∀ x ∈ [[]] ++ (k.map shown ++ [[]]), (x == "  Signal choices:".toList) = false := by
    intro k x hx
    rw [beq_eq_false_iff_ne]
    rintro rfl
    exact out (by decide) hx
  obtain ⟨e3, e4⟩ := rest_eq (p := fun l => l == "  Signal choices:".toList) no no (start m) (start m') e2
  have cancel : ∀ {a b : List Line}, [[]] ++ (a ++ [[]]) = [[]] ++ (b ++ [[]]) → a = b := fun h =>
    List.append_cancel_right (List.append_cancel_left h)
  refine ⟨⟨core, core', layout, layout', h1, h1', h2, h2', fun i => ?_⟩, ⟨tree, tree', h3, h3', fun i => ?_⟩,
    choices_told hm hm' ?_⟩
  · have := split_shown (cancel e1) i
    rwa [layout_stripped h2, layout_stripped h2'] at this
  · exact split_shown (cancel e3) i
  · by_cases a : signalChoices m.signals = [] <;> by_cases b : signalChoices m'.signals = []
    · rw [a, b]
    · rw [if_pos a, if_neg b] at e4; cases e4
    · rw [if_neg a, if_pos b] at e4; cases e4
    · rw [if_neg a, if_neg b] at e4
      exact List.append_cancel_right (List.cons.inj e4).2

theorem children_eq {n : Chars} {a b : List Chars} (h : childLines n a = childLines n b) : b = a := by
  unfold childLines at h
  have h := List.append_cancel_right (List.append_cancel_left h)
  exact (List.map_injective_iff.2 (fun x y e =>
    List.append_cancel_left (as := " :: ".toList) (List.append_cancel_left (as := n) (List.append_cancel_left e))) h).symm

/-! ### Pages -/

/-- The lines of a page. -/
def pageLines (T : FloatText F) (p : Page F) : Except Err (List Line) :=
  messageLines T (prefixOf p.parent) p.j1939 p.children p.message

theorem messageLines_ok {x : Chars} {j : Bool} {c : List Chars} {m : LMessage F} {lines : List Line}
    (h : messageLines T x j c m = .ok lines) :
    ∃ head body, headLines T x j (!c.isEmpty) m = .ok head ∧
      (if c.isEmpty then pictureLines T m else .ok (childLines m.name c)) = .ok body ∧ lines = (head ++ body) ++ [rule] := by
  unfold messageLines at h
  obtain ⟨head, h1, h⟩ := bind_ok h
  obtain ⟨body, h2, h⟩ := bind_ok h
  cases h
  exact ⟨head, body, h1, h2, (List.append_assoc _ _ _).symm⟩

theorem body_start {c : List Chars} {m : LMessage F} {body : List Line}
    (h : (if c.isEmpty then pictureLines T m else .ok (childLines m.name c)) = .ok body) :
    ∃ x t, body = x :: t ∧ isBody x = true := by
  split at h
  · obtain ⟨_, _, _, -, -, -, rfl⟩ := pictureLines_ok h
    exact ⟨_, _, rfl, by decide +kernel⟩
  · cases h
    exact ⟨_, _, rfl, by decide +kernel⟩

theorem rule_not_mem {p : Page F} {head body : List Line}
    (h1 : headLines T (prefixOf p.parent) p.j1939 (!p.children.isEmpty) p.message = .ok head)
    (h2 : (if p.children.isEmpty then pictureLines T p.message else .ok (childLines p.message.name p.children)) = .ok body) :
    rule ∉ head ++ body := by
  have hr : rule.getD 2 ' ' = '-' := rfl
  intro h
  rcases List.mem_append.1 h with h | h
  · exact (head_line h1 h).1 hr
  · split at h2
    · exact mem_picture h2 h hr
    · cases h2
      unfold childLines at h
      rcases List.mem_append.1 h with h | h
      · simp only [List.mem_cons, List.not_mem_nil, or_false] at h
        rcases h with h | h
        · rw [h] at hr; exact absurd hr (by decide)
        · rw [h] at hr; exact absurd hr (by decide)
      · rcases List.mem_append.1 h with h | h
        · obtain ⟨c, -, e⟩ := List.mem_map.1 h
          rw [← e] at hr
          exact absurd (show ' ' = '-' from hr) (by decide)
        · rw [List.mem_singleton.1 h] at hr; exact absurd hr (by decide)

/-- Pages with the same lines tell the same. -/
theorem samePage (L : FloatLaws T) {p q : Page F} (hp : FinePage p) (hq : FinePage q) {lines : List Line}
    (h : pageLines T p = .ok lines) (h' : pageLines T q = .ok lines) : SamePage T p q := by
  obtain ⟨head, body, h1, h2, rfl⟩ := messageLines_ok h
  obtain ⟨head', body', h1', h2', e⟩ := messageLines_ok h'
  obtain ⟨rfl, rfl⟩ := rest_eq (p := isBody) (fun x hx => (head_line h1 hx).2) (fun x hx => (head_line h1' hx).2)
    (.inr (body_start h2)) (.inr (body_start h2')) (List.append_cancel_right e)
  obtain ⟨a1, a2, a3, a4, a5, a6, a7, a8, a9⟩ := head_eq L hp hq h1 h1'
  have picture : p.children = [] → _ := fun hc => by
    have hc' : q.children.isEmpty = true := by
      rw [hc] at a6
      simpa using a6
    rw [hc] at h2
    rw [hc'] at h2'
    exact picture_eq hp.signals hq.signals h2 h2'
  refine ⟨a1, a2, a3, a4, a5, a7, a8, a9, ?_, fun hc => (picture hc).1, fun hc => (picture hc).2.1, fun hc => (picture hc).2.2⟩
  cases hc : p.children with
  | nil =>
    rw [hc] at a6
    simpa using a6
  | cons x l =>
    have hc' : q.children.isEmpty = false := by
      rw [hc] at a6
      simpa using a6
    rw [hc] at h2
    rw [hc', a2] at h2'
    have e1 : childLines p.message.name (x :: l) = body := Except.ok.inj h2
    have e2 : childLines p.message.name q.children = body := Except.ok.inj h2'
    exact children_eq (e1.trans e2.symm)

theorem entryLines_ok {d : Dumped F} {lines : List Line} (h : entryLines T d = .ok lines) :
    ∃ ls, List.Forall₂ (fun p l => pageLines T p = .ok l) (pages d) ls ∧ lines = ls.flatten := by
  unfold entryLines at h
  obtain ⟨own, h1, h⟩ := bind_ok h
  obtain ⟨rest, h2, h⟩ := bind_ok h
  cases h
  refine ⟨own :: rest, .cons h1 ?_, rfl⟩
  rw [List.forall₂_map_left_iff]
  exact mapM_ok h2

/-- What is printed, page by page. -/
theorem dumpMessages_ok {db : List (Dumped F)} {lines : List Line} (h : dumpMessages T db = .ok lines) :
    ∃ ls, List.Forall₂ (fun p l => pageLines T p = .ok l) (db.flatMap pages) ls ∧ lines = title ++ ls.flatten := by
  unfold dumpMessages at h
  obtain ⟨blocks, h0, h⟩ := bind_ok h
  cases h
  have h1 := mapM_ok h0
  clear h h0
  have : ∃ ls, List.Forall₂ (fun p l => pageLines T p = .ok l) (db.flatMap pages) ls ∧ blocks.flatten = ls.flatten := by
    induction h1 with
    | nil => exact ⟨[], .nil, rfl⟩
    | cons h _ ih =>
      obtain ⟨a, a1, a2⟩ := entryLines_ok h
      obtain ⟨b, b1, b2⟩ := ih
      exact ⟨a ++ b, List.rel_append a1 b1, by rw [List.flatten_cons, List.flatten_append, a2, b2]⟩
  obtain ⟨ls, a, b⟩ := this
  exact ⟨ls, a, congrArg (title ++ ·) b⟩

/-- Pages can be told apart. -/
theorem pages_eq {ps qs : List (Page F)} {a b : List (List Line)}
    (ha : List.Forall₂ (fun p l => pageLines T p = .ok l) ps a) (hb : List.Forall₂ (fun p l => pageLines T p = .ok l) qs b)
    (h : a.flatten = b.flatten) : a = b := by
  have cut : ∀ {p : Page F} {l : List Line}, pageLines T p = .ok l → ∃ t, l = t ++ [rule] ∧ rule ∉ t := by
    intro p l hl
    obtain ⟨head, body, h1, h2, rfl⟩ := messageLines_ok hl
    exact ⟨_, rfl, rule_not_mem h1 h2⟩
  induction ha generalizing qs b with
  | nil =>
    cases hb with
    | nil => rfl
    | cons h1 _ =>
      obtain ⟨t, rfl, -⟩ := cut h1
      simp at h
  | cons h1 _ ih =>
    obtain ⟨t, rfl, ht⟩ := cut h1
    cases hb with
    | nil => simp at h
    | cons h2 hb =>
      obtain ⟨t', rfl, ht'⟩ := cut h2
      rw [List.flatten_cons, List.flatten_cons, List.append_assoc, List.append_assoc] at h
      obtain ⟨rfl, e⟩ := cut_eq ht ht' h
      rw [ih hb e]

end Cantools.DumpCommand
