import Verif.Lemmas.DbcEntry

/-
The grammar gives back the entries of a DBC file.
-/

namespace Cantools.Dbc
open Cantools Spec

/-! ### Trees -/

abbrev st (s : Chars) : Tree := .str s
abbrev sk (s : String) : Tree := .str s.toList

def SigE.tree (s : SigE) : Tree := .list
  [sk "SG_", .list (match s.mux with | none => [st s.name] | some w => [st s.name, st w]), sk ":", st s.start, sk "|",
   st s.len, sk "@", st s.order, st [if s.signed then '-' else '+'], sk "(", st s.scale, sk ",", st s.offset, sk ")",
   sk "[", st s.lo, sk "|", st s.hi, sk "]", st s.unit.val, .list ((s.recv :: s.more).map st)]

def Obj.trees : Obj → List Tree
  | .node n => [sk "BU_", st n]
  | .msg id => [sk "BO_", st id]
  | .sig id n => [sk "SG_", st id, st n]
  | .ev n => [sk "EV_", st n]

def Val.text : Val → Chars
  | .num t => t
  | .str q => q.val

def DefVals.texts : DefVals → List Chars
  | .strs x l => (x :: l).map (·.val)
  | .nums l => l

def pairTree (p : Chars × Q) : Tree := .list [st p.1, st p.2.val]
def rangeTree (r : Chars × Chars) : Tree := .list [st r.1, st r.2]

def Entry.tree : Entry → Tree
  | .version v => .list [sk "VERSION", st v.val]
  | .ns => .list [sk "NS_", sk ":", .list (symbols.map st)]
  | .bs => .list [sk "BS_", sk ":"]
  | .nodes names => .list [sk "BU_", sk ":", .list (names.map st)]
  | .valueTable name pairs => .list [sk "VAL_TABLE_", st name, .list (pairs.map pairTree), sk ";"]
  | .message id name len sender sigs =>
      .list [sk "BO_", st id, st name, sk ":", st len, st sender, .list (sigs.map SigE.tree)]
  | .senders id first more => .list [sk "BO_TX_BU_", st id, sk ":", .list ((first :: more).map st), sk ";"]
  | .envvar name type lo hi unit init id acc node => .list
      [sk "EV_", st name, sk ":", st type, sk "[", st lo, sk "|", st hi, sk "]", st unit.val, st init, st id, st acc,
       st node, sk ";"]
  | .busComment text => .list [sk "CM_", st text.val, sk ";"]
  | .comment obj text => .list [sk "CM_", .list (obj.trees ++ [st text.val]), sk ";"]
  | .attrDef kind name type _ vals => .list
      [sk "BA_DEF_", .list (match kind with | none => [] | some k => [sk k]), st name.val, st type,
       .list [.list (vals.texts.map st)], sk ";"]
  | .attrDefault name val => .list [sk "BA_DEF_DEF_", st name.val, st val.text, sk ";"]
  | .attr name obj val => .list
      [sk "BA_", st name.val, .list (match obj with | none => [] | some o => [.list o.trees]), st val.text, sk ";"]
  | .relDef kind name type _ vals => .list
      [sk "BA_DEF_REL_", .list [sk kind], st name.val, st type,
       .list (if vals.texts = [] then [] else [.list (vals.texts.map st)]), sk ";"]
  | .relDefault name val => .list [sk "BA_DEF_DEF_REL_", st name.val, st val.text, sk ";"]
  | .sigRel name node id signal val => .list
      [sk "BA_REL_", st name.val, sk "BU_SG_REL_", st node, sk "SG_", st id, st signal, st val.text, sk ";"]
  | .msgRel name node id val => .list
      [sk "BA_REL_", st name.val, sk "BU_BO_REL_", st node, st id, st val.text, sk ";"]
  | .choices id name pairs => .list [sk "VAL_", .list [st id], st name, .list (pairs.map pairTree), sk ";"]
  | .sigType id name type => .list [sk "SIG_VALTYPE_", st id, st name, sk ":", st type, sk ";"]
  | .group id name rep names =>
      .list [sk "SIG_GROUP_", st id, st name, st rep, sk ":", .list (names.map st), sk ";"]
  | .muxVal id name mux first more =>
      .list [sk "SG_MUL_VAL_", st id, st name, st mux, .list ((first :: more).map rangeTree), sk ";"]

/-! ### Tokens of pieces -/

theorem toks_sp (c : Char) (r : List Piece) : toksOf (.sp c :: r) = toksOf r := by
  rw [toksOf_cons]; rfl
theorem toks_key (k : String) (r : List Piece) : toksOf (.key k :: r) = ⟨k, k.toList⟩ :: toksOf r := by
  rw [toksOf_cons]; rfl
theorem toks_word (w : Chars) (r : List Piece) : toksOf (.word w :: r) = ⟨"WORD", w⟩ :: toksOf r := by
  rw [toksOf_cons]; rfl
theorem toks_num (w : Chars) (r : List Piece) : toksOf (.num w :: r) = ⟨"NUMBER", w⟩ :: toksOf r := by
  rw [toksOf_cons]; rfl
theorem toks_str (q : Q) (r : List Piece) : toksOf (q.piece :: r) = ⟨"STRING", q.val⟩ :: toksOf r := by
  unfold Q.piece; rw [toksOf_cons]; rfl
theorem toks_pun (c : Char) (r : List Piece) : toksOf (.pun c :: r) = ⟨(punct? c).getD "", [c]⟩ :: toksOf r := by
  rw [toksOf_cons]; rfl

theorem toks_words (sep : List Piece) (hs : toksOf sep = []) (l : List Chars) :
    toksOf (joinP sep (l.map fun w => [.word w])) = l.flatMap fun w => [⟨"WORD", w⟩] := by
  rw [toksOf_joinP_blank hs, List.flatMap_map]; rfl

theorem toks_nums (sep : List Piece) (hs : toksOf sep = []) (l : List Chars) :
    toksOf (joinP sep (l.map fun w => [.num w])) = l.flatMap fun w => [⟨"NUMBER", w⟩] := by
  rw [toksOf_joinP_blank hs, List.flatMap_map]; rfl

theorem toks_delim (sep : List Piece) {α : Type} (f : α → List Piece) (x : α) (l : List α) :
    toksOf (joinP sep ((x :: l).map f)) = toksOf (f x) ++ l.flatMap fun y => toksOf sep ++ toksOf (f y) := by
  induction l generalizing x with
  | nil => simp [joinP]
  | cons y r ih =>
    show toksOf (f x ++ (sep ++ joinP sep ((y :: r).map f))) = _
    rw [toksOf_append, toksOf_append, ih y]
    simp

theorem toks_delim_words (x : Chars) (l : List Chars) :
    toksOf (joinP comma ((x :: l).map fun w => [.word w])) =
      ⟨"WORD", x⟩ :: (l.flatMap fun y => [⟨",", [',']⟩, ⟨"WORD", y⟩]) := by
  rw [toks_delim]; rfl

theorem toks_delim_strs (x : Q) (l : List Q) :
    toksOf (joinP comma ((x :: l).map fun w => [w.piece])) =
      ⟨"STRING", x.val⟩ :: (l.flatMap fun y => [⟨",", [',']⟩, ⟨"STRING", y.val⟩]) := by
  rw [toks_delim]; rfl

theorem toks_delim_ranges (x : Chars × Chars) (l : List (Chars × Chars)) :
    toksOf (joinP [.pun ',', spc] ((x :: l).map rangePieces)) =
      ⟨"NUMBER", x.1⟩ :: ⟨"NUMBER", x.2⟩ :: (l.flatMap fun y => [⟨",", [',']⟩, ⟨"NUMBER", y.1⟩, ⟨"NUMBER", y.2⟩]) := by
  rw [toks_delim]; rfl

theorem toks_pairs (l : List (Chars × Q)) :
    toksOf (joinP [spc] (l.map pairPieces)) =
      l.flatMap fun p => [⟨"NUMBER", p.1⟩, ⟨"STRING", p.2.val⟩] := by
  rw [toksOf_joinP_blank rfl, List.flatMap_map]; rfl

/-! ### Combinators -/

theorem manyAll_append {α : Type} {p : Pattern} {f : α → List Tok} {g : α → Tree} {Next : List Tok → Prop}
    (l : List α) (rest : List Tok) (h : ∀ a ∈ l, ∀ r, Next r → p (f a ++ r) = some (g a, r))
    (hn : ∀ a ∈ l, ∀ r, Next (f a ++ r)) (hr : Next rest) (hstop : p rest = none) (fuel : Nat)
    (hf : l.length ≤ fuel) : manyAll p fuel (l.flatMap f ++ rest) = (l.map g, rest) := by
  induction l generalizing fuel with
  | nil =>
    cases fuel with
    | zero => rfl
    | succ n => simp [manyAll, hstop]
  | cons a r ih =>
    obtain ⟨n, rfl⟩ : ∃ n, fuel = n + 1 := ⟨fuel - 1, by simp at hf; omega⟩
    have ih' := ih (fun b hb => h b (List.mem_cons_of_mem _ hb)) (fun b hb => hn b (List.mem_cons_of_mem _ hb)) n
      (by simpa using hf)
    have hN : Next (r.flatMap f ++ rest) := by
      cases r with
      | nil => exact hr
      | cons b r =>
        rw [List.flatMap_cons, List.append_assoc]
        exact hn b (by simp) _
    rw [List.flatMap_cons, List.append_assoc, manyAll, h a (by simp) _ hN]
    simp only [ih', List.map_cons]

theorem length_le_flatMap {α β : Type} {f : α → List β} (hf : ∀ a, f a ≠ []) (l : List α) (rest : List β) :
    l.length ≤ (l.flatMap f ++ rest).length := by
  induction l with
  | nil => simp
  | cons a r ih =>
    have := List.length_pos_iff.2 (hf a)
    simp only [List.flatMap_cons, List.length_append, List.length_cons] at ih ⊢
    omega

theorem manyP_append {α : Type} {p : Pattern} {f : α → List Tok} {g : α → Tree} {Next : List Tok → Prop}
    (l : List α) (rest : List Tok) (h : ∀ a ∈ l, ∀ r, Next r → p (f a ++ r) = some (g a, r))
    (hn : ∀ a ∈ l, ∀ r, Next (f a ++ r)) (hr : Next rest) (hstop : p rest = none) (hne : ∀ a, f a ≠ []) :
    manyP p (l.flatMap f ++ rest) = some (.list (l.map g), rest) := by
  unfold manyP
  rw [manyAll_append l rest h hn hr hstop _ (length_le_flatMap hne l rest)]

/-- The kind of the next token. -/
def headKind (r : List Tok) : String := match r with | [] => "" | t :: _ => t.kind

theorem tokP_none {k : String} {r : List Tok} (h : headKind r ≠ k) : tokP k r = none := by
  cases r with
  | nil => rfl
  | cons t r => exact if_neg h

theorem many_words (l : List Chars) (rest : List Tok) (h : headKind rest ≠ "WORD") :
    manyP (tokP "WORD") ((l.flatMap fun w => [⟨"WORD", w⟩]) ++ rest) = some (.list (l.map st), rest) :=
  manyP_append (Next := fun _ => True) l rest (fun _ _ _ _ => rfl) (fun _ _ _ => trivial) trivial
    (tokP_none h) (by simp)

theorem many_nums (l : List Chars) (rest : List Tok) (h : headKind rest ≠ "NUMBER") :
    manyP (tokP "NUMBER") ((l.flatMap fun w => [⟨"NUMBER", w⟩]) ++ rest) = some (.list (l.map st), rest) :=
  manyP_append (Next := fun _ => True) l rest (fun _ _ _ _ => rfl) (fun _ _ _ => trivial) trivial
    (tokP_none h) (by simp)

theorem many_pairs (l : List (Chars × Q)) (rest : List Tok) (h : headKind rest ≠ "NUMBER") :
    manyP (seqP [tokP "NUMBER", tokP "STRING"])
      ((l.flatMap fun p => [⟨"NUMBER", p.1⟩, ⟨"STRING", p.2.val⟩]) ++ rest) = some (.list (l.map pairTree), rest) :=
  manyP_append (Next := fun _ => True) l rest (fun _ _ _ _ => rfl) (fun _ _ _ => trivial) trivial
    (by simp [seqP, seqAll, tokP_none h]) (by simp)

theorem delimP_append {α : Type} {p : Pattern} {f : α → List Tok} {g : α → Tree} (x : α) (l : List α)
    (rest : List Tok) (h : ∀ a r, p (f a ++ r) = some (g a, r)) (hr : headKind rest ≠ ",") :
    delimP p (f x ++ ((l.flatMap fun y => ⟨",", [',']⟩ :: f y) ++ rest)) =
      some (.list ((x :: l).map g), rest) := by
  unfold delimP
  rw [h]
  simp only
  have hstop : (match rest with
      | [] => none
      | c :: s => if c.kind = "," then p s else none) = none := by
    cases rest with
    | nil => rfl
    | cons t r => exact if_neg hr
  rw [manyAll_append (Next := fun _ => True) (f := fun y => (⟨",", [',']⟩ : Tok) :: f y) (g := g) l rest
    (fun a _ r _ => by simpa using h a r) (fun _ _ _ => trivial) trivial hstop _
    (length_le_flatMap (by simp) l rest)]
  rfl

theorem delim_words (x : Chars) (l : List Chars) (rest : List Tok) (h : headKind rest ≠ ",") :
    delimP (tokP "WORD") (⟨"WORD", x⟩ :: ((l.flatMap fun y => [⟨",", [',']⟩, ⟨"WORD", y⟩]) ++ rest)) =
      some (.list ((x :: l).map st), rest) :=
  delimP_append (f := fun w => [⟨"WORD", w⟩]) (g := st) x l rest (fun _ _ => rfl) h

theorem delim_strs (x : Q) (l : List Q) (rest : List Tok) (h : headKind rest ≠ ",") :
    delimP (tokP "STRING") (⟨"STRING", x.val⟩ :: ((l.flatMap fun y => [⟨",", [',']⟩, ⟨"STRING", y.val⟩]) ++ rest)) =
      some (.list ((x :: l).map fun q => st q.val), rest) :=
  delimP_append (f := fun w : Q => [⟨"STRING", w.val⟩]) (g := fun w => st w.val) x l rest (fun _ _ => rfl) h

theorem delim_ranges (x : Chars × Chars) (l : List (Chars × Chars)) (rest : List Tok) (h : headKind rest ≠ ",") :
    delimP (seqP [tokP "NUMBER", tokP "NUMBER"]) (⟨"NUMBER", x.1⟩ :: ⟨"NUMBER", x.2⟩ ::
      ((l.flatMap fun y => [⟨",", [',']⟩, ⟨"NUMBER", y.1⟩, ⟨"NUMBER", y.2⟩]) ++ rest)) =
      some (.list ((x :: l).map rangeTree), rest) :=
  delimP_append (f := fun w : Chars × Chars => [⟨"NUMBER", w.1⟩, ⟨"NUMBER", w.2⟩]) (g := rangeTree) x l rest
    (fun _ _ => rfl) h

theorem anyUntil_symbols (l : List Chars) (hl : ∀ k ∈ l, String.ofList k ≠ ":") (x : Tok) (r : List Tok)
    (hx : x.kind ≠ ":") :
    anyUntilP (seqP [anyP, tokP ":"]) ((l.map fun k => ⟨String.ofList k, k⟩) ++ (x :: ⟨":", [':']⟩ :: r)) =
      some (.list (l.map st), x :: ⟨":", [':']⟩ :: r) := by
  have key : anyUntilAll (seqP [anyP, tokP ":"]) ((l.map fun k => ⟨String.ofList k, k⟩) ++ (x :: ⟨":", [':']⟩ :: r)) =
      some (l.map st, x :: ⟨":", [':']⟩ :: r) := by
    induction l with
    | nil => rfl
    | cons k l ih =>
      have hnext : seqP [anyP, tokP ":"] ((⟨String.ofList k, k⟩ : Tok) ::
          ((l.map fun k => ⟨String.ofList k, k⟩) ++ (x :: ⟨":", [':']⟩ :: r))) = none := by
        cases l with
        | nil => simp [seqP, seqAll, anyP, tokP, hx]
        | cons k' l => simp [seqP, seqAll, anyP, tokP, hl k' (by simp)]
      rw [List.map_cons, List.cons_append, anyUntilAll, hnext]
      simp only [ih fun y hy => hl y (List.mem_cons_of_mem _ hy), List.map_cons]
  unfold anyUntilP
  rw [key]; rfl

theorem toks_symbols (l : List Chars) :
    toksOf (l.flatMap fun k => .sp '\t' :: .key (String.ofList k) :: crlfP) =
      l.map fun k => ⟨String.ofList k, k⟩ := by
  induction l with
  | nil => rfl
  | cons k r ih =>
    rw [List.flatMap_cons, toksOf_append, ih]
    simp [toks_sp, toks_key, crlfP, toksOf_blanks]

/-! ### Sequences -/

theorem tokP_cons (k : String) (v : Chars) (r : List Tok) : tokP k (⟨k, v⟩ :: r) = some (.str v, r) := if_pos rfl

theorem seqAll_tok (k : String) (ps : List Pattern) (v : Chars) (r : List Tok) :
    seqAll (tokP k :: ps) (⟨k, v⟩ :: r) = (seqAll ps r).map fun x => (.str v :: x.1, x.2) := by
  rw [seqAll, tokP_cons]
  simp only
  cases seqAll ps r <;> rfl

theorem seqAll_pat {p : Pattern} {s r : List Tok} {t : Tree} (ps : List Pattern) (h : p s = some (t, r)) :
    seqAll (p :: ps) s = (seqAll ps r).map fun x => (t :: x.1, x.2) := by
  rw [seqAll, h]
  simp only
  cases seqAll ps r <;> rfl

theorem seqAll_nil (s : List Tok) : seqAll [] s = some ([], s) := rfl

theorem choice_skip {k k' : String} (ps : List Pattern) (qs : List Pattern) (v : Chars) (r : List Tok)
    (h : k ≠ k') : choiceP (seqP (tokP k' :: ps) :: qs) (⟨k, v⟩ :: r) = choiceP qs (⟨k, v⟩ :: r) := by
  have : seqP (tokP k' :: ps) (⟨k, v⟩ :: r) = none := by
    unfold seqP; rw [seqAll]; simp only [tokP, if_neg h]; rfl
  rw [choiceP, this]

theorem choice_skip_tok {k k' : String} (qs : List Pattern) (v : Chars) (r : List Tok)
    (h : k ≠ k') : choiceP (tokP k' :: qs) (⟨k, v⟩ :: r) = choiceP qs (⟨k, v⟩ :: r) := by
  have : tokP k' (⟨k, v⟩ :: r) = none := if_neg h
  rw [choiceP, this]

theorem choice_take {p : Pattern} {s : List Tok} {x : Tree × List Tok} (qs : List Pattern)
    (h : p s = some x) : choiceP (p :: qs) s = some x := by
  rw [choiceP, h]

theorem choice_fail {p : Pattern} {s : List Tok} (qs : List Pattern) (h : p s = none) :
    choiceP (p :: qs) s = choiceP qs s := by
  rw [choiceP, h]

theorem seqP_of {ps : List Pattern} {s r : List Tok} {l : List Tree} (h : seqAll ps s = some (l, r)) :
    seqP ps s = some (.list l, r) := by unfold seqP; rw [h]; rfl

/-! ### Signals -/

/-- What follows an entry. -/
def Follow (r : List Tok) : Prop := headKind r ≠ "WORD" ∧ headKind r ≠ "," ∧ headKind r ≠ "SG_"

macro "toks" : tactic => `(tactic| simp only [List.cons_append, List.nil_append, List.append_assoc, toks_sp, toks_key,
  toks_word, toks_num, toks_str, toks_pun, toksOf_append, toksOf_nil, List.flatMap_nil, List.append_nil,
  show (punct? ':').getD "" = ":" from rfl, show (punct? '|').getD "" = "|" from rfl,
  show (punct? '@').getD "" = "@" from rfl, show (punct? '(').getD "" = "(" from rfl,
  show (punct? ')').getD "" = ")" from rfl, show (punct? '[').getD "" = "[" from rfl,
  show (punct? ']').getD "" = "]" from rfl, show (punct? ',').getD "" = "," from rfl,
  show (punct? ';').getD "" = ";" from rfl])

theorem sign_kind (b : Bool) : (punct? (if b then '-' else '+')).getD "" = "+/-" := by cases b <;> rfl

theorem name_parse (n v : Chars) (r : List Tok) :
    choiceP [seqP [tokP "WORD", tokP "WORD"], seqP [tokP "WORD"]] (⟨"WORD", n⟩ :: ⟨":", v⟩ :: r) =
      some (.list [st n], ⟨":", v⟩ :: r) := by
  simp [choiceP, seqP, seqAll, tokP]

theorem name_mux_parse (n w : Chars) (r : List Tok) :
    choiceP [seqP [tokP "WORD", tokP "WORD"], seqP [tokP "WORD"]] (⟨"WORD", n⟩ :: ⟨"WORD", w⟩ :: r) =
      some (.list [st n, st w], r) := by
  simp [choiceP, seqP, seqAll, tokP]

theorem signal_parse (s : SigE) (r : List Tok) (h : headKind r ≠ ",") :
    signalP (toksOf s.pieces ++ r) = some (s.tree, r) := by
  have hpad : toksOf (if s.pad then [spc] else []) = [] := by cases s.pad <;> rfl
  have hr : toksOf (joinP comma ((s.recv :: s.more).map fun w => [.word w])) =
      ⟨"WORD", s.recv⟩ :: (s.more.flatMap fun y => [⟨",", [',']⟩, ⟨"WORD", y⟩]) := by
    rw [toks_delim]; rfl
  have hd := delim_words s.recv s.more r h
  unfold signalP SigE.pieces SigE.tree
  apply seqP_of
  cases s.mux with
  | none =>
    toks
    rw [hpad, hr, seqAll_tok, seqAll_pat _ (name_parse _ _ _)]
    simp only [seqAll_tok, sign_kind, List.nil_append, List.cons_append]
    rw [seqAll_pat _ hd]
    simp only [seqAll_nil, Option.map_some]
    rfl
  | some w =>
    toks
    rw [hpad, hr, seqAll_tok, seqAll_pat _ (name_mux_parse _ _ _)]
    simp only [seqAll_tok, sign_kind, List.nil_append, List.cons_append]
    rw [seqAll_pat _ hd]
    simp only [seqAll_nil, Option.map_some]
    rfl

theorem signals_parse (l : List SigE) (r : List Tok) (h : Follow r) :
    manyP signalP (toksOf (l.flatMap fun s => crlfP ++ s.pieces) ++ r) = some (.list (l.map SigE.tree), r) := by
  have ht : toksOf (l.flatMap fun s => crlfP ++ s.pieces) = l.flatMap fun s => toksOf s.pieces := by
    induction l with
    | nil => rfl
    | cons a l ih => rw [List.flatMap_cons, toksOf_append, toksOf_append, ih, crlfP, toksOf_blanks]; rfl
  have hhead : ∀ (s : SigE) r, headKind (toksOf s.pieces ++ r) = "SG_" := fun s r => rfl
  rw [ht]
  apply manyP_append (Next := fun r => headKind r ≠ ",")
  · exact fun a _ r hr => signal_parse a r hr
  · intro a _ r; rw [hhead]; decide
  · exact h.2.1
  · unfold signalP seqP; rw [seqAll, tokP_none h.2.2]; rfl
  · intro s hs
    have := hhead s []
    rw [hs] at this
    exact absurd this (by decide)

/-! ### Entries -/

/-- What an entry needs after it. -/
def Entry.Next (e : Entry) (r : List Tok) : Prop :=
  match e with
  | .ns => ∃ r', r = ⟨"BS_", "BS_".toList⟩ :: ⟨":", [':']⟩ :: r'
  | _ => Follow r

macro "entry" : tactic => `(tactic| unfold entryP messageP commentP attrDefP valueTableP choicesP attrP signalRelP
  messageRelP relDefP attrDefaultP relDefaultP signalGroupP signalTypeP muxValuesP sendersP envvarP nodesP nsP bsP
  versionP)

macro "skips" : tactic => `(tactic| (
  (repeat rw [choice_skip _ _ _ _ (by decide)])
  apply choice_take
  apply seqP_of))

macro "leaf" : tactic => `(tactic| (simp only [seqAll_tok, seqAll_nil, Option.map_some]; try rfl))

theorem symbols_colon : ∀ k ∈ symbols, String.ofList k ≠ ":" := by decide +kernel

theorem obj_parse (o : Obj) (r : List Tok) (h : headKind r = "NUMBER" ∨ headKind r = "STRING") :
    manyP (choiceP [seqP [tokP "BO_", tokP "NUMBER"], seqP [tokP "SG_", tokP "NUMBER", tokP "WORD"],
      seqP [tokP "BU_", tokP "WORD"], seqP [tokP "EV_", tokP "WORD"]]) (toksOf o.pieces ++ r) =
      some (.list [.list o.trees], r) := by
  have hk : ∀ k : String, k ∈ ["BO_", "SG_", "BU_", "EV_"] → headKind r ≠ k := by
    intro k hk hr
    rw [hr] at h
    simp only [List.mem_cons, List.not_mem_nil, or_false] at hk
    rcases hk with rfl | rfl | rfl | rfl <;> revert h <;> decide
  have := manyP_append (p := choiceP [seqP [tokP "BO_", tokP "NUMBER"], seqP [tokP "SG_", tokP "NUMBER", tokP "WORD"],
      seqP [tokP "BU_", tokP "WORD"], seqP [tokP "EV_", tokP "WORD"]]) (f := fun o : Obj => toksOf o.pieces)
      (g := fun o => .list o.trees) (Next := fun _ => True) [o] r
      (fun a _ r _ => by cases a <;> simp [Obj.pieces, Obj.trees, toks_sp, toks_key, toks_word, toks_num, choiceP, seqP, seqAll, tokP]) (fun _ _ _ => trivial) trivial
      (by simp [choiceP, seqP, seqAll, tokP_none (hk "BO_" (by simp)), tokP_none (hk "SG_" (by simp)),
            tokP_none (hk "BU_" (by simp)), tokP_none (hk "EV_" (by simp))])
      (by intro a ha; cases a <;> cases ha)
  simpa using this

theorem no_obj_parse (r : List Tok) (h : headKind r = "NUMBER" ∨ headKind r = "STRING") :
    manyP (choiceP [seqP [tokP "BO_", tokP "NUMBER"], seqP [tokP "SG_", tokP "NUMBER", tokP "WORD"],
      seqP [tokP "BU_", tokP "WORD"], seqP [tokP "EV_", tokP "WORD"]]) r = some (.list [], r) := by
  have hk : ∀ k : String, k ∈ ["BO_", "SG_", "BU_", "EV_"] → headKind r ≠ k := by
    intro k hk hr
    rw [hr] at h
    simp only [List.mem_cons, List.not_mem_nil, or_false] at hk
    rcases hk with rfl | rfl | rfl | rfl <;> revert h <;> decide
  exact manyP_append (p := choiceP [seqP [tokP "BO_", tokP "NUMBER"], seqP [tokP "SG_", tokP "NUMBER", tokP "WORD"],
      seqP [tokP "BU_", tokP "WORD"], seqP [tokP "EV_", tokP "WORD"]]) (f := fun o : Obj => toksOf o.pieces)
      (g := fun o => .list o.trees) (Next := fun _ => True) [] r
      (fun a ha => by cases ha) (fun _ _ _ => trivial) trivial
      (by simp [choiceP, seqP, seqAll, tokP_none (hk "BO_" (by simp)), tokP_none (hk "SG_" (by simp)),
            tokP_none (hk "BU_" (by simp)), tokP_none (hk "EV_" (by simp))])
      (by intro a ha; cases a <;> cases ha)

theorem val_parse (v : Val) (r : List Tok) :
    ∃ k, (k = "NUMBER" ∨ k = "STRING") ∧ toksOf (v.piece :: r0) = ⟨k, v.text⟩ :: toksOf r0 ∧
      choiceP [tokP "NUMBER", tokP "STRING"] (⟨k, v.text⟩ :: r) = some (st v.text, r) := by
  cases v with
  | num t => exact ⟨"NUMBER", .inl rfl, toks_num _ _, rfl⟩
  | str q => exact ⟨"STRING", .inr rfl, toks_str _ _, rfl⟩

theorem semi_head {k : String} (r : List Tok) (h : ";" ≠ k) : headKind (⟨";", [';']⟩ :: r) ≠ k := h

theorem entry_parse (e : Entry) (he : e.Ok) (r : List Tok) (h : e.Next r) :
    entryP (toksOf e.pieces ++ r) = some (e.tree, r) := by
  cases e with
  | version v => unfold Entry.pieces Entry.tree; toks; entry; skips; leaf
  | ns =>
    obtain ⟨r', rfl⟩ := h
    unfold Entry.pieces Entry.tree; toks
    rw [toks_symbols, crlfP, toksOf_blanks]
    entry; skips
    rw [seqAll_tok, seqAll_tok, List.nil_append, seqAll_pat _ (anyUntil_symbols symbols symbols_colon _ _ (by decide))]
    leaf
  | bs => unfold Entry.pieces Entry.tree; toks; entry; skips; leaf
  | nodes names =>
    unfold Entry.pieces Entry.tree; toks; rw [toks_words _ rfl]; entry; skips
    rw [seqAll_tok, seqAll_tok, seqAll_pat _ (many_words names r h.1)]; leaf
  | valueTable name pairs =>
    unfold Entry.pieces Entry.tree; toks; rw [toks_pairs]; entry; skips
    rw [seqAll_tok, seqAll_tok, seqAll_pat _ (many_pairs pairs _ (semi_head _ (by decide)))]; leaf
  | message id name len sender sigs =>
    unfold Entry.pieces Entry.tree; toks; entry; apply choice_take; apply seqP_of; simp only [seqAll_tok]
    rw [seqAll_pat _ (signals_parse sigs r h)]; leaf
  | senders id first more =>
    unfold Entry.pieces Entry.tree; toks; rw [toks_delim_words]; toks; entry; skips
    rw [seqAll_tok, seqAll_tok, seqAll_tok]
    rw [seqAll_pat _ (delim_words first more _ (semi_head _ (by decide)))]; leaf
  | envvar name type lo hi unit init id acc node =>
    unfold Entry.pieces Entry.tree; toks; entry; skips; leaf
  | busComment text =>
    unfold Entry.pieces Entry.tree; toks; entry; skips
    rw [seqAll_tok, seqAll_pat (t := st text.val) (r := ⟨";", [';']⟩ :: r) _ rfl]; leaf
  | comment obj text =>
    unfold Entry.pieces Entry.tree; toks; entry; skips
    rw [seqAll_tok, seqAll_pat (t := .list (obj.trees ++ [st text.val])) (r := ⟨";", [';']⟩ :: r) _ ?_]
    · leaf
    · cases obj <;> simp [Obj.pieces, Obj.trees, toks_sp, toks_key, toks_word, toks_num, choiceP, seqP, seqAll, tokP]
  | attrDef kind name type gap vals =>
    have hv : optP (choiceP [delimP (tokP "STRING"), manyP (tokP "NUMBER")])
        (toksOf vals.pieces ++ (⟨";", [';']⟩ :: r)) = some (.list [.list (vals.texts.map st)], ⟨";", [';']⟩ :: r) := by
      unfold optP
      cases vals with
      | strs x l =>
        unfold DefVals.pieces DefVals.texts
        rw [toks_delim_strs]
        toks
        have := delim_strs x l (⟨";", [';']⟩ :: r) (semi_head _ (by decide))
        rw [choice_take _ (x := (.list ((x :: l).map fun q => st q.val), ⟨";", [';']⟩ :: r)) this]
        simp
      | nums l =>
        unfold DefVals.pieces DefVals.texts
        rw [toks_nums _ rfl, choiceP]
        have h1 : delimP (tokP "STRING") ((l.flatMap fun w => [⟨"NUMBER", w⟩]) ++ (⟨";", [';']⟩ :: r)) = none := by
          cases l <;> rfl
        rw [h1]
        simp only
        rw [choice_take _ (many_nums l _ (semi_head _ (by decide)))]
    unfold Entry.pieces Entry.tree
    cases kind with
    | none =>
      toks; rw [toksOf_blanks]; entry; skips
      rw [seqAll_tok, seqAll_pat (t := .list []) (r := ⟨"STRING", name.val⟩ :: _) _ rfl, seqAll_tok, seqAll_tok,
        List.nil_append, seqAll_pat _ hv]
      leaf
    | some k =>
      toks; rw [toksOf_blanks]; entry; skips
      have hkind : ∀ r', optP (choiceP [tokP "SG_", tokP "BO_", tokP "EV_", tokP "BU_"]) (⟨k, k.toList⟩ :: r') =
          some (.list [sk k], r') := by
        intro r'
        rcases he.1 k rfl with rfl | rfl | rfl | rfl <;> simp [optP, choiceP, tokP]
      rw [seqAll_tok, seqAll_pat _ (hkind _), seqAll_tok, seqAll_tok, List.nil_append, seqAll_pat _ hv]
      leaf
  | attrDefault name val =>
    obtain ⟨k, hk, h1, h2⟩ := val_parse (r0 := [semi]) val (⟨";", [';']⟩ :: r)
    unfold Entry.pieces Entry.tree; toks
    rw [h1]
    toks; entry; skips
    rw [seqAll_tok, seqAll_tok, seqAll_pat _ h2]; leaf
  | attr name obj val =>
    obtain ⟨k, hk, h1, h2⟩ := val_parse (r0 := [semi]) val (⟨";", [';']⟩ :: r)
    unfold Entry.pieces Entry.tree
    cases obj with
    | none =>
      toks; rw [h1]; toks; entry; skips
      rw [seqAll_tok, seqAll_tok, seqAll_pat _ (no_obj_parse (⟨k, val.text⟩ :: ⟨";", [';']⟩ :: r) hk), seqAll_pat _ h2]; leaf
    | some o =>
      toks; rw [h1]; toks; entry; skips
      rw [seqAll_tok, seqAll_tok, seqAll_pat _ (obj_parse o (⟨k, val.text⟩ :: ⟨";", [';']⟩ :: r) hk), seqAll_pat _ h2]; leaf
  | relDef kind name type gap vals =>
    have hv : optP (choiceP [delimP (tokP "STRING"), someP (tokP "NUMBER")])
        (toksOf vals.pieces ++ (⟨";", [';']⟩ :: r)) =
          some (.list (if vals.texts = [] then [] else [.list (vals.texts.map st)]), ⟨";", [';']⟩ :: r) := by
      unfold optP
      cases vals with
      | strs x l =>
        unfold DefVals.pieces DefVals.texts
        rw [toks_delim_strs]
        toks
        have := delim_strs x l (⟨";", [';']⟩ :: r) (semi_head _ (by decide))
        rw [choice_take _ (x := (.list ((x :: l).map fun q => st q.val), ⟨";", [';']⟩ :: r)) this]
        simp
      | nums l =>
        unfold DefVals.pieces DefVals.texts
        rw [toks_nums _ rfl, choiceP]
        have h1 : delimP (tokP "STRING") ((l.flatMap fun w => [⟨"NUMBER", w⟩]) ++ (⟨";", [';']⟩ :: r)) = none := by
          cases l <;> rfl
        rw [h1]
        simp only
        cases l with
        | nil => rfl
        | cons a l =>
          rw [choice_take _ (x := (.list ((a :: l).map st), ⟨";", [';']⟩ :: r)) ?_]
          · rfl
          · unfold someP
            rw [manyAll_append (Next := fun _ => True) (g := st) (a :: l) _ (fun _ _ _ _ => rfl)
              (fun _ _ _ => trivial) trivial (tokP_none (semi_head _ (by decide))) _
              (length_le_flatMap (by simp) _ _)]
            rfl
    unfold Entry.pieces Entry.tree
    toks; rw [toksOf_blanks]; entry; skips
    have hkind : ∀ r', optP (choiceP [tokP "BU_SG_REL_", tokP "BU_BO_REL_"]) (⟨kind, kind.toList⟩ :: r') =
        some (.list [sk kind], r') := by
      intro r'
      rcases he.1 with rfl | rfl <;> simp [optP, choiceP, tokP]
    rw [seqAll_tok, seqAll_pat _ (hkind _), seqAll_tok, seqAll_tok, List.nil_append, seqAll_pat _ hv]
    leaf
  | relDefault name val =>
    obtain ⟨k, hk, h1, h2⟩ := val_parse (r0 := [semi]) val (⟨";", [';']⟩ :: r)
    unfold Entry.pieces Entry.tree; toks
    rw [h1]
    toks; entry; skips
    rw [seqAll_tok, seqAll_tok, seqAll_pat _ h2]; leaf
  | sigRel name node id signal val =>
    obtain ⟨k, hk, h1, h2⟩ := val_parse (r0 := [semi]) val (⟨";", [';']⟩ :: r)
    unfold Entry.pieces Entry.tree; toks
    rw [h1]
    toks; entry; skips
    simp only [seqAll_tok]
    rw [seqAll_pat _ h2]; leaf
  | msgRel name node id val =>
    obtain ⟨k, hk, h1, h2⟩ := val_parse (r0 := [semi]) val (⟨";", [';']⟩ :: r)
    unfold Entry.pieces Entry.tree; toks
    rw [h1]
    toks; entry
    (repeat rw [choice_skip _ _ _ _ (by decide)])
    rw [choice_fail]
    · apply choice_take
      apply seqP_of
      simp only [seqAll_tok]
      rw [seqAll_pat _ h2]; leaf
    · unfold seqP
      rw [seqAll_tok, seqAll_tok, seqAll]
      rfl
  | choices id name pairs =>
    unfold Entry.pieces Entry.tree; toks; rw [toks_pairs]; entry; skips
    rw [seqAll_tok, seqAll_pat (t := .list [st id]) (r := ⟨"WORD", name⟩ :: _) _ rfl, seqAll_tok,
      seqAll_pat _ (many_pairs pairs _ (semi_head _ (by decide)))]; leaf
  | sigType id name type => unfold Entry.pieces Entry.tree; toks; entry; skips; leaf
  | group id name rep names =>
    unfold Entry.pieces Entry.tree; toks; rw [toks_words _ rfl]; entry; skips
    simp only [seqAll_tok]
    rw [seqAll_pat _ (many_words names _ (semi_head _ (by decide)))]; leaf
  | muxVal id name mux first more =>
    unfold Entry.pieces Entry.tree; toks; rw [toks_delim_ranges]; toks; entry; skips
    simp only [seqAll_tok]
    rw [seqAll_pat _ (delim_ranges first more _ (semi_head _ (by decide)))]; leaf

theorem entry_head (e : Entry) (r : List Tok) : Follow (toksOf e.pieces ++ r) := by
  cases e <;> (unfold Entry.pieces Follow; toks; simp [headKind])

theorem entry_toks_ne (e : Entry) : toksOf e.pieces ≠ [] := by
  cases e <;> (unfold Entry.pieces; toks; simp)

/-- Every list of symbols is followed by the entry that ends it. -/
def Follows : List Entry → Prop
  | [] => True
  | .ns :: r => (∃ r', r = .bs :: r') ∧ Follows r
  | _ :: r => Follows r

theorem follows_of_no_ns {l : List Entry} (h : ∀ e ∈ l, e ≠ .ns) : Follows l := by
  induction l with
  | nil => trivial
  | cons e r ih =>
    have := ih fun x hx => h x (List.mem_cons_of_mem _ hx)
    cases e <;> first | exact this | exact absurd rfl (h _ (by simp))

theorem follow_next {e : Entry} {r : List Entry} (h : Follows (e :: r)) :
    e.Next (r.flatMap fun e => toksOf e.pieces) ∧ Follows r := by
  have hf : Follow (r.flatMap fun e => toksOf e.pieces) := by
    cases r with
    | nil => unfold Follow headKind; simp
    | cons b r => rw [List.flatMap_cons]; exact entry_head b _
  cases e with
  | ns =>
    obtain ⟨⟨r', rfl⟩, h2⟩ := h
    refine ⟨⟨r'.flatMap fun e => toksOf e.pieces, ?_⟩, h2⟩
    rw [List.flatMap_cons]
    unfold Entry.pieces
    toks
  | _ => exact ⟨hf, h⟩

theorem manyAll_entries (es : List Entry) (hok : ∀ e ∈ es, e.Ok) (hf : Follows es) (fuel : Nat)
    (hl : es.length ≤ fuel) :
    manyAll entryP fuel (es.flatMap fun e => toksOf e.pieces) = (es.map Entry.tree, []) := by
  induction es generalizing fuel with
  | nil => cases fuel <;> rfl
  | cons e r ih =>
    obtain ⟨n, rfl⟩ : ∃ n, fuel = n + 1 := ⟨fuel - 1, by simp at hl; omega⟩
    obtain ⟨h1, h2⟩ := follow_next hf
    rw [List.flatMap_cons, manyAll, entry_parse e (hok e (by simp)) _ h1]
    simp only [ih (fun x hx => hok x (List.mem_cons_of_mem _ hx)) h2 n (by simpa using hl), List.map_cons]

/-- The grammar gives back a list of entries. -/
theorem parse_entries {es : List Entry} (hok : ∀ e ∈ es, e.Ok) (hf : Follows es) (hne : es ≠ []) :
    parseEntries (es.flatMap fun e => toksOf e.pieces) = .ok (es.map Entry.tree) := by
  have hl := length_le_flatMap (f := fun e : Entry => toksOf e.pieces) entry_toks_ne es []
  rw [List.append_nil] at hl
  unfold parseEntries
  rw [manyAll_entries es hok hf _ hl]
  cases es with
  | nil => exact absurd rfl hne
  | cons e r => rfl

end Cantools.Dbc
