import Verif.Lemmas.DbcNumber

/-
The entries of a DBC file: their text, their tokens and the tree the grammar makes of them.
-/

namespace Cantools.Dbc
open Cantools Spec

/-! ### Chains -/

theorem piece_text_ne {p : Piece} (h : p.Ok) : p.text ≠ [] := by
  cases p with
  | sp c => simp [Piece.text]
  | key k => exact (keyword_ident _ h).1
  | word w => exact h.1.1
  | num t => obtain ⟨c, r, rfl, _⟩ := number_head h; simp [Piece.text]
  | str raw val => obtain ⟨r, rfl⟩ := quoted_head h; simp [Piece.text]
  | pun c => simp [Piece.text]

theorem sep_append {a b : Chars} (h : Sep a) (hb : a = [] → Sep b) : Sep (a ++ b) := by
  cases a with
  | nil => exact hb rfl
  | cons c r => intro d hd; exact h d hd

theorem chain_append {a b : List Piece} (ha : Chain a) (hs : Sep (textOf b)) (hb : Chain b) :
    Chain (a ++ b) := by
  induction a with
  | nil => exact hb
  | cons p r ih =>
    obtain ⟨h1, h2, h3⟩ := ha
    refine ⟨h1, fun ho => ?_, ih h3⟩
    show Sep (textOf (r ++ b))
    rw [textOf_append]
    exact sep_append (h2 ho) fun _ => hs

theorem chain_nil : Chain [] := trivial

@[simp] theorem textOf_nil : textOf [] = [] := rfl
@[simp] theorem toksOf_nil : toksOf [] = [] := rfl

/-- Blank pieces. -/
def blanks (s : Chars) : List Piece := s.map .sp

theorem textOf_blanks (s : Chars) : textOf (blanks s) = s := by
  unfold textOf blanks
  induction s with
  | nil => rfl
  | cons c r ih => simpa [Piece.text] using ih

theorem toksOf_blanks (s : Chars) : toksOf (blanks s) = [] := by
  unfold toksOf blanks
  induction s with
  | nil => rfl
  | cons c r ih => simp [Piece.tok]

theorem chain_blanks {s : Chars} (hs : ∀ c ∈ s, isBlank c = true) {b : List Piece} (hb : Chain b) :
    Chain (blanks s ++ b) := by
  induction s with
  | nil => exact hb
  | cons c r ih =>
    exact ⟨hs c (by simp), (fun h => by cases h), ih fun d hd => hs d (List.mem_cons_of_mem _ hd)⟩

theorem blank_sep {c : Char} (h : isBlank c = true) (r : Chars) : Sep (c :: r) := by
  rcases isBlank_cases h with rfl | rfl | rfl | rfl <;> exact sep_cons (by decide) (by decide)

theorem sep_blanks {c : Char} {s : Chars} (h : isBlank c = true) (b : List Piece) :
    Sep (textOf (blanks (c :: s) ++ b)) := by
  rw [textOf_append, textOf_blanks]; exact blank_sep h _

/-- `sep.join(…)` of pieces. -/
def joinP (sep : List Piece) : List (List Piece) → List Piece
  | [] => []
  | [x] => x
  | x :: y :: r => x ++ (sep ++ joinP sep (y :: r))

theorem textOf_joinP (sep : List Piece) (l : List (List Piece)) :
    textOf (joinP sep l) = joinC (textOf sep) (l.map textOf) := by
  induction l with
  | nil => rfl
  | cons x r ih =>
    cases r with
    | nil => rfl
    | cons y r => simp only [joinP, textOf_append, ih, List.map_cons, joinC]

theorem toksOf_joinP_blank {sep : List Piece} (hs : toksOf sep = []) (l : List (List Piece)) :
    toksOf (joinP sep l) = l.flatMap toksOf := by
  induction l with
  | nil => rfl
  | cons x r ih =>
    cases r with
    | nil => simp [joinP]
    | cons y r => simp only [joinP, toksOf_append, ih, hs, List.flatMap_cons, List.nil_append]

/-- Fragments joined with separators that start with a separating character. -/
theorem chain_joinP {sep : List Piece} (hs : ∀ b, Chain b → Chain (sep ++ b))
    (hsep : ∀ b, Sep (textOf (sep ++ b))) {l : List (List Piece)} (h : ∀ x ∈ l, Chain x) :
    Chain (joinP sep l) := by
  induction l with
  | nil => trivial
  | cons x r ih =>
    cases r with
    | nil => exact h x (by simp)
    | cons y r =>
      exact chain_append (h x (by simp)) (hsep _) (hs _ (ih fun z hz => h z (List.mem_cons_of_mem _ hz)))

/-! ### Entries -/

/-- A string: how it is written and what it stands for. -/
structure Q where
  raw : Chars
  val : Chars

def Q.Ok (q : Q) : Prop := Quoted q.raw q.val
def Q.piece (q : Q) : Piece := .str q.raw q.val

/-- A line of a signal. -/
structure SigE where
  name : Chars
  mux : Option Chars
  start : Chars
  len : Chars
  order : Chars
  signed : Bool
  scale : Chars
  offset : Chars
  lo : Chars
  hi : Chars
  unit : Q
  pad : Bool
  recv : Chars
  more : List Chars

/-- What a comment or an attribute belongs to. -/
inductive Obj where
  | node (n : Chars)
  | msg (id : Chars)
  | sig (id name : Chars)
  | ev (n : Chars)

/-- A number or a string. -/
inductive Val where
  | num (t : Chars)
  | str (q : Q)

/-- The values of a definition. -/
inductive DefVals where
  | strs (x : Q) (l : List Q)
  | nums (l : List Chars)

inductive Entry where
  | version (v : Q)
  | ns
  | bs
  | nodes (names : List Chars)
  | valueTable (name : Chars) (pairs : List (Chars × Q))
  | message (id name len sender : Chars) (sigs : List SigE)
  | senders (id first : Chars) (more : List Chars)
  | envvar (name type lo hi : Chars) (unit : Q) (init id acc node : Chars)
  | busComment (text : Q)
  | comment (obj : Obj) (text : Q)
  | attrDef (kind : Option String) (name : Q) (type : Chars) (gap : Chars) (vals : DefVals)
  | attrDefault (name : Q) (val : Val)
  | attr (name : Q) (obj : Option Obj) (val : Val)
  | relDef (kind : String) (name : Q) (type : Chars) (gap : Chars) (vals : DefVals)
  | relDefault (name : Q) (val : Val)
  | sigRel (name : Q) (node id signal : Chars) (val : Val)
  | msgRel (name : Q) (node id : Chars) (val : Val)
  | choices (id name : Chars) (pairs : List (Chars × Q))
  | sigType (id name type : Chars)
  | group (id name rep : Chars) (names : List Chars)
  | muxVal (id name mux : Chars) (first : Chars × Chars) (more : List (Chars × Chars))

abbrev spc : Piece := .sp ' '
abbrev comma : List Piece := [.pun ',']
abbrev semi : Piece := .pun ';'
abbrev colon : Piece := .pun ':'

def SigE.pieces (s : SigE) : List Piece :=
  [spc, .key "SG_", spc, .word s.name] ++
  ((match s.mux with | none => [] | some w => [spc, .word w]) ++
  ([spc, colon, spc, .num s.start, .pun '|', .num s.len, .pun '@', .num s.order,
   .pun (if s.signed then '-' else '+'), spc, .pun '(', .num s.scale, .pun ',', .num s.offset, .pun ')', spc,
   .pun '[', .num s.lo, .pun '|', .num s.hi, .pun ']', spc, s.unit.piece, spc] ++
  ((if s.pad then [spc] else []) ++ joinP comma ((s.recv :: s.more).map fun w => [.word w]))))

def Obj.pieces : Obj → List Piece
  | .node n => [.key "BU_", spc, .word n]
  | .msg id => [.key "BO_", spc, .num id]
  | .sig id n => [.key "SG_", spc, .num id, spc, .word n]
  | .ev n => [.key "EV_", spc, .word n]

def Val.piece : Val → Piece
  | .num t => .num t
  | .str q => q.piece

def DefVals.pieces : DefVals → List Piece
  | .strs x l => joinP comma ((x :: l).map fun q => [q.piece])
  | .nums l => joinP [spc] (l.map fun t => [.num t])

def pairPieces (p : Chars × Q) : List Piece := [.num p.1, spc, p.2.piece]

def rangePieces (r : Chars × Chars) : List Piece := [.num r.1, .num r.2]

def crlfP : List Piece := blanks crlf

def Entry.pieces : Entry → List Piece
  | .version v => [.key "VERSION", spc, v.piece]
  | .ns => [.key "NS_", spc, colon, spc] ++ crlfP ++ symbols.flatMap fun k =>
      [.sp '\t', .key (String.ofList k)] ++ crlfP
  | .bs => [.key "BS_", colon]
  | .nodes names => [.key "BU_", colon, spc] ++ joinP [spc] (names.map fun w => [.word w])
  | .valueTable name pairs => [.key "VAL_TABLE_", spc, .word name, spc] ++
      (joinP [spc] (pairs.map pairPieces) ++ [spc, semi])
  | .message id name len sender sigs =>
      [.key "BO_", spc, .num id, spc, .word name, colon, spc, .num len, spc, .word sender] ++
      sigs.flatMap fun s => crlfP ++ s.pieces
  | .senders id first more => [.key "BO_TX_BU_", spc, .num id, spc, colon, spc] ++
      (joinP comma ((first :: more).map fun w => [.word w]) ++ [semi])
  | .envvar name type lo hi unit init id acc node =>
      [.key "EV_", spc, .word name, colon, spc, .num type, spc, .pun '[', .num lo, .pun '|', .num hi,
       .pun ']', spc, unit.piece, spc, .num init, spc, .num id, spc, .word acc, spc, .word node, semi]
  | .busComment text => [.key "CM_", spc, text.piece, semi]
  | .comment obj text => [.key "CM_", spc] ++ (obj.pieces ++ [spc, text.piece, semi])
  | .attrDef kind name type gap vals => [.key "BA_DEF_", spc] ++
      ((match kind with | none => [] | some k => [.key k, spc]) ++
      ([spc, name.piece, spc, .word type] ++ (blanks gap ++ (vals.pieces ++ [semi]))))
  | .attrDefault name val => [.key "BA_DEF_DEF_", spc, spc, name.piece, spc, val.piece, semi]
  | .attr name obj val => [.key "BA_", spc, name.piece, spc] ++
      ((match obj with | none => [] | some o => o.pieces ++ [spc]) ++ [val.piece, semi])
  | .relDef kind name type gap vals => [.key "BA_DEF_REL_", spc, .key kind, spc, spc, name.piece, spc, .word type] ++
      (blanks gap ++ (vals.pieces ++ [semi]))
  | .relDefault name val => [.key "BA_DEF_DEF_REL_", spc, name.piece, spc, val.piece, semi]
  | .sigRel name node id signal val => [.key "BA_REL_", spc, name.piece, spc, .key "BU_SG_REL_", spc, .word node, spc,
      .key "SG_", spc, .num id, spc, .word signal, spc, val.piece, semi]
  | .msgRel name node id val => [.key "BA_REL_", spc, name.piece, spc, .key "BU_BO_REL_", spc, .word node, spc,
      .num id, spc, val.piece, semi]
  | .choices id name pairs => [.key "VAL_", spc, .num id, spc, .word name, spc] ++
      (joinP [spc] (pairs.map pairPieces) ++ [spc, semi])
  | .sigType id name type =>
      [.key "SIG_VALTYPE_", spc, .num id, spc, .word name, spc, colon, spc, .num type, semi]
  | .group id name rep names => [.key "SIG_GROUP_", spc, .num id, spc, .word name, spc, .num rep, spc, colon,
      spc] ++ (joinP [spc] (names.map fun w => [.word w]) ++ [semi])
  | .muxVal id name mux first more => [.key "SG_MUL_VAL_", spc, .num id, spc, .word name, spc, .word mux, spc] ++
      (joinP [.pun ',', spc] ((first :: more).map rangePieces) ++ [semi])

def SigE.Ok (s : SigE) : Prop :=
  Name s.name ∧ (∀ w, s.mux = some w → Name w) ∧ IsNumber s.start ∧ IsNumber s.len ∧ IsNumber s.order ∧
  IsNumber s.scale ∧ IsNumber s.offset ∧ IsNumber s.lo ∧ IsNumber s.hi ∧ s.unit.Ok ∧ Name s.recv ∧
  ∀ w ∈ s.more, Name w

def Obj.Ok : Obj → Prop
  | .node n => Name n
  | .msg id => IsNumber id
  | .sig id n => IsNumber id ∧ Name n
  | .ev n => Name n

def Val.Ok : Val → Prop
  | .num t => IsNumber t
  | .str q => q.Ok

def DefVals.Ok : DefVals → Prop
  | .strs x l => ∀ q ∈ x :: l, q.Ok
  | .nums l => ∀ t ∈ l, IsNumber t

/-- A range: the second number is written with a minus sign, which separates it from the first. -/
def RangeOk (r : Chars × Chars) : Prop := IsNumber r.1 ∧ IsNumber r.2 ∧ ∃ t, r.2 = '-' :: t

def Entry.Ok : Entry → Prop
  | .version v => v.Ok
  | .ns => True
  | .bs => True
  | .nodes names => ∀ w ∈ names, Name w
  | .valueTable name pairs => Name name ∧ ∀ p ∈ pairs, IsNumber p.1 ∧ p.2.Ok
  | .message id name len sender sigs => IsNumber id ∧ Name name ∧ IsNumber len ∧ Name sender ∧ ∀ s ∈ sigs, s.Ok
  | .senders id first more => IsNumber id ∧ Name first ∧ ∀ w ∈ more, Name w
  | .envvar name type lo hi unit init id acc node => Name name ∧ IsNumber type ∧ IsNumber lo ∧ IsNumber hi ∧
      unit.Ok ∧ IsNumber init ∧ IsNumber id ∧ Name acc ∧ Name node
  | .busComment text => text.Ok
  | .comment obj text => obj.Ok ∧ text.Ok
  | .attrDef kind name type gap vals =>
      (∀ k, kind = some k → k = "SG_" ∨ k = "BO_" ∨ k = "EV_" ∨ k = "BU_") ∧ name.Ok ∧ Name type ∧
      (∀ c ∈ gap, isBlank c = true) ∧ vals.Ok ∧ (gap = [] → vals = .nums [])
  | .attrDefault name val => name.Ok ∧ val.Ok
  | .attr name obj val => name.Ok ∧ (∀ o, obj = some o → o.Ok) ∧ val.Ok
  | .relDef kind name type gap vals => (kind = "BU_SG_REL_" ∨ kind = "BU_BO_REL_") ∧ name.Ok ∧ Name type ∧
      (∀ c ∈ gap, isBlank c = true) ∧ vals.Ok ∧ (gap = [] → vals = .nums [])
  | .relDefault name val => name.Ok ∧ val.Ok
  | .sigRel name node id signal val => name.Ok ∧ Name node ∧ IsNumber id ∧ Name signal ∧ val.Ok
  | .msgRel name node id val => name.Ok ∧ Name node ∧ IsNumber id ∧ val.Ok
  | .choices id name pairs => IsNumber id ∧ Name name ∧ ∀ p ∈ pairs, IsNumber p.1 ∧ p.2.Ok
  | .sigType id name type => IsNumber id ∧ Name name ∧ IsNumber type
  | .group id name rep names => IsNumber id ∧ Name name ∧ IsNumber rep ∧ ∀ w ∈ names, Name w
  | .muxVal id name mux first more => IsNumber id ∧ Name name ∧ Name mux ∧ RangeOk first ∧ ∀ r ∈ more, RangeOk r

/-! ### Entries are chains of pieces -/

theorem sep_textOf_sp {c : Char} (h : isBlank c = true) (r : List Piece) : Sep (textOf (.sp c :: r)) :=
  blank_sep h _

theorem sep_textOf_pun {c : Char} (h : (punct? c).isSome = true) (r : List Piece) :
    Sep (textOf (.pun c :: r)) := by
  apply sep_cons
  · unfold punct? at h
    split at h <;> first | decide | cases h
  · rintro rfl; exact absurd h (by decide)

theorem ok_key {k : String} (h : k.toList ∈ keywords) : (Piece.key k).Ok := h

theorem chain_sp {r : List Piece} (h : Chain r) : Chain (spc :: r) := ⟨show isBlank ' ' = true by decide, (fun h => by cases h), h⟩

/-- The next piece separates. -/
def Starts : List Piece → Bool
  | [] => true
  | .sp c :: _ => isBlank c
  | .pun c :: _ => (punct? c).isSome
  | _ => false

theorem sep_of_starts {r : List Piece} (h : Starts r = true) : Sep (textOf r) := by
  cases r with
  | nil => exact sep_nil
  | cons p r =>
    cases p with
    | sp c => exact sep_textOf_sp h r
    | pun c => exact sep_textOf_pun h r
    | _ => cases h

theorem chain_cons {p : Piece} {r : List Piece} (hp : p.Ok) (hs : p.open_ = true → Starts r = true)
    (h : Chain r) : Chain (p :: r) := ⟨hp, fun ho => sep_of_starts (hs ho), h⟩

theorem chain_append' {a b : List Piece} (ha : Chain a) (hs : Starts b = true) (hb : Chain b) :
    Chain (a ++ b) := chain_append ha (sep_of_starts hs) hb

theorem chain_single {p : Piece} (h : p.Ok) : Chain [p] := chain_cons h (fun _ => rfl) trivial

theorem chain_names {l : List Chars} (h : ∀ w ∈ l, Name w) {sep : List Piece}
    (hs : ∀ b, Chain b → Chain (sep ++ b)) (hsep : ∀ b, Sep (textOf (sep ++ b))) :
    Chain (joinP sep (l.map fun w => [.word w])) := by
  apply chain_joinP hs hsep
  intro x hx
  obtain ⟨w, hw, rfl⟩ := List.mem_map.1 hx
  exact chain_single (h w hw)

theorem spc_chain : ∀ b, Chain b → Chain ([spc] ++ b) := fun _ h => chain_sp h
theorem spc_sep : ∀ b, Sep (textOf ([spc] ++ b)) := fun b => sep_textOf_sp (by decide) b
theorem comma_chain : ∀ b, Chain b → Chain (comma ++ b) :=
  fun _ h => chain_cons (by show (punct? ',').isSome = true; decide) (fun h => by cases h) h
theorem comma_sep : ∀ b, Sep (textOf (comma ++ b)) := fun b => sep_textOf_pun (by decide) b

theorem chain_pair {p : Chars × Q} (h : IsNumber p.1 ∧ p.2.Ok) : Chain (pairPieces p) :=
  chain_cons h.1 (fun _ => rfl) (chain_sp (chain_single h.2))

theorem chain_pairs {l : List (Chars × Q)} (h : ∀ p ∈ l, IsNumber p.1 ∧ p.2.Ok) :
    Chain (joinP [spc] (l.map pairPieces)) := by
  apply chain_joinP spc_chain spc_sep
  intro x hx
  obtain ⟨p, hp, rfl⟩ := List.mem_map.1 hx
  exact chain_pair (h p hp)

theorem pun_ok {c : Char} (h : (punct? c).isSome = true) : (Piece.pun c).Ok := h

macro "kw" : tactic => `(tactic| (first | decide | decide +kernel))

theorem chain_sig {s : SigE} (h : s.Ok) : Chain s.pieces := by
  obtain ⟨h1, h2, h3, h4, h5, h6, h7, h8, h9, h10, h11, h12⟩ := h
  have hr : Chain (joinP comma ((s.recv :: s.more).map fun w => [.word w])) := by
    apply chain_names _ comma_chain comma_sep
    intro w hw
    rcases List.mem_cons.1 hw with rfl | hw
    · exact h11
    · exact h12 w hw
  have hp : Chain ((if s.pad then [spc] else []) ++ joinP comma ((s.recv :: s.more).map fun w => [.word w])) := by
    cases s.pad
    · exact hr
    · exact chain_sp hr
  have hm : Chain ([spc, colon, spc, .num s.start, .pun '|', .num s.len, .pun '@', .num s.order,
   .pun (if s.signed then '-' else '+'), spc, .pun '(', .num s.scale, .pun ',', .num s.offset, .pun ')', spc,
   .pun '[', .num s.lo, .pun '|', .num s.hi, .pun ']', spc, s.unit.piece, spc] ++
  ((if s.pad then [spc] else []) ++ joinP comma ((s.recv :: s.more).map fun w => [.word w]))) := by
    refine chain_sp (chain_cons (pun_ok (by decide)) (fun h => by cases h) (chain_sp (chain_cons h3 (fun _ => rfl)
      (chain_cons (pun_ok (by decide)) (fun h => by cases h) (chain_cons h4 (fun _ => rfl)
      (chain_cons (pun_ok (by decide)) (fun h => by cases h) (chain_cons h5 (fun _ => ?_)
      (chain_cons (pun_ok ?_) (fun _ => rfl) (chain_sp (chain_cons (pun_ok (by decide)) (fun h => by cases h)
      (chain_cons h6 (fun _ => rfl) (chain_cons (pun_ok (by decide)) (fun h => by cases h)
      (chain_cons h7 (fun _ => rfl) (chain_cons (pun_ok (by decide)) (fun h => by cases h)
      (chain_sp (chain_cons (pun_ok (by decide)) (fun h => by cases h) (chain_cons h8 (fun _ => rfl)
      (chain_cons (pun_ok (by decide)) (fun h => by cases h) (chain_cons h9 (fun _ => rfl)
      (chain_cons (pun_ok (by decide)) (fun h => by cases h) (chain_sp (chain_cons h10 (fun h => by cases h)
      (chain_sp hp)))))))))))))))))))))))
    · cases s.signed <;> rfl
    · cases s.signed <;> rfl
  refine chain_sp (chain_cons (ok_key (by kw)) (fun _ => rfl) (chain_sp (chain_cons h1 (fun _ => ?_) ?_)))
  · cases s.mux <;> rfl
  · cases hmx : s.mux with
    | none => exact hm
    | some w => exact chain_sp (chain_cons (h2 w hmx) (fun _ => rfl) hm)

theorem chain_obj {o : Obj} (h : o.Ok) : Chain o.pieces := by
  cases o with
  | node n => exact chain_cons (ok_key (by kw)) (fun _ => rfl) (chain_sp (chain_single h))
  | msg id => exact chain_cons (ok_key (by kw)) (fun _ => rfl) (chain_sp (chain_single h))
  | sig id n => exact chain_cons (ok_key (by kw)) (fun _ => rfl) (chain_sp (chain_cons h.1 (fun _ => rfl)
      (chain_sp (chain_single h.2))))
  | ev n => exact chain_cons (ok_key (by kw)) (fun _ => rfl) (chain_sp (chain_single h))

theorem chain_val {v : Val} (h : v.Ok) {r : List Piece} (hs : Starts r = true) (hr : Chain r) :
    Chain (v.piece :: r) := by
  cases v with
  | num t => exact chain_cons h (fun _ => hs) hr
  | str q => exact chain_cons h (fun h => by cases h) hr

theorem chain_semi : Chain [semi] := chain_single (pun_ok (by decide))

theorem chain_vals {v : DefVals} (h : v.Ok) : Chain v.pieces := by
  cases v with
  | strs x l =>
    apply chain_joinP comma_chain comma_sep
    intro y hy
    obtain ⟨q, hq, rfl⟩ := List.mem_map.1 hy
    exact chain_single (h q hq)
  | nums l =>
    apply chain_joinP spc_chain spc_sep
    intro y hy
    obtain ⟨q, hq, rfl⟩ := List.mem_map.1 hy
    exact chain_single (h q hq)

theorem crlf_blank : ∀ c ∈ crlf, isBlank c = true := by decide

theorem chain_crlf {b : List Piece} (hb : Chain b) : Chain (crlfP ++ b) := chain_blanks crlf_blank hb

theorem chain_range {r : Chars × Chars} (h : RangeOk r) : Chain (rangePieces r) := by
  obtain ⟨h1, h2, t, h3⟩ := h
  refine ⟨h1, fun _ => ?_, chain_single h2⟩
  simp only [textOf, List.flatMap_cons, Piece.text, h3, List.flatMap_nil, List.append_nil]
  exact sep_cons (by decide) (by decide)

theorem chain_flatMap_crlf {α : Type} {f : α → List Piece} {l : List α} (h : ∀ a ∈ l, Chain (f a)) :
    Chain (l.flatMap fun a => crlfP ++ f a) ∧ Starts (l.flatMap fun a => crlfP ++ f a) = true := by
  induction l with
  | nil => exact ⟨trivial, rfl⟩
  | cons a r ih =>
    obtain ⟨i1, i2⟩ := ih fun b hb => h b (List.mem_cons_of_mem _ hb)
    rw [List.flatMap_cons, List.append_assoc]
    exact ⟨chain_crlf (chain_append' (h a (by simp)) i2 i1), rfl⟩

theorem symbols_keywords : ∀ k ∈ symbols, k ∈ keywords := by decide +kernel

theorem chain_symbols (l : List Chars) (h : ∀ k ∈ l, k ∈ keywords) :
    Chain (l.flatMap fun k => [.sp '\t', .key (String.ofList k)] ++ crlfP) := by
  induction l with
  | nil => trivial
  | cons k r ih =>
    rw [List.flatMap_cons, List.append_assoc]
    refine chain_cons (show isBlank '\t' = true by decide) (fun h => by cases h) (chain_cons ?_ (fun _ => rfl)
      (chain_crlf (ih fun x hx => h x (List.mem_cons_of_mem _ hx))))
    apply ok_key
    rw [String.toList_ofList]
    exact h k (by simp)

theorem chain_entry {e : Entry} (h : e.Ok) : Chain e.pieces := by
  cases e with
  | version v => exact chain_cons (ok_key (by kw)) (fun _ => rfl) (chain_sp (chain_single h))
  | ns =>
    refine chain_cons (ok_key (by kw)) (fun _ => rfl) (chain_sp (chain_cons (pun_ok (by decide))
      (fun h => by cases h) (chain_sp (chain_crlf (chain_symbols _ symbols_keywords)))))
  | bs => exact chain_cons (ok_key (by kw)) (fun _ => rfl) (chain_single (pun_ok (by decide)))
  | nodes names =>
    exact chain_cons (ok_key (by kw)) (fun _ => rfl) (chain_cons (pun_ok (by decide)) (fun h => by cases h)
      (chain_sp (chain_names h spc_chain spc_sep)))
  | valueTable name pairs =>
    exact chain_cons (ok_key (by kw)) (fun _ => rfl) (chain_sp (chain_cons h.1 (fun _ => rfl) (chain_sp
      (chain_append' (b := [spc, semi]) (chain_pairs h.2) rfl (chain_sp chain_semi) :))))
  | message id name len sender sigs =>
    obtain ⟨h1, h2, h3, h4, h5⟩ := h
    obtain ⟨c1, c2⟩ := chain_flatMap_crlf (f := SigE.pieces) (l := sigs) fun s hs => chain_sig (h5 s hs)
    exact chain_cons (ok_key (by kw)) (fun _ => rfl) (chain_sp (chain_cons h1 (fun _ => rfl) (chain_sp
      (chain_cons h2 (fun _ => rfl) (chain_cons (pun_ok (by decide)) (fun h => by cases h) (chain_sp
      (chain_cons h3 (fun _ => rfl) (chain_sp (chain_cons h4 (fun _ => c2) c1)))))))))
  | senders id first more =>
    obtain ⟨h1, h2, h3⟩ := h
    have hn : ∀ w ∈ first :: more, Name w := by
      intro w hw
      rcases List.mem_cons.1 hw with rfl | hw
      · exact h2
      · exact h3 w hw
    exact chain_cons (ok_key (by kw)) (fun _ => rfl) (chain_sp (chain_cons h1 (fun _ => rfl) (chain_sp
      (chain_cons (pun_ok (by decide)) (fun h => by cases h) (chain_sp (chain_append' (b := [semi])
      (chain_names hn comma_chain comma_sep) rfl chain_semi :))))))
  | envvar name type lo hi unit init id acc node =>
    obtain ⟨h1, h2, h3, h4, h5, h6, h7, h8, h9⟩ := h
    exact chain_cons (ok_key (by kw)) (fun _ => rfl) (chain_sp (chain_cons h1 (fun _ => rfl)
      (chain_cons (pun_ok (by decide)) (fun h => by cases h) (chain_sp (chain_cons h2 (fun _ => rfl) (chain_sp
      (chain_cons (pun_ok (by decide)) (fun h => by cases h) (chain_cons h3 (fun _ => rfl)
      (chain_cons (pun_ok (by decide)) (fun h => by cases h) (chain_cons h4 (fun _ => rfl)
      (chain_cons (pun_ok (by decide)) (fun h => by cases h) (chain_sp (chain_cons h5 (fun h => by cases h)
      (chain_sp (chain_cons h6 (fun _ => rfl) (chain_sp (chain_cons h7 (fun _ => rfl) (chain_sp
      (chain_cons h8 (fun _ => rfl) (chain_sp (chain_cons h9 (fun _ => rfl) chain_semi)))))))))))))))))))))
  | busComment text =>
    exact chain_cons (ok_key (by kw)) (fun _ => rfl) (chain_sp (chain_cons h (fun h => by cases h) chain_semi))
  | comment obj text =>
    exact chain_cons (ok_key (by kw)) (fun _ => rfl) (chain_sp (chain_append'
      (b := [spc, text.piece, semi]) (chain_obj h.1) rfl
      (chain_sp (chain_cons h.2 (fun h => by cases h) chain_semi)) :))
  | attrDef kind name type gap vals =>
    obtain ⟨h1, h2, h3, h4, h5, h6⟩ := h
    have hv : Chain (blanks gap ++ (vals.pieces ++ [semi])) :=
      chain_blanks h4 (chain_append' (chain_vals h5) rfl chain_semi)
    have hst : Starts (blanks gap ++ (vals.pieces ++ [semi])) = true := by
      cases gap with
      | nil => rw [h6 rfl]; rfl
      | cons c r => exact h4 c (by simp)
    have hm : Chain ([spc, name.piece, spc, .word type] ++ (blanks gap ++ (vals.pieces ++ [semi]))) :=
      chain_sp (chain_cons h2 (fun h => by cases h) (chain_sp (chain_cons h3 (fun _ => hst) hv)))
    refine chain_cons (ok_key (by kw)) (fun _ => rfl) (chain_sp ?_)
    cases kind with
    | none => exact hm
    | some k =>
      refine chain_cons (ok_key ?_) (fun _ => rfl) (chain_sp hm)
      rcases h1 k rfl with rfl | rfl | rfl | rfl <;> decide +kernel
  | attrDefault name val =>
    exact chain_cons (ok_key (by kw)) (fun _ => rfl) (chain_sp (chain_sp (chain_cons h.1 (fun h => by cases h)
      (chain_sp (chain_val h.2 rfl chain_semi)))))
  | attr name obj val =>
    obtain ⟨h1, h2, h3⟩ := h
    have hv : Chain [val.piece, semi] := chain_val h3 rfl chain_semi
    refine chain_cons (ok_key (by kw)) (fun _ => rfl) (chain_sp (chain_cons h1 (fun h => by cases h)
      (chain_sp ?_)))
    cases obj with
    | none => exact hv
    | some o =>
      show Chain ((o.pieces ++ [spc]) ++ [val.piece, semi])
      rw [List.append_assoc]
      exact chain_append' (chain_obj (h2 o rfl)) rfl (chain_sp hv)
  | relDef kind name type gap vals =>
    obtain ⟨h1, h2, h3, h4, h5, h6⟩ := h
    have hv : Chain (blanks gap ++ (vals.pieces ++ [semi])) :=
      chain_blanks h4 (chain_append' (chain_vals h5) rfl chain_semi)
    have hst : Starts (blanks gap ++ (vals.pieces ++ [semi])) = true := by
      cases gap with
      | nil => rw [h6 rfl]; rfl
      | cons c r => exact h4 c (by simp)
    refine chain_cons (ok_key (by kw)) (fun _ => rfl) (chain_sp (chain_cons (ok_key ?_) (fun _ => rfl) (chain_sp
      (chain_sp (chain_cons h2 (fun h => by cases h) (chain_sp (chain_cons h3 (fun _ => hst) hv)))))))
    rcases h1 with rfl | rfl <;> decide +kernel
  | relDefault name val =>
    exact chain_cons (ok_key (by kw)) (fun _ => rfl) (chain_sp (chain_cons h.1 (fun h => by cases h)
      (chain_sp (chain_val h.2 rfl chain_semi))))
  | sigRel name node id signal val =>
    obtain ⟨h1, h2, h3, h4, h5⟩ := h
    exact chain_cons (ok_key (by kw)) (fun _ => rfl) (chain_sp (chain_cons h1 (fun h => by cases h) (chain_sp
      (chain_cons (ok_key (by kw)) (fun _ => rfl) (chain_sp (chain_cons h2 (fun _ => rfl) (chain_sp
      (chain_cons (ok_key (by kw)) (fun _ => rfl) (chain_sp (chain_cons h3 (fun _ => rfl) (chain_sp
      (chain_cons h4 (fun _ => rfl) (chain_sp (chain_val h5 rfl chain_semi))))))))))))))
  | msgRel name node id val =>
    obtain ⟨h1, h2, h3, h4⟩ := h
    exact chain_cons (ok_key (by kw)) (fun _ => rfl) (chain_sp (chain_cons h1 (fun h => by cases h) (chain_sp
      (chain_cons (ok_key (by kw)) (fun _ => rfl) (chain_sp (chain_cons h2 (fun _ => rfl) (chain_sp
      (chain_cons h3 (fun _ => rfl) (chain_sp (chain_val h4 rfl chain_semi))))))))))
  | choices id name pairs =>
    obtain ⟨h1, h2, h3⟩ := h
    exact chain_cons (ok_key (by kw)) (fun _ => rfl) (chain_sp (chain_cons h1 (fun _ => rfl) (chain_sp
      (chain_cons h2 (fun _ => rfl) (chain_sp (chain_append' (b := [spc, semi]) (chain_pairs h3) rfl
      (chain_sp chain_semi) :))))))
  | sigType id name type =>
    obtain ⟨h1, h2, h3⟩ := h
    exact chain_cons (ok_key (by kw)) (fun _ => rfl) (chain_sp (chain_cons h1 (fun _ => rfl) (chain_sp
      (chain_cons h2 (fun _ => rfl) (chain_sp (chain_cons (pun_ok (by decide)) (fun h => by cases h)
      (chain_sp (chain_cons h3 (fun _ => rfl) chain_semi))))))))
  | group id name rep names =>
    obtain ⟨h1, h2, h3, h4⟩ := h
    exact chain_cons (ok_key (by kw)) (fun _ => rfl) (chain_sp (chain_cons h1 (fun _ => rfl) (chain_sp
      (chain_cons h2 (fun _ => rfl) (chain_sp (chain_cons h3 (fun _ => rfl) (chain_sp
      (chain_cons (pun_ok (by decide)) (fun h => by cases h) (chain_sp (chain_append' (b := [semi])
      (chain_names h4 spc_chain spc_sep) rfl chain_semi :))))))))))
  | muxVal id name mux first more =>
    obtain ⟨h1, h2, h3, h4, h5⟩ := h
    have hj : Chain (joinP [.pun ',', spc] ((first :: more).map rangePieces)) := by
      apply chain_joinP (fun b hb => comma_chain (spc :: b) (chain_sp hb))
        (fun b => sep_textOf_pun (c := ',') (by decide) (spc :: b))
      intro x hx
      obtain ⟨r, hr, rfl⟩ := List.mem_map.1 hx
      rcases List.mem_cons.1 hr with rfl | hr
      · exact chain_range h4
      · exact chain_range (h5 r hr)
    exact chain_cons (ok_key (by kw)) (fun _ => rfl) (chain_sp (chain_cons h1 (fun _ => rfl) (chain_sp
      (chain_cons h2 (fun _ => rfl) (chain_sp (chain_cons h3 (fun _ => rfl) (chain_sp (chain_append' (b := [semi])
      hj rfl chain_semi :))))))))

end Cantools.Dbc
