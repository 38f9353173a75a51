import Verif.Lemmas.DbcParse
import Verif.Spec.DbcFile

/-
The text that is written for a database, as a list of entries.
-/

namespace Cantools.Dbc
open Cantools Spec

variable {F : Type}

/-! ### Text of pieces -/

theorem text_sp (c : Char) (r : List Piece) : textOf (.sp c :: r) = c :: textOf r := rfl
theorem text_key (k : String) (r : List Piece) : textOf (.key k :: r) = k.toList ++ textOf r := rfl
theorem text_word (w : Chars) (r : List Piece) : textOf (.word w :: r) = w ++ textOf r := rfl
theorem text_num (w : Chars) (r : List Piece) : textOf (.num w :: r) = w ++ textOf r := rfl
theorem text_str (q : Q) (r : List Piece) : textOf (q.piece :: r) = q.raw ++ textOf r := rfl
theorem text_pun (c : Char) (r : List Piece) : textOf (.pun c :: r) = c :: textOf r := rfl

theorem text_words (sep : List Piece) (l : List Chars) :
    textOf (joinP sep (l.map fun w => [.word w])) = joinC (textOf sep) l := by
  rw [textOf_joinP, List.map_map]
  congr 1
  conv_rhs => rw [← List.map_id l]
  apply List.map_congr_left
  intro w _
  simp [text_word]

theorem text_nums (sep : List Piece) (l : List Chars) :
    textOf (joinP sep (l.map fun w => [.num w])) = joinC (textOf sep) l := by
  rw [textOf_joinP, List.map_map]
  congr 1
  conv_rhs => rw [← List.map_id l]
  apply List.map_congr_left
  intro w _
  simp [text_num]

theorem text_strs (sep : List Piece) (l : List Q) :
    textOf (joinP sep (l.map fun q => [q.piece])) = joinC (textOf sep) (l.map (·.raw)) := by
  rw [textOf_joinP, List.map_map]
  congr 1
  apply List.map_congr_left
  intro w _
  simp [text_str]

theorem text_pairs (l : List (Chars × Q)) :
    textOf (joinP [spc] (l.map pairPieces)) = joinC [' '] (l.map fun p => p.1 ++ ' ' :: p.2.raw) := by
  rw [textOf_joinP, List.map_map]
  congr 1
  apply List.map_congr_left
  intro w _
  simp [pairPieces, text_num, text_sp, text_str]

theorem text_ranges (l : List (Chars × Chars)) :
    textOf (joinP [.pun ',', spc] (l.map rangePieces)) = joinC ", ".toList (l.map fun p => p.1 ++ p.2) := by
  rw [textOf_joinP, List.map_map]
  show joinC [',', ' '] _ = joinC [',', ' '] _
  congr 1
  apply List.map_congr_left
  intro w _
  simp [rangePieces, text_num]

macro "txt" : tactic => `(tactic| simp only [text_sp, text_key, text_word, text_num, text_str, text_pun, textOf_nil,
  text_words, text_nums, text_strs, text_pairs, text_ranges, textOf_append, List.cons_append, List.nil_append,
  List.append_assoc, List.append_nil])

/-! ### Documents -/

/-- A part of a file: entries with a separator between them, and what follows the last one. -/
structure Part where
  sep : Chars
  entries : List Entry
  gap : Chars

def Part.pieces (p : Part) : List Piece := joinP (blanks p.sep) (p.entries.map Entry.pieces) ++ blanks p.gap

structure Part.Ok (p : Part) : Prop where
  sep : p.sep ≠ []
  sepBlank : ∀ c ∈ p.sep, isBlank c = true
  gap : p.gap ≠ []
  gapBlank : ∀ c ∈ p.gap, isBlank c = true
  entries : ∀ e ∈ p.entries, e.Ok

theorem textOf_part (p : Part) :
    textOf p.pieces = joinC p.sep (p.entries.map fun e => textOf e.pieces) ++ p.gap := by
  unfold Part.pieces
  rw [textOf_append, textOf_joinP, textOf_blanks, textOf_blanks, List.map_map]
  rfl

theorem toksOf_part (p : Part) : toksOf p.pieces = p.entries.flatMap fun e => toksOf e.pieces := by
  unfold Part.pieces
  rw [toksOf_append, toksOf_joinP_blank (toksOf_blanks _), toksOf_blanks, List.append_nil, List.flatMap_map]

theorem chain_part {p : Part} (h : p.Ok) {r : List Piece} (hr : Chain r) : Chain (p.pieces ++ r) := by
  unfold Part.pieces
  rw [List.append_assoc]
  obtain ⟨c, g, hg⟩ := List.exists_cons_of_ne_nil h.gap
  obtain ⟨d, s, hs⟩ := List.exists_cons_of_ne_nil h.sep
  refine chain_append (chain_joinP (fun b hb => chain_blanks h.sepBlank hb) (fun b => ?_) ?_) ?_
    (chain_blanks h.gapBlank hr)
  · rw [hs]; exact sep_blanks (h.sepBlank d (by rw [hs]; simp)) b
  · intro x hx
    obtain ⟨e, he, rfl⟩ := List.mem_map.1 hx
    exact chain_entry (h.entries e he)
  · rw [hg]; exact sep_blanks (h.gapBlank c (by rw [hg]; simp)) r

/-- The text of a file is read as its entries. -/
theorem read_parts {ps : List Part} (h : ∀ p ∈ ps, Part.Ok p) (hf : Follows (ps.flatMap (·.entries)))
    (hne : ps.flatMap (·.entries) ≠ []) :
    (do let tokens ← tokenize (ps.flatMap fun p : Part => textOf p.pieces); parseEntries tokens) =
      .ok ((ps.flatMap (·.entries)).map Entry.tree) := by
  have hc : Chain (ps.flatMap Part.pieces) := by
    clear hf hne
    induction ps with
    | nil => trivial
    | cons p r ih =>
      rw [List.flatMap_cons]
      exact chain_part (h p (by simp)) (ih fun q hq => h q (List.mem_cons_of_mem _ hq))
  have ht : textOf (ps.flatMap Part.pieces) = ps.flatMap fun p => textOf p.pieces := by
    clear h hf hne hc
    induction ps with
    | nil => rfl
    | cons p r ih => rw [List.flatMap_cons, textOf_append, ih, List.flatMap_cons]
  have hk : toksOf (ps.flatMap Part.pieces) = (ps.flatMap (·.entries)).flatMap fun e => toksOf e.pieces := by
    clear h hf hne hc ht
    induction ps with
    | nil => rfl
    | cons p r ih => rw [List.flatMap_cons, toksOf_append, ih, toksOf_part, List.flatMap_cons, List.flatMap_append]
  rw [← ht, tokenize_pieces _ hc, hk]
  exact parse_entries (fun e he => by
    obtain ⟨p, hp, he⟩ := List.mem_flatMap.1 he
    exact (h p hp).entries e he) hf hne

/-! ### Strings and words -/

/-- A string that is written as it is. -/
def pq (v : Chars) : Q := ⟨dumpPlain v, v⟩
/-- A string with escaped quotation marks. -/
def cq (v : Chars) : Q := ⟨dumpComment v, v⟩

theorem pq_ok {v : Chars} (h : PlainText v) : (pq v).Ok := (C29_plain_iff_partial v).2 h
theorem cq_ok {v : Chars} (h : CommentText v) : (cq v).Ok := (C29_comment_iff v).2 h

theorem plain_nil : PlainText [] := ⟨by simp, by simp⟩

theorem name_of {w : Chars} (h : identB w = true) (hk : w ∉ keywords) : Name w := ⟨ident_of_identB h, hk⟩

theorem vector_name : Name vectorXXX := name_of (by decide +kernel) (by decide +kernel)

theorem mux_name_M : Name ['M'] := name_of (by decide +kernel) (by decide +kernel)

theorem mux_name_m {i : Int} (h : 0 ≤ i) : Name ('m' :: intText i) := by
  have hd := decimal_digits i.natAbs
  have : intText i = decimal i.natAbs := by unfold intText; rw [if_neg (by omega)]
  rw [this]
  refine ⟨⟨by simp, ?_, ?_⟩, ?_⟩
  · intro c hc
    rcases List.mem_cons.1 hc with rfl | hc
    · decide
    · exact isDigit_word (hd.2 c hc)
  · intro c hc
    simp only [List.head?_cons, Option.some.injEq] at hc
    subst hc; decide
  · intro hk
    have : ∀ k ∈ keywords, k.head? ≠ some 'm' := by decide +kernel
    exact this _ hk rfl

/-! ### The entries of a database -/

def pairE (e : Int × Chars) : Chars × Q := (intText e.1, pq e.2)

def eTable (t : Chars × List (Int × Chars)) : Entry := .valueTable t.1 ((sortedDescending t.2).map pairE)

/-- The multiplexer marker of a signal. -/
def muxWord (s : DSignal F) : Option Chars :=
  if s.isMultiplexer then some ['M']
  else
    match s.multiplexerIds with
    | some (i :: _) => some ('m' :: intText i)
    | _ => none

def eSig (T : FloatText F) (s : DSignal F) : SigE :=
  { name := s.name, mux := muxWord s, start := decimal s.start, len := decimal s.length
    order := [if s.byteOrder = .big then '0' else '1'], signed := s.isSigned
    scale := s.scale.text T, offset := s.offset.text T
    lo := limitText T s.minimum, hi := limitText T s.maximum
    unit := pq (s.unit.getD []), pad := !s.receivers.isEmpty
    recv := s.receivers.head?.getD vectorXXX, more := s.receivers.tail }

def eMsg (T : FloatText F) (sort : List (DSignal F) → List (DSignal F)) (m : DMessage F) : Entry :=
  .message (frameIdText m) m.name (decimal m.length) (m.senders.head?.getD vectorXXX) ((sort m.signals).map (eSig T))

def eSenders (db : DDatabase F) : List Entry :=
  (db.messages.filter fun m => decide (1 < m.senders.length)).map fun m =>
    .senders (frameIdText m) (m.senders.head?.getD []) m.senders.tail

def eEnv (T : FloatText F) (e : Chars × DEnvvar F) : Entry :=
  .envvar e.2.name (intText e.2.envType) (e.2.minimum.text T) (e.2.maximum.text T) (cq e.2.unit)
    (e.2.initialValue.text T) (intText e.2.envId) e.2.accessType e.2.accessNode

def eComments (sort : List (DSignal F) → List (DSignal F)) (db : DDatabase F) : List Entry :=
  (db.buses.flatMap fun b => (b.comment.map fun c => Entry.busComment (pq c)).toList) ++
  (db.nodes.flatMap fun n => (n.comment.map fun c => Entry.comment (.node n.name) (cq c)).toList) ++
  (db.messages.flatMap fun m =>
    (m.comment.map fun c => Entry.comment (.msg (frameIdText m)) (cq c)).toList ++
    (sort m.signals).flatMap fun s =>
      (s.comment.map fun c => Entry.comment (.sig (frameIdText m) s.name) (cq c)).toList) ++
  (db.envvars.flatMap fun e => (e.2.comment.map fun c => Entry.comment (.ev e.2.name) (cq c)).toList)

def eTypes (db : DDatabase F) : List Entry :=
  db.messages.flatMap fun m => (m.signals.filter (·.isFloat)).map fun s =>
    .sigType (frameIdText m) s.name (if s.length = 32 then ['1'] else ['2'])

/-- The values of a definition. -/
def defVals (T : FloatText F) (d : AttrDef F) : DefVals :=
  match d.choices with
  | c :: r => .strs (pq c) (r.map pq)
  | [] =>
    match d.minimum, d.maximum with
    | some a, some b => .nums [a.text T, b.text T]
    | _, _ => .nums []

/-- What stands between the type of a definition and its values. -/
def defGap (d : AttrDef F) : Chars :=
  if d.typeName = some "ENUM" then [' ', ' ']
  else if d.typeName = some "STRING" then [' ']
  else if d.minimum.isSome then [' '] else []

def eDef (T : FloatText F) (d : AttrDef F) : Entry :=
  .attrDef d.kind (pq d.name) (d.typeName.getD "").toList (defGap d) (defVals T d)

def eDefs (T : FloatText F) (defs : Defs F) : List Entry := defs.map fun e => eDef T e.2

/-- Values of strings and, for defaults, enumerations are quoted. -/
def valE (quoted : Bool) (t : Chars) : Val := if quoted then .str (pq t) else .num t

def eDefault (T : FloatText F) (d : AttrDef F) (v : AttrVal F) : Entry :=
  .attrDefault (pq d.name)
    (valE (decide (d.typeName = some "STRING") || decide (d.typeName = some "ENUM")) (v.text T))

def eDefaults (T : FloatText F) (defs : Defs F) : List Entry :=
  defs.filterMap fun e => e.2.default.map (eDefault T e.2)

def eAttr (T : FloatText F) (obj : Option Obj) (a : Attr F) : Entry :=
  .attr (pq a.definition.name) obj (valE (decide (a.definition.typeName = some "STRING")) (a.value.text T))

/-- The attributes that are written for a message. -/
def msgAttrs (T : FloatText F) (defs : Defs F) (m : DMessage F) : Attrs F :=
  match syncFrameFormat T defs m (syncCycleTime T defs m) with
  | .ok a => a
  | .error _ => []

/-- The attributes that are written for the database. -/
def dbAttrs (defs : Defs F) (db : DDatabase F) : Attrs F :=
  match syncBaudrate defs db with
  | .ok a => a
  | .error _ => []

def eMsgAttrs (T : FloatText F) (sort : List (DSignal F) → List (DSignal F)) (defs : Defs F) (m : DMessage F) :
    List Entry :=
  ((msgAttrs T defs m).map fun a => eAttr T (some (.msg (frameIdText m))) a.2) ++
    (sort m.signals).flatMap fun s => (syncStartValue T s).map fun a =>
      eAttr T (some (.sig (frameIdText m) s.name)) a.2

def eAttrs (T : FloatText F) (sort : List (DSignal F) → List (DSignal F)) (defs : Defs F) (db : DDatabase F) :
    List Entry :=
  ((dbAttrs defs db).map fun a => eAttr T none a.2) ++
  (db.envvars.flatMap fun e => e.2.attributes.map fun a => eAttr T (some (.ev e.2.name)) a.2) ++
  (db.nodes.flatMap fun n => n.attributes.map fun a => eAttr T (some (.node n.name)) a.2) ++
  db.messages.flatMap (eMsgAttrs T sort defs)

def eChoices (sort : List (DSignal F) → List (DSignal F)) (db : DDatabase F) : List Entry :=
  db.messages.flatMap fun m => (sort m.signals).flatMap fun s =>
    (s.choices.map fun cs => Entry.choices (frameIdText m) s.name (cs.map pairE)).toList

def eGroups (db : DDatabase F) : List Entry :=
  db.messages.flatMap fun m => (m.signalGroups.getD []).map fun g =>
    .group (frameIdText m) g.name (intText g.repetitions) (g.signalNames.filter fun n => n ∈ m.signals.map (·.name))

/-- The ranges that are written for a signal. -/
def muxRanges (s : DSignal F) : List (Int × Int) :=
  match createMuxRanges (s.multiplexerIds.getD []) with
  | .ok r => r
  | .error _ => []

def rangeE (r : Int × Int) : Chars × Chars := (intText r.1, '-' :: intText r.2)

def eMuxSig (m : DMessage F) (s : DSignal F) : Entry :=
  .muxVal (frameIdText m) s.name (s.multiplexerSignal.getD "None".toList)
    (((muxRanges s).map rangeE).head?.getD ([], [])) ((muxRanges s).map rangeE).tail

def eMux (db : DDatabase F) : List Entry :=
  if extendedMuxNeeded db then db.messages.flatMap fun m =>
    (m.signals.filter fun s => !(s.multiplexerIds.getD []).isEmpty).map (eMuxSig m)
  else []

/-! ### Their text -/

theorem text_table (t : Chars × List (Int × Chars)) : textOf (eTable t).pieces = valueTableLine t := by
  unfold eTable valueTableLine Entry.pieces
  txt
  rw [List.map_map]
  rfl

theorem text_recv (s : DSignal F) :
    textOf ((if !s.receivers.isEmpty then [spc] else []) ++
      joinP comma ((s.receivers.head?.getD vectorXXX :: s.receivers.tail).map fun w => [.word w])) =
      receiversText s := by
  unfold receiversText
  cases s.receivers with
  | nil => txt; rfl
  | cons a r => txt; rfl

theorem text_sig (T : FloatText F) (s : DSignal F) (h : s.multiplexerIds ≠ some []) :
    signalLine T s = .ok (textOf (eSig T s).pieces) := by
  have hm : muxText s = .ok (textOf (match muxWord s with | none => [] | some w => [spc, .word w])) := by
    unfold muxText muxWord
    split
    · rfl
    · cases hi : s.multiplexerIds with
      | none => rfl
      | some l =>
        cases l with
        | nil => exact absurd hi h
        | cons i r => simp only; txt; rfl
  unfold signalLine
  rw [hm]
  show Except.ok _ = _
  congr 1
  unfold SigE.pieces
  rw [textOf_append, textOf_append, textOf_append, show (eSig T s).pad = !s.receivers.isEmpty from rfl,
    show (eSig T s).recv = s.receivers.head?.getD vectorXXX from rfl,
    show (eSig T s).more = s.receivers.tail from rfl, text_recv]
  simp only [eSig]
  txt
  rfl

theorem joinC_cons (sep x : Chars) (l : List Chars) : joinC sep (x :: l) = x ++ l.flatMap fun y => sep ++ y := by
  induction l generalizing x with
  | nil => simp [joinC]
  | cons y r ih => rw [joinC, ih y]; simp

theorem text_msg (T : FloatText F) (sort : List (DSignal F) → List (DSignal F)) (m : DMessage F)
    (hp : ∀ s ∈ sort m.signals, s.multiplexerIds ≠ some []) :
    messageLines T sort m = .ok (textOf (eMsg T sort m).pieces) := by
  unfold messageLines
  rw [mapM_ok_map (g := fun s => textOf (eSig T s).pieces) fun s hs => text_sig T s (hp s hs)]
  show Except.ok _ = _
  congr 1
  rw [joinC_cons]
  unfold eMsg Entry.pieces
  have : textOf ((((sort m.signals).map (eSig T)).flatMap fun s => crlfP ++ s.pieces)) =
      ((sort m.signals).map fun s => textOf (eSig T s).pieces).flatMap fun y => crlf ++ y := by
    induction sort m.signals with
    | nil => rfl
    | cons s r ih =>
      rw [List.map_cons, List.flatMap_cons, textOf_append, ih, textOf_append, crlfP, textOf_blanks]
      rfl
  rw [textOf_append, this]
  txt
  rfl

theorem text_senders (db : DDatabase F) : (eSenders db).map (fun e => textOf e.pieces) = dumpSenders db := by
  unfold eSenders dumpSenders
  rw [List.map_map]
  apply List.map_congr_left
  intro m hm
  simp only [List.mem_filter, decide_eq_true_eq] at hm
  cases hs : m.senders with
  | nil => rw [hs] at hm; simp at hm
  | cons a r =>
    simp only [Function.comp_apply, Entry.pieces, List.head?_cons, Option.getD_some, List.tail_cons, hs]
    txt
    rfl

theorem text_env (T : FloatText F) (db : DDatabase F) :
    (db.envvars.map (eEnv T)).map (fun e => textOf e.pieces) = dumpEnvvars T db := by
  unfold dumpEnvvars
  rw [List.map_map]
  apply List.map_congr_left
  intro e _
  simp only [Function.comp_apply, Entry.pieces, eEnv, cq]
  txt
  rfl

theorem map_toList {α β γ : Type} (g : β → γ) (f : α → β) (o : Option α) :
    ((o.map f).toList).map g = (o.map fun a => g (f a)).toList := by cases o <;> rfl

theorem text_comments (sort : List (DSignal F) → List (DSignal F)) (db : DDatabase F) :
    (eComments sort db).map (fun e => textOf e.pieces) = dumpComments sort db := by
  unfold eComments dumpComments
  simp only [List.map_append, List.map_flatMap, map_toList]
  rfl

theorem text_types (db : DDatabase F)
    (h : ∀ m ∈ db.messages, ∀ s ∈ m.signals, s.isFloat = true → s.length = 32 ∨ s.length = 64) :
    dumpSignalTypes db = .ok ((eTypes db).map fun e => textOf e.pieces) := by
  unfold dumpSignalTypes eTypes
  rw [mapM_ok_map (g := fun m : DMessage F => (m.signals.filter (·.isFloat)).map fun s =>
    textOf (Entry.sigType (frameIdText m) s.name (if s.length = 32 then ['1'] else ['2'])).pieces)]
  · show Except.ok _ = _
    simp only [List.map_flatMap, List.map_map]
    rfl
  · intro m hm
    apply mapM_ok_map
    intro s hs
    simp only [List.mem_filter] at hs
    rcases h m hm s hs.1 hs.2 with h | h <;>
    · simp only [h, signalType]
      show Except.ok _ = _
      congr 1
      unfold Entry.pieces
      txt
      simp only [if_true, show ¬ (64 = 32) by decide, if_false, show intText 1 = ['1'] by decide +kernel,
        show intText 2 = ['2'] by decide +kernel]
      rfl

/-- A definition that can be written; limits of a `FLOAT` may be integers. -/
structure DefOk (d : AttrDef F) : Prop where
  name : PlainText d.name
  kind : d.kind = none ∨ d.kind = some "BU_" ∨ d.kind = some "BO_" ∨ d.kind = some "SG_" ∨ d.kind = some "EV_"
  type : d.typeName = some "INT" ∨ d.typeName = some "HEX" ∨ d.typeName = some "FLOAT" ∨
    d.typeName = some "STRING" ∨ d.typeName = some "ENUM"
  default : ∀ v, d.default = some v → match v with
    | .num (.int _) => d.typeName = some "INT" ∨ d.typeName = some "HEX"
    | .num (.float _) => d.typeName = some "FLOAT"
    | .str s => (d.typeName = some "STRING" ∨ d.typeName = some "ENUM") ∧ PlainText s
  limits : (d.minimum = none ∧ d.maximum = none) ∨
    (∃ a b, d.minimum = some (.int a) ∧ d.maximum = some (.int b) ∧
      (d.typeName = some "INT" ∨ d.typeName = some "HEX")) ∨
    (∃ a b, d.minimum = some a ∧ d.maximum = some b ∧ d.typeName = some "FLOAT")
  choices : ∀ c ∈ d.choices, PlainText c
  enum : d.choices ≠ [] → d.typeName = some "ENUM"

theorem defOk_of_writable {d : AttrDef F} (h : WritableDef d) : DefOk d :=
  { name := h.name, kind := h.kind, type := h.type, default := h.default, choices := h.choices, enum := h.enum
    limits := by
      rcases h.limits with hl | hl | ⟨a, b, hl⟩
      · exact Or.inl hl
      · exact Or.inr (Or.inl hl)
      · exact Or.inr (Or.inr ⟨_, _, hl⟩) }

theorem text_def (T : FloatText F) (d : AttrDef F) (h : DefOk d) :
    defLine T d = some (textOf (eDef T d).pieces) := by
  have hk : textOf (eDef T d).pieces = "BA_DEF_ ".toList ++
      ((match d.kind with | none => [] | some k => k.toList ++ [' ']) ++
        (' ' :: (dumpPlain d.name ++ (' ' :: ((d.typeName.getD "").toList ++
          (defGap d ++ (textOf (defVals T d).pieces ++ [';']))))))) := by
    unfold eDef Entry.pieces
    rw [textOf_append]
    cases d.kind with
    | none => simp only; txt; rw [textOf_blanks]; rfl
    | some k => simp only; txt; rw [textOf_blanks]; rfl
  rw [hk]
  unfold defLine
  simp only
  have hch : d.typeName ≠ some "ENUM" → d.choices = [] := by
    intro hne
    by_contra hc
    exact hne (h.enum hc)
  by_cases h1 : d.typeName = some "ENUM"
  · rw [if_pos h1]
    have hlim : d.minimum = none ∧ d.maximum = none := by
      rcases h.limits with hl | ⟨a, b, -, -, hl | hl⟩ | ⟨a, b, -, -, hl⟩
      · exact hl
      all_goals rw [h1] at hl; simp at hl
    have hv : textOf (defVals T d).pieces = joinC [','] (d.choices.map dumpPlain) := by
      unfold defVals
      cases hc : d.choices with
      | nil => rw [hlim.1]; rfl
      | cons c r =>
        simp only [DefVals.pieces]
        txt
        simp only [List.map_cons, List.map_map]
        rfl
    rw [hv, show defGap d = [' ', ' '] from if_pos h1]
    congr 1
    txt
    rw [h1]
    rfl
  · rw [if_neg h1]
    by_cases h2 : d.typeName = some "STRING"
    · rw [if_pos h2]
      have hlim : d.minimum = none := by
        rcases h.limits with hl | ⟨a, b, -, -, hl | hl⟩ | ⟨a, b, -, -, hl⟩
        · exact hl.1
        all_goals rw [h2] at hl; simp at hl
      have hv : textOf (defVals T d).pieces = [] := by
        unfold defVals; rw [hch h1, hlim]; rfl
      rw [hv, show defGap d = [' '] from (if_neg h1).trans (if_pos h2)]
      congr 1
      txt
      rw [h2]
      rfl
    · rw [if_neg h2]
      have hg : defGap d = if d.minimum.isSome then [' '] else [] := (if_neg h1).trans (if_neg h2)
      have hv : defGap d ++ textOf (defVals T d).pieces = formattedLimit T d.minimum ++ formattedLimit T d.maximum := by
        rw [hg]
        unfold defVals
        rw [hch h1]
        rcases h.limits with hl | ⟨a, b, hl⟩ | ⟨a, b, hl⟩
        · rw [hl.1, hl.2]; rfl
        · rw [hl.1, hl.2.1]; simp only [DefVals.pieces]; rw [text_nums]; simp [joinC, formattedLimit, text_sp]
        · rw [hl.1, hl.2.1]; simp only [DefVals.pieces]; rw [text_nums]; simp [joinC, formattedLimit, text_sp]
      rcases h.type with ht | ht | ht | ht | ht
      case inr.inr.inr.inl => exact absurd ht h2
      case inr.inr.inr.inr => exact absurd ht h1
      all_goals
        rw [ht]
        simp only [Option.getD_some, String.reduceEq, or_false, or_true, if_true]
        congr 1
        txt
        rw [← List.append_assoc (defGap d), hv]
        simp only [List.append_assoc]
        rfl

theorem text_defs (T : FloatText F) (defs : Defs F) (h : ∀ e ∈ defs, DefOk e.2) :
    dumpDefs T defs = (eDefs T defs).map fun e => textOf e.pieces := by
  unfold dumpDefs eDefs
  induction defs with
  | nil => rfl
  | cons e r ih =>
    rw [List.filterMap_cons, text_def T e.2 (h e (by simp)), ih fun x hx => h x (List.mem_cons_of_mem _ hx)]
    rfl

theorem val_text (q : Bool) (t : Chars) (r : List Piece) :
    textOf ((valE q t).piece :: r) = (if q then dumpPlain t else t) ++ textOf r := by
  cases q <;> rfl

theorem text_defaults (T : FloatText F) (defs : Defs F) :
    dumpDefaults T defs = (eDefaults T defs).map fun e => textOf e.pieces := by
  unfold dumpDefaults eDefaults
  rw [List.map_filterMap]
  congr 1
  funext e
  rw [Option.map_map]
  congr 1
  funext v
  simp only [Function.comp_apply, eDefault, Entry.pieces, text_key, text_sp, text_str, val_text, text_pun,
    textOf_nil, Bool.or_eq_true, decide_eq_true_eq]
  rfl

theorem text_attr_none (T : FloatText F) (a : Attr F) :
    attrLine T none a = textOf (eAttr T none a).pieces := by
  unfold attrLine eAttr Entry.pieces Attr.formatted
  simp only [List.nil_append, text_key, text_sp, text_str, List.cons_append, val_text, text_pun, textOf_nil,
    decide_eq_true_eq]
  rfl

theorem text_attr (T : FloatText F) (o : Obj) (t : Chars) (a : Attr F)
    (h : textOf o.pieces = kindText a.definition ++ ' ' :: t) :
    attrLine T (some t) a = textOf (eAttr T (some o) a).pieces := by
  unfold attrLine eAttr Entry.pieces Attr.formatted
  simp only [text_key, text_sp, text_str, List.cons_append, List.nil_append, textOf_append, h, val_text, text_pun,
    textOf_nil, decide_eq_true_eq, List.append_assoc]
  rfl

theorem text_choices (sort : List (DSignal F) → List (DSignal F)) (db : DDatabase F) :
    (eChoices sort db).map (fun e => textOf e.pieces) = dumpChoices sort db := by
  unfold eChoices dumpChoices
  simp only [List.map_flatMap, map_toList]
  congr 1; funext m; congr 1; funext s; congr 2; funext cs
  unfold Entry.pieces
  txt
  rw [List.map_map]
  rfl

theorem text_groups (db : DDatabase F) : (eGroups db).map (fun e => textOf e.pieces) = dumpSignalGroups db := by
  unfold eGroups dumpSignalGroups
  simp only [List.map_flatMap, List.map_map]
  congr 1; funext m; congr 1; funext g
  simp only [Function.comp_apply, Entry.pieces]
  txt
  rfl

theorem muxRanges_spec {s : DSignal F} (h : s.multiplexerIds.getD [] ≠ []) :
    createMuxRanges (s.multiplexerIds.getD []) = .ok (muxRanges s) ∧ muxRanges s ≠ [] ∧
      ∀ i, i ∈ expandRanges (muxRanges s) ↔ i ∈ s.multiplexerIds.getD [] := by
  obtain ⟨rs, h1, h2⟩ := createMuxRanges_spec h
  have : muxRanges s = rs := by unfold muxRanges; simp only [h1]
  rw [this]
  refine ⟨h1, ?_, h2⟩
  rintro rfl
  obtain ⟨i, r, hi⟩ := List.exists_cons_of_ne_nil h
  have := (h2 i).2 (by rw [hi]; simp)
  simp [expandRanges] at this

theorem text_mux (db : DDatabase F) : dumpMuxValues db = .ok ((eMux db).map fun e => textOf e.pieces) := by
  unfold dumpMuxValues eMux
  split
  · rw [mapM_ok_map (g := fun m : DMessage F => (m.signals.filter fun s => !(s.multiplexerIds.getD []).isEmpty).map
      fun s => textOf (eMuxSig m s).pieces)]
    · show Except.ok _ = _
      simp only [List.map_flatMap, List.map_map]
      rfl
    · intro m hm
      apply mapM_ok_map
      intro s hs
      simp only [List.mem_filter, Bool.not_eq_true', List.isEmpty_eq_false_iff] at hs
      obtain ⟨h1, h2, -⟩ := muxRanges_spec hs.2
      unfold muxValuesLine
      rw [h1]
      show Except.ok _ = _
      congr 1
      unfold eMuxSig Entry.pieces
      obtain ⟨a, r, har⟩ := List.exists_cons_of_ne_nil h2
      rw [har]
      txt
      simp only [List.map_cons, List.head?_cons, Option.getD_some, List.tail_cons, List.map_map]
      rfl
  · rfl

end Cantools.Dbc
