import Verif.Spec.Sym
import Verif.Lemmas.SymParse
import Verif.Lemmas.DbcLoaded
import Verif.Lemmas.DbcUnique
import Verif.Lemmas.Tree

/-
The text of a written SYM database as a list of lines.
-/

namespace Cantools.Sym
open Cantools Cantools.Dbc Spec

variable {F : Type}

/-! ### The lines of a database -/

def optionsOf (T : FloatText F) (s : DSignal F) : List SigOption :=
  (match s.unit with | none => [] | some [] => [] | some u => [.unit (unitText u)]) ++
  ((if s.scale.value T ≠ 1 then [.factor (s.scale.text T)] else []) ++
  ((if s.offset.value T ≠ 0 then [.offset (s.offset.text T)] else []) ++
  ((match s.maximum with | none => [] | some n => [.max (n.text T)]) ++
  ((match s.minimum with | none => [] | some n => [.min (n.text T)]) ++
  ((match s.spn with | none => [] | some v => if truthy T v then [.spn (v.text T)] else []) ++
  (match s.choices with | none => [] | some [] => [] | some _ => [.enum (enumName s)]))))))

def commentOf : Option Chars → Option Chars
  | none => none
  | some [] => none
  | some c => some (commentText (' ' :: c))

/-- The line of a signal. -/
def sigLineOf (T : FloatText F) (s : DSignal F) : SigLine :=
  { name := signalName s, type := signalType T s, length := some (decimal s.length)
    motorola := decide (s.byteOrder = .big), options := optionsOf T s, comment := commentOf s.comment }

/-- The line of an enumeration. -/
def enumLineOf (s : DSignal F) : Option EnumLine :=
  match s.choices with
  | none => none
  | some [] => none
  | some cs => some { name := enumName s, values := cs.map fun c => (intText c.1, c.2) }

/-- The line of a selector. -/
def muxLineOf (id : Int) (s : DSignal F) : MuxLine :=
  { name := s.name, start := intText (convertStart s.start s.byteOrder), length := decimal s.length
    id := hexText 0 id ++ ['h'], flags := if s.byteOrder = .big then ["-m".toList] else [], comment := none }

def idLineOf (m : DMessage F) (i : Int) (last : Option Int) : IdLine :=
  { first := idText m i, last := last.map fun j => '-' :: idText m j
    comment := m.comment.map fun c => commentText (' ' :: c) }

/-- The lines of a message. -/
def blockOf (T : FloatText F) (m : DMessage F) (signals : List (DSignal F)) (first last : Option Int)
    (mux : Option (Int × DSignal F)) : Block :=
  { name := m.name
    lines :=
      (match first with | none => [] | some i => [.id (idLineOf m i last)]) ++
      ((if m.isExtendedFrame then [.type "Extended".toList] else []) ++
      (.len (decimal m.length) ::
      ((match m.cycleTime with | none => [] | some n => if n.value T ≠ 0 then [.cycleTime (n.text T) none] else []) ++
      ((match mux with | none => [] | some x => [.mux (muxLineOf x.1 x.2)]) ++
      signals.map fun s => .sig (signalName s) (intText (convertStart s.start s.byteOrder)))))) }

/-! ### Their texts -/

theorem text_opt_unit (u : Option Chars) :
    textOf ((match u with | none => [] | some [] => [] | some u => [SigOption.unit (unitText u)]).flatMap optPieces) =
      (match u with | none => [] | some [] => [] | some u => " /u:\"".toList ++ (u ++ ['"'])) := by
  split
  · rfl
  · rfl
  · simp only [List.flatMap_cons, List.flatMap_nil, List.append_nil, optPieces, unitText_drop]
    simp [textOf_cons, textOf_nil, Piece.text]

theorem text_opt_if (p : Prop) [Decidable p] (o : SigOption) (t : Chars) (h : textOf (optPieces o) = t) :
    textOf ((if p then [o] else []).flatMap optPieces) = if p then t else [] := by
  split
  · simpa using h
  · rfl

theorem text_end (c : Option Chars) :
    textOf (endPieces (commentOf c)) =
      (match c with | none => [] | some [] => [] | some c => " // ".toList ++ c) ++ ['\n'] := by
  match c with
  | none => rfl
  | some [] => rfl
  | some (x :: r) =>
    simp only [commentOf, endPieces, commentText_drop]
    simp [textOf_cons, textOf_nil, Piece.text]

theorem text_options (T : FloatText F) (s : DSignal F) :
    textOf ((optionsOf T s).flatMap optPieces) =
  ((match s.unit with | none => [] | some [] => [] | some u => " /u:\"".toList ++ (u ++ ['"'])) ++
  ((if s.scale.value T ≠ 1 then " /f:".toList ++ s.scale.text T else []) ++
  ((if s.offset.value T ≠ 0 then " /o:".toList ++ s.offset.text T else []) ++
  ((match s.maximum with | none => [] | some n => " /max:".toList ++ n.text T) ++
  ((match s.minimum with | none => [] | some n => " /min:".toList ++ n.text T) ++
  ((match s.spn with | none => [] | some v => if truthy T v then " /spn:".toList ++ v.text T else []) ++
  (match s.choices with | none => [] | some [] => [] | some _ => " /e:".toList ++ enumName s))))))) := by
  unfold optionsOf
  simp only [List.flatMap_append, textOf_append]
  refine congrArg₂ _ (text_opt_unit _) (congrArg₂ _ (text_opt_if _ _ _ ?_) (congrArg₂ _ (text_opt_if _ _ _ ?_)
    (congrArg₂ _ ?_ (congrArg₂ _ ?_ (congrArg₂ _ ?_ ?_)))))
  · simp [optPieces, textOf_cons, textOf_nil, Piece.text]
  · simp [optPieces, textOf_cons, textOf_nil, Piece.text]
  · cases s.maximum <;> simp [optPieces, textOf_cons, textOf_nil, Piece.text]
  · cases s.minimum <;> simp [optPieces, textOf_cons, textOf_nil, Piece.text]
  · cases s.spn with
    | none => rfl
    | some v => exact text_opt_if _ _ _ (by simp [optPieces, textOf_cons, textOf_nil, Piece.text])
  · split
    · rfl
    · rfl
    · simp [optPieces, textOf_cons, textOf_nil, Piece.text]

theorem text_sig (T : FloatText F) (s : DSignal F) :
    dumpSignal T s ++ ['\n'] = textOf (sigPieces (sigLineOf T s)) := by
  have h1 : textOf (if decide (s.byteOrder = .big) = true then [Piece.sp ' ', .lit "-m"] else []) =
      if s.byteOrder = .big then " -m".toList else [] := by
    by_cases h : s.byteOrder = .big <;> simp [h, textOf_cons, textOf_nil, Piece.text]
  unfold sigPieces dumpSignal sigLineOf
  dsimp only
  rw [textOf_append, textOf_append, textOf_append, h1, text_options, text_end]
  have e1 : "Sig=\"".toList = ['S', 'i', 'g', '=', '"'] := rfl
  have e2 : "\" ".toList = ['"', ' '] := rfl
  have e3 : "Sig".toList = ['S', 'i', 'g'] := rfl
  have e4 : "=".toList = ['='] := rfl
  simp only [List.append_assoc, textOf_cons, textOf_nil, Piece.text, Option.getD_some, e1, e2, e3, e4,
    List.cons_append, List.nil_append, List.append_nil]
  rfl

theorem text_values (cs : List (Int × Chars)) (k : Nat) :
    textOf (valuePieces k (cs.map fun c => (intText c.1, c.2))) = choiceTexts k cs := by
  induction cs generalizing k with
  | nil => rfl
  | cons c cs ih =>
    rw [List.map_cons, valuePieces, choiceTexts, textOf_append, textOf_append, ih]
    refine congrArg₂ _ ?_ ?_
    · split
      · simp [textOf_cons, textOf_nil, Piece.text]
      · split <;> simp [textOf_cons, textOf_nil, Piece.text]
    · simp [textOf_cons, textOf_nil, Piece.text]

theorem text_enum (s : DSignal F) :
    (dumpChoice s).map (· ++ ['\n']) = (enumLineOf s).map fun l => textOf (enumPieces l) := by
  unfold dumpChoice enumLineOf
  match s.choices with
  | none => rfl
  | some [] => rfl
  | some (c :: cs) =>
    dsimp only [Option.map_some, enumPieces]
    rw [textOf_append, textOf_append, text_values]
    simp [textOf_cons, textOf_nil, Piece.text]

theorem text_sigs (l : List (DSignal F)) :
    textOf ((l.map fun s => Line.sig (signalName s) (intText (convertStart s.start s.byteOrder))).flatMap linePieces) =
      l.flatMap fun s =>
        "Sig=\"".toList ++ (signalName s ++ ("\" ".toList ++ (intText (convertStart s.start s.byteOrder) ++ ['\n']))) := by
  induction l with
  | nil => rfl
  | cons s l ih =>
    rw [List.map_cons, List.flatMap_cons, textOf_append, ih, List.flatMap_cons]
    congr 1
    simp [linePieces, textOf_cons, textOf_nil, Piece.text]

theorem text_mux {id : Int} {s : DSignal F} (h : s.name ≠ []) :
    dumpMux id s = .ok (textOf (linePieces (.mux (muxLineOf id s)))) := by
  unfold dumpMux
  rw [if_neg h]
  congr 1
  unfold linePieces muxLineOf
  dsimp only
  rw [textOf_append, textOf_append]
  by_cases hb : s.byteOrder = .big <;> simp [hb, textOf_cons, textOf_nil, Piece.text]

theorem text_id {m : DMessage F} {first last : Option Int} (hl : first = none → last = none) :
    textOf ((match (generalizing := false) first with | none => [] | some i => [Line.id (idLineOf m i last)]).flatMap linePieces) =
    ((match (generalizing := false) first with | none => [] | some i => "ID=".toList ++ idText m i) ++
    ((match (generalizing := false) last with | none => [] | some i => '-' :: idText m i) ++
    ((match (generalizing := false) first, m.comment with | some _, some c => " // ".toList ++ c | _, _ => []) ++
    (match (generalizing := false) first with | none => [] | some _ => ['\n'])))) := by
  cases first with
  | none => cases hl rfl; rfl
  | some i =>
    simp only [List.flatMap_cons, List.flatMap_nil, List.append_nil, linePieces, idLineOf]
    rw [textOf_append, textOf_append]
    refine (List.append_assoc ..).symm.trans ?_
    rw [← List.append_assoc]
    refine congrArg₂ _ (congrArg₂ _ ?_ ?_) ?_
    · simp [textOf_cons, textOf_nil, Piece.text, idText]
    · cases last with
      | none => rfl
      | some j => 
        simp only [Option.map_some, idText]
        rw [← List.cons_append, List.dropLast_concat]
        simp [textOf_cons, textOf_nil, Piece.text]
    · cases m.comment with
      | none => rfl
      | some c => 
        simp only [Option.map_some, endPieces, commentText_drop]
        simp [textOf_cons, textOf_nil, Piece.text]

theorem text_block {T : FloatText F} {m : DMessage F} {signals : List (DSignal F)} {first last : Option Int}
    {mux : Option (Int × DSignal F)} (hl : first = none → last = none) (hm : ∀ x, mux = some x → x.2.name ≠ []) :
    ∃ t, dumpMessage T m signals first last mux = .ok t ∧
      t ++ ['\n'] = textOf (blockPieces (blockOf T m signals first last mux)) := by
  have h1 : (match (generalizing := false) mux with | none => .ok [] | some (id, s) => dumpMux id s : Except Err Chars) =
      .ok (textOf ((match mux with | none => [] | some x => [Line.mux (muxLineOf x.1 x.2)]).flatMap linePieces)) := by
    cases mux with
    | none => rfl
    | some x => simp only [List.flatMap_cons, List.flatMap_nil, List.append_nil]; exact text_mux (hm x rfl)
  unfold dumpMessage
  refine ⟨_, (bind_of_ok h1).trans rfl, ?_⟩
  have h3 : textOf ((if m.isExtendedFrame then [Line.type "Extended".toList] else []).flatMap linePieces) =
      if m.isExtendedFrame then "Type=Extended\n".toList else [] := by
    cases m.isExtendedFrame <;> rfl
  have h4 : textOf ((match m.cycleTime with
      | none => [] | some n => if n.value T ≠ 0 then [Line.cycleTime (n.text T) none] else []).flatMap linePieces) =
      (match m.cycleTime with
      | none => []
      | some n => if n.value T ≠ 0 then "CycleTime=".toList ++ (n.text T ++ ['\n']) else []) := by
    cases m.cycleTime with
    | none => rfl
    | some n =>
      dsimp only
      split
      · simp [linePieces, textOf_cons, textOf_nil, Piece.text]
      · rfl
  unfold blockPieces blockOf
  dsimp only
  simp only [List.flatMap_append, List.flatMap_cons, textOf_append, text_id hl, h3, h4, text_sigs]
  have e1 : "[\"".toList = ['[', '"'] := rfl
  have e2 : "\"]\n".toList = ['"', ']', '\n'] := rfl
  have e3 : "Len=".toList = ['L', 'e', 'n', '='] := rfl
  have e4 : "Len".toList = ['L', 'e', 'n'] := rfl
  have e5 : "=".toList = ['='] := rfl
  have e6 : "[".toList = ['['] := rfl
  have e7 : "]".toList = [']'] := rfl
  simp only [linePieces, textOf_cons, textOf_nil, Piece.text, List.append_assoc, e1, e2, e3, e4, e5, e6, e7,
    List.cons_append, List.nil_append, List.append_nil]
  rfl

theorem join_lines {α : Type} (f g : α → Chars) (hfg : ∀ a, f a ++ ['\n'] = g a) {l : List α} (h : l ≠ []) :
    joinC ['\n'] (l.map f) ++ ['\n'] = l.flatMap g := by
  induction l with
  | nil => exact absurd rfl h
  | cons a r ih =>
    cases r with
    | nil => simp [joinC, hfg]
    | cons b r =>
      have := ih (by simp)
      simp only [List.map_cons, joinC, List.flatMap_cons] at this ⊢
      rw [← hfg a, ← this]
      simp

theorem textOf_flatMap {α : Type} (f : α → List Piece) (l : List α) :
    textOf (l.flatMap f) = l.flatMap fun a => textOf (f a) := by
  induction l with
  | nil => rfl
  | cons a l ih => rw [List.flatMap_cons, List.flatMap_cons, textOf_append, ih]

/-! ### The tree of a message with one selector -/

theorem codec_plain {sigs : List Signal} {k : Nat} (h : ∀ s ∈ sigs, s.isMultiplexer = false ∧ s.multiplexerSignal = none) :
    createCodec sigs (k + 1) none none = some (.mk sigs .nil) := by
  have h1 : sigs.filter (atNode none none) = sigs := by
    rw [List.filter_eq_self]
    intro s hs
    simp [atNode, (h s hs).2]
  have h2 : sigs.filter (fun s => s.isMultiplexer && !(childrenIds sigs s).isEmpty) = [] := by
    rw [List.filter_eq_nil_iff]
    intro s hs
    simp [(h s hs).1]
  unfold createCodec
  dsimp only
  rw [h1, h2]
  rfl

theorem mapM_some {α β : Type} {f : α → Option β} {g : α → β} {l : List α} (h : ∀ a ∈ l, f a = some (g a)) :
    l.mapM f = some (l.map g) := by
  induction l with
  | nil => rfl
  | cons a l ih =>
    rw [List.mapM_cons, h a (by simp), ih fun b hb => h b (List.mem_cons_of_mem _ hb)]
    rfl

/-- The codec of a branch without selectors. -/
def flatBranches (sigs : List Signal) (sel : String) (ids : List Int) : List (Int × Codec) :=
  ids.map fun i => (i, .mk (sigs.filter (atNode (some sel) (some i))) .nil)

theorem codec_one {sigs : List Signal} {sel : Signal} {k : Nat} (hsel : sigs.filter (·.isMultiplexer) = [sel])
    (hroot : sel.multiplexerSignal = none) (hne : childrenIds sigs sel ≠ []) :
    createCodec sigs (k + 2) none none = some (.mk (sigs.filter (atNode none none))
      (.cons sel.name (Branches.ofList (flatBranches sigs sel.name (childrenIds sigs sel))) .nil)) := by
  have hm : ∀ s ∈ sigs, s.isMultiplexer = true → s = sel := by
    intro s hs h
    have : s ∈ sigs.filter (·.isMultiplexer) := List.mem_filter.2 ⟨hs, h⟩
    rw [hsel] at this
    simpa using this
  have hi : ∀ i, createCodec sigs (k + 1) (some sel.name) (some i) =
      some (.mk (sigs.filter (atNode (some sel.name) (some i))) .nil) := by
    intro i
    unfold createCodec
    dsimp only
    have : (sigs.filter (atNode (some sel.name) (some i))).filter
        (fun s => s.isMultiplexer && !(childrenIds sigs s).isEmpty) = [] := by
      rw [List.filter_eq_nil_iff]
      intro s hs
      obtain ⟨h1, h2⟩ := List.mem_filter.1 hs
      intro h
      rw [Bool.and_eq_true] at h
      rw [hm s h1 h.1] at h2
      simp [atNode, hroot] at h2
    rw [this]
    rfl
  have h2 : (sigs.filter (atNode none none)).filter (fun s => s.isMultiplexer && !(childrenIds sigs s).isEmpty) =
      [sel] := by
    rw [List.filter_filter, ← hsel]
    apply List.filter_congr
    intro s hs
    cases h : s.isMultiplexer with
    | false => rfl
    | true =>
      rw [hm s hs h]
      have : (childrenIds sigs sel).isEmpty = false := by
        cases hc : childrenIds sigs sel with
        | nil => exact absurd hc hne
        | cons => rfl
      simp [this, atNode, hroot]
  rw [createCodec, h2, List.mapM_cons, mapM_some (g := fun i => (i, .mk (sigs.filter (atNode (some sel.name) (some i))) .nil))]
  · rfl
  · intro i _
    rw [hi i]
    rfl

/-- A tree of signals without selectors. -/
def leaves : List Signal → SigTree
  | [] => .nil
  | s :: r => .leaf s.name (leaves r)

theorem treeOfSignals_nil (l : List Signal) : treeOfSignals [] l = leaves l := by
  induction l with
  | nil => rfl
  | cons s l ih => simp [treeOfSignals, leaves, ih]

theorem hasMux_leaves (l : List Signal) : hasMux (leaves l) = false := by
  induction l with
  | nil => rfl
  | cons s l ih => exact ih

theorem branchNames_leaves (l : List Signal) : branchNames (leaves l) = .ok (l.map (·.name)) := by
  induction l with
  | nil => rfl
  | cons s l ih => simp [leaves, branchNames, ih, Except.map]

/-- The tree of a level with one selector. -/
theorem treeOfSignals_other {n : String} {b : TreeBranches} {l : List Signal} (h : ∀ s ∈ l, s.name ≠ n) :
    treeOfSignals [(n, b)] l = leaves l := by
  induction l with
  | nil => rfl
  | cons s l ih =>
    have h1 : dictGet? [(n, b)] s.name = none := by
      rw [dictGet?_eq_none_iff]
      simpa using h s (by simp)
    rw [treeOfSignals, h1, leaves, ih fun x hx => h x (List.mem_cons_of_mem _ hx)]

theorem hasMux_level {n : String} {b : TreeBranches} {p q : List Signal} {sel : Signal} (hs : sel.name = n)
    (hp : ∀ s ∈ p, s.name ≠ n) : hasMux (treeOfSignals [(n, b)] (p ++ sel :: q)) = true := by
  induction p with
  | nil =>
    have h1 : dictGet? [(n, b)] sel.name = some b := by simp [dictGet?_cons, hs]
    rw [List.nil_append, treeOfSignals, h1]; rfl
  | cons s p ih =>
    have h1 : dictGet? [(n, b)] s.name = none := by
      rw [dictGet?_eq_none_iff]
      simpa using hp s (by simp)
    rw [List.cons_append, treeOfSignals, h1]
    exact ih fun x hx => hp x (List.mem_cons_of_mem _ hx)

theorem plainNames_leaves (l : List Signal) : plainNames (leaves l) = l.map (·.name) := by
  induction l with
  | nil => rfl
  | cons s l ih => simp [leaves, plainNames, ih]

theorem plainNames_level {n : String} {b : TreeBranches} {p q : List Signal} {sel : Signal} (hs : sel.name = n)
    (hp : ∀ s ∈ p, s.name ≠ n) (hq : ∀ s ∈ q, s.name ≠ n) :
    plainNames (treeOfSignals [(n, b)] (p ++ sel :: q)) = (p ++ q).map (·.name) := by
  induction p with
  | nil =>
    have h1 : dictGet? [(n, b)] sel.name = some b := by simp [dictGet?_cons, hs]
    rw [List.nil_append, treeOfSignals, h1, treeOfSignals_other hq]
    exact plainNames_leaves q
  | cons s p ih =>
    have h1 : dictGet? [(n, b)] s.name = none := by
      rw [dictGet?_eq_none_iff]
      simpa using hp s (by simp)
    rw [List.cons_append, treeOfSignals, h1]
    simp [plainNames, ih fun x hx => hp x (List.mem_cons_of_mem _ hx)]

theorem dumpMuxes_leaves {T : FloatText F} {m : DMessage F} {plain : List String} {first : Int} {last : Option Int}
    (l : List Signal) : dumpMuxes T m plain first last (leaves l) = .ok [] := by
  induction l with
  | nil => rfl
  | cons s l ih => exact ih

theorem dumpMuxes_level {T : FloatText F} {m : DMessage F} {plain : List String} {first : Int} {last : Option Int}
    {n : String} {b : TreeBranches} {p q : List Signal} {sel : Signal} {texts : List Chars} (hs : sel.name = n)
    (hp : ∀ s ∈ p, s.name ≠ n) (hq : ∀ s ∈ q, s.name ≠ n)
    (h : dumpBranches T m plain n last (some first) b = .ok texts) :
    dumpMuxes T m plain first last (treeOfSignals [(n, b)] (p ++ sel :: q)) = .ok texts := by
  induction p with
  | nil =>
    have h1 : dictGet? [(n, b)] sel.name = some b := by simp [dictGet?_cons, hs]
    rw [List.nil_append, treeOfSignals, h1, treeOfSignals_other hq]
    dsimp only
    rw [dumpMuxes, hs]
    refine (bind_of_ok h).trans ((bind_of_ok (dumpMuxes_leaves q)).trans ?_)
    rw [List.append_nil]
    rfl
  | cons s p ih =>
    have h1 : dictGet? [(n, b)] s.name = none := by
      rw [dictGet?_eq_none_iff]
      simpa using hp s (by simp)
    rw [List.cons_append, treeOfSignals, h1]
    exact ih fun x hx => hp x (List.mem_cons_of_mem _ hx)

/-! ### The blocks of a message -/

/-- The signals that are in all frames. -/
def statics (l : List (DSignal F)) : List (DSignal F) := l.filter fun s => !s.isMultiplexer && s.multiplexerIds.isNone

/-- The signals with one multiplexer id. -/
def branchOf (l : List (DSignal F)) (i : Int) : List (DSignal F) :=
  l.filter fun s => (s.multiplexerIds.getD []).contains i

/-- The multiplexer ids in the order in which they are written. -/
def idsOf (l : List (DSignal F)) : List Int := dedupInt (l.flatMap fun s => s.multiplexerIds.getD [])

def branchBlocks (T : FloatText F) (m : DMessage F) (sel : DSignal F) : Option Int → List Int → List Block
  | _, [] => []
  | first, i :: r =>
    blockOf T m (branchOf m.signals i ++ statics m.signals) first none (some (i, sel)) :: branchBlocks T m sel none r

/-- The blocks of a message, or of several messages of the same name if there is a last id. -/
def blocksOf (T : FloatText F) (m : DMessage F) (last : Option Int) : List Block :=
  match m.signals.find? (·.isMultiplexer) with
  | none => [blockOf T m m.signals (some m.frameId) last none]
  | some sel => branchBlocks T m sel (some m.frameId) (idsOf m.signals)

/-- A text is that of a block. -/
def TextOf (t : Chars) (b : Block) : Prop := t ++ ['\n'] = textOf (blockPieces b)

theorem signalNamed_mem {m : DMessage F} (hnd : (m.signals.map (·.name)).Nodup) {s : DSignal F} (hs : s ∈ m.signals) :
    signalNamed m (String.ofList s.name) = .ok s := by
  unfold signalNamed
  have : m.signals.reverse.find? (fun x => x.name == (String.ofList s.name).toList) = some s := by
    rw [String.toList_ofList]
    have h1 : s ∈ m.signals.reverse := List.mem_reverse.2 hs
    have h2 : (m.signals.reverse.map (·.name)).Nodup := by rw [List.map_reverse, List.nodup_reverse]; exact hnd
    generalize m.signals.reverse = l at h1 h2
    induction l with
    | nil => cases h1
    | cons x l ih =>
      rw [List.map_cons, List.nodup_cons] at h2
      rcases List.mem_cons.1 h1 with rfl | h1
      · simp
      · have : x.name ≠ s.name := fun e => h2.1 (e ▸ List.mem_map_of_mem h1)
        rw [List.find?_cons_of_neg (by simpa using this)]
        exact ih h1 h2.2
  rw [this]

theorem signalNamed_map {m : DMessage F} (T : FloatText F) (hnd : (m.signals.map (·.name)).Nodup)
    {l : List (DSignal F)} (hl : ∀ s ∈ l, s ∈ m.signals) :
    ((l.map (·.core T)).map (·.name)).mapM (signalNamed m) = .ok l := by
  have h : ∀ s ∈ l, (signalNamed m ∘ fun s : DSignal F => String.ofList s.name) s = .ok (id s) :=
    fun s hs => signalNamed_mem hnd (hl s hs)
  have := mapM_eq_map h
  rw [List.map_id] at this
  rw [List.map_map, ← this, List.mapM_map]
  rfl

/-- What is known about a message with one selector. -/
structure Muxed (T : FloatText F) (m : DMessage F) (sel : DSignal F) (a b : List (DSignal F)) : Prop where
  split : m.signals = a ++ sel :: b
  isSel : SymSelector T sel
  some_ : ∃ s ∈ a ++ b, ∃ ids, ids ≠ [] ∧ s.multiplexerIds = some ids
  plain : ∀ s ∈ a ++ b, s.isMultiplexer = false
  both : ∀ s ∈ a ++ b, (s.multiplexerSignal = none ∧ s.multiplexerIds = none) ∨
        (s.multiplexerSignal = some sel.name ∧ ∃ ids, ids ≠ [] ∧ s.multiplexerIds = some ids ∧
          ∀ i ∈ ids, 0 ≤ i ∧ leadingHex i.toNat < 10)
  names : ∀ s ∈ a ++ b, s.name ≠ sel.name

theorem muxed_of {T : FloatText F} {m : DMessage F} (hnd : (m.signals.map (·.name)).Nodup) (h : OneSelector T m) :
    ∃ sel a b, Muxed T m sel a b := by
  obtain ⟨sel, hs, h1, ⟨x, hx, hx'⟩, h3⟩ := h
  obtain ⟨a, b, hab⟩ := List.append_of_mem hs
  rw [hab, List.map_append, List.map_cons] at hnd
  have hn : ∀ s ∈ a ++ b, s.name ≠ sel.name := by
    intro s hs
    have := (List.nodup_middle.1 hnd)
    rw [List.nodup_cons, ← List.map_append] at this
    exact fun e => this.1 (e ▸ List.mem_map_of_mem hs)
  have hne : ∀ s ∈ a ++ b, s ≠ sel := fun s hs e => hn s hs (e ▸ rfl)
  have hmem : ∀ s ∈ a ++ b, s ∈ m.signals := by
    intro s hs
    rw [hab]
    rcases List.mem_append.1 hs with h | h
    · exact List.mem_append_left _ h
    · exact List.mem_append_right _ (List.mem_cons_of_mem _ h)
  refine ⟨sel, a, b, hab, h1, ?_, fun s hs => (h3 s (hmem s hs) (hne s hs)).1,
    fun s hs => (h3 s (hmem s hs) (hne s hs)).2, hn⟩
  have hxs : x ≠ sel := fun e => hx' (e ▸ h1.root.1)
  refine ⟨x, ?_, ?_⟩
  · rw [hab] at hx
    rcases List.mem_append.1 hx with h | h
    · exact List.mem_append_left _ h
    · rcases List.mem_cons.1 h with h | h
      · exact absurd h hxs
      · exact List.mem_append_right _ h
  · rcases (h3 x hx hxs).2 with h | ⟨-, ids, h4, h5, -⟩
    · exact absurd h.1 hx'
    · exact ⟨ids, h4, h5⟩

section
variable {T : FloatText F} {m : DMessage F} {sel : DSignal F} {a b : List (DSignal F)}

theorem Muxed.find (h : Muxed T m sel a b) : m.signals.find? (·.isMultiplexer) = some sel := by
  rw [h.split, List.find?_append]
  have : a.find? (·.isMultiplexer) = none := by
    rw [List.find?_eq_none]
    intro s hs
    simp [h.plain s (List.mem_append_left _ hs)]
  rw [this, Option.none_or, List.find?_cons_of_pos h.isSel.isMultiplexer]

/-- A filter of the signals that leaves the selector out. -/
theorem Muxed.filter_out (h : Muxed T m sel a b) {p : DSignal F → Bool} (hp : p sel = false) :
    m.signals.filter p = (a ++ b).filter p := by
  rw [h.split, List.filter_append, List.filter_append, List.filter_cons_of_neg (by simp [hp])]

theorem Muxed.statics (h : Muxed T m sel a b) : statics m.signals = (a ++ b).filter fun s => s.multiplexerIds.isNone := by
  unfold Sym.statics
  rw [h.filter_out (by simp [h.isSel.isMultiplexer])]
  exact List.filter_congr fun s hs => by simp [h.plain s hs]

theorem Muxed.selectors (h : Muxed T m sel a b) :
    (m.signals.map (·.core T)).filter (·.isMultiplexer) = [sel.core T] := by
  have ha : ∀ l : List (DSignal F), (∀ s ∈ l, s ∈ a ++ b) → (l.map (·.core T)).filter (·.isMultiplexer) = [] := by
    intro l hl
    rw [List.filter_eq_nil_iff]
    intro c hc
    obtain ⟨s, hs, rfl⟩ := List.mem_map.1 hc
    simp [DSignal.core, h.plain s (hl s hs)]
  rw [h.split, List.map_append, List.map_cons, List.filter_append, ha a fun s hs => List.mem_append_left _ hs,
    List.filter_cons_of_pos (by simp [DSignal.core, h.isSel.isMultiplexer]), ha b fun s hs => List.mem_append_right _ hs]
  rfl

theorem Muxed.childrenIds (h : Muxed T m sel a b) :
    childrenIds (m.signals.map (·.core T)) (sel.core T) = idsOf m.signals := by
  have hc : (sel.core T).conversion.choices = none := by
    unfold DSignal.core
    rw [h.isSel.rest.2.2.1]
    unfold Conversion.factory
    simp only [Option.map_none]
    rfl
  unfold Cantools.childrenIds idsOf
  rw [hc]
  simp only [Option.getD_none, List.map_nil, List.append_nil]
  congr 1
  have key : ∀ l : List (DSignal F), (∀ s ∈ l, s ∈ a ++ b) →
      ((l.map (·.core T)).filter fun s => s.multiplexerSignal == some (sel.core T).name).flatMap
        (fun s => s.multiplexerIds.getD []) = l.flatMap fun s => s.multiplexerIds.getD [] := by
    intro l hl
    induction l with
    | nil => rfl
    | cons s l ih =>
      rw [List.map_cons, List.flatMap_cons, ← ih fun x hx => hl x (List.mem_cons_of_mem _ hx)]
      rcases h.both s (hl s (by simp)) with h1 | ⟨h1, -⟩
      · rw [List.filter_cons_of_neg (by simp [DSignal.core, h1.1]), h1.2]; rfl
      · rw [List.filter_cons_of_pos (by simp [DSignal.core, h1]), List.flatMap_cons]; rfl
  rw [h.split, List.map_append, List.map_cons, List.filter_append, List.flatMap_append, List.flatMap_append,
    key a fun s hs => List.mem_append_left _ hs,
    List.filter_cons_of_neg (by simp [DSignal.core, h.isSel.root.1]), key b fun s hs => List.mem_append_right _ hs,
    List.flatMap_cons, h.isSel.root.2]
  rfl

theorem Muxed.idsOf_ne (h : Muxed T m sel a b) : idsOf m.signals ≠ [] := by
  obtain ⟨s, hs, ids, h1, h2⟩ := h.some_
  obtain ⟨i, hi⟩ := List.exists_mem_of_ne_nil _ h1
  refine List.ne_nil_of_mem (a := i) ?_
  unfold idsOf
  rw [mem_dedupInt, List.mem_flatMap]
  refine ⟨s, ?_, by rw [h2]; exact hi⟩
  rw [h.split]
  rcases List.mem_append.1 hs with h | h
  · exact List.mem_append_left _ h
  · exact List.mem_append_right _ (List.mem_cons_of_mem _ h)

theorem Muxed.branch (h : Muxed T m sel a b) (i : Int) :
    (m.signals.map (·.core T)).filter (atNode (some (sel.core T).name) (some i)) =
      (branchOf m.signals i).map (·.core T) := by
  unfold branchOf
  rw [List.filter_map]
  congr 1
  apply List.filter_congr
  intro s hs
  rw [h.split] at hs
  have : s = sel ∨ s ∈ a ++ b := by
    rcases List.mem_append.1 hs with h | h
    · exact .inr (List.mem_append_left _ h)
    · rcases List.mem_cons.1 h with h | h
      · exact .inl h
      · exact .inr (List.mem_append_right _ h)
  rcases this with rfl | hs
  · simp [atNode, DSignal.core, h.isSel.root.1, h.isSel.root.2]
  · rcases h.both s hs with h1 | ⟨h1, -⟩
    · simp [atNode, DSignal.core, h1.1, h1.2]
    · simp [atNode, DSignal.core, h1]

theorem Muxed.level (h : Muxed T m sel a b) : ∃ p q : List (DSignal F),
    (m.signals.map (·.core T)).filter (atNode none none) = p.map (·.core T) ++ sel.core T :: q.map (·.core T) ∧
    p ++ q = Sym.statics m.signals ∧ ∀ s ∈ p ++ q, s.name ≠ sel.name := by
  have key : ∀ l : List (DSignal F), (∀ s ∈ l, s ∈ a ++ b) → (l.map (·.core T)).filter (atNode none none) =
      (l.filter fun s => s.multiplexerIds.isNone).map (·.core T) := by
    intro l hl
    rw [List.filter_map]
    congr 1
    apply List.filter_congr
    intro s hs
    rcases h.both s (hl s hs) with h1 | ⟨h1, ids, -, h3, -⟩
    · simp [atNode, DSignal.core, h1.1, h1.2]
    · simp [atNode, DSignal.core, h1, h3]
  refine ⟨a.filter fun s => s.multiplexerIds.isNone, b.filter fun s => s.multiplexerIds.isNone, ?_, ?_, ?_⟩
  · rw [h.split, List.map_append, List.map_cons, List.filter_append, key a fun s hs => List.mem_append_left _ hs,
      List.filter_cons_of_pos (by simp [atNode, DSignal.core, h.isSel.root.1]),
      key b fun s hs => List.mem_append_right _ hs]
  · rw [h.statics, List.filter_append]
  · intro s hs
    rw [← List.filter_append] at hs
    exact h.names s (List.mem_filter.1 hs).1

theorem dumpBranches_flat (h : Muxed T m sel a b) (hnd : (m.signals.map (·.name)).Nodup) (ids : List Int)
    (first : Option Int) :
    ∃ texts, dumpBranches T m (((Sym.statics m.signals).map (·.core T)).map (·.name)) (sel.core T).name none first
      (treeOfBranches (Branches.ofList (flatBranches (m.signals.map (·.core T)) (sel.core T).name ids))) = .ok texts ∧
      List.Forall₂ TextOf texts (branchBlocks T m sel first ids) := by
  induction ids generalizing first with
  | nil => exact ⟨[], rfl, .nil⟩
  | cons i ids ih =>
    obtain ⟨texts, h1, h2⟩ := ih none
    obtain ⟨t, h3, h4⟩ := text_block (T := T) (m := m) (signals := branchOf m.signals i ++ Sym.statics m.signals)
      (first := first) (last := none) (mux := some (i, sel)) (fun _ => rfl)
      (by intro x hx; cases hx; exact h.isSel.name)
    refine ⟨t :: texts, ?_, .cons h4 h2⟩
    have hs : sel ∈ m.signals := by rw [h.split]; simp
    unfold flatBranches at h1 ⊢
    rw [List.map_cons, Branches.ofList, treeOfBranches, treeOfCodec, treeOfMuxes, treeOfSignals_nil, h.branch,
      dumpBranches]
    refine (bind_of_ok (branchNames_leaves _)).trans ?_
    refine (bind_of_ok (signalNamed_map T hnd fun s hs => (List.mem_filter.1 hs).1)).trans ?_
    refine (bind_of_ok (signalNamed_map T hnd fun s hs => (List.mem_filter.1 hs).1)).trans ?_
    refine (bind_of_ok (signalNamed_mem hnd hs)).trans ?_
    refine (bind_of_ok h3).trans ?_
    refine (bind_of_ok h1).trans ?_
    rfl

end

/-! ### The messages of one name -/

/-- The texts of the messages of one name. -/
theorem texts_group {T : FloatText F} {m : DMessage F} (hm : SymMessage T m) {last : Option Int}
    (hl : Plain m ∨ last = none) :
    ∃ texts, (do
      let tree ← signalTree T m
      let texts ← (if hasMux tree then dumpMuxes T m (plainNames tree) m.frameId last tree
        else (dumpMessage T m m.signals (some m.frameId) last none).map ([·]) : Except Err (List Chars))
      return (m.senders, texts)) = .ok (m.senders, texts) ∧ List.Forall₂ TextOf texts (blocksOf T m last) := by
  by_cases hp : Plain m
  · have h1 : signalTree T m = .ok (leaves (m.signals.map (·.core T))) := by
      unfold signalTree
      rw [codec_plain]
      · simp only [treeOfCodec, treeOfMuxes, treeOfSignals_nil]
      · intro c hc
        obtain ⟨s, hs, rfl⟩ := List.mem_map.1 hc
        simp [DSignal.core, (hp s hs).1, (hp s hs).2.1]
    have h2 : m.signals.find? (·.isMultiplexer) = none := by
      rw [List.find?_eq_none]
      intro s hs
      simp [(hp s hs).1]
    obtain ⟨t, h3, h4⟩ := text_block (T := T) (m := m) (signals := m.signals) (first := some m.frameId) (last := last)
      (mux := none) (by intro h; cases h) (by intro x hx; cases hx)
    refine ⟨[t], ?_, ?_⟩
    · refine (bind_of_ok h1).trans ?_
      rw [hasMux_leaves, h3]
      rfl
    · unfold blocksOf
      rw [h2]
      exact .cons h4 .nil
  · have hl := hl.resolve_left hp
    subst hl
    obtain ⟨sel, a, b, h⟩ := muxed_of hm.nodup (hm.mux.resolve_left hp)
    obtain ⟨texts, h1, h2⟩ := dumpBranches_flat h hm.nodup (idsOf m.signals) (some m.frameId)
    obtain ⟨p, q, h3, h4, h5⟩ := h.level
    refine ⟨texts, ?_, ?_⟩
    · have hlen : ∃ k, m.signals.length = k + 1 := by rw [h.split]; exact ⟨a.length + b.length, by simp; omega⟩
      obtain ⟨k, hk⟩ := hlen
      have h6 : signalTree T m = .ok (treeOfSignals [((sel.core T).name, treeOfBranches (Branches.ofList
          (flatBranches (m.signals.map (·.core T)) (sel.core T).name (idsOf m.signals))))]
          (p.map (·.core T) ++ sel.core T :: q.map (·.core T))) := by
        unfold signalTree
        rw [hk, codec_one h.selectors (by simp [DSignal.core, h.isSel.root.1]) (by rw [h.childrenIds]; exact h.idsOf_ne),
          h.childrenIds, h3]
        rfl
      have hn : ∀ l : List (DSignal F), (∀ s ∈ l, s ∈ p ++ q) → ∀ c ∈ l.map (·.core T), c.name ≠ (sel.core T).name := by
        intro l hl c hc
        obtain ⟨s, hs, rfl⟩ := List.mem_map.1 hc
        intro e
        exact h5 s (hl s hs) (String.ofList_injective e)
      have hnp := hn p fun s hs => List.mem_append_left _ hs
      have hnq := hn q fun s hs => List.mem_append_right _ hs
      refine (bind_of_ok h6).trans ?_
      rw [hasMux_level rfl hnp, if_pos rfl, plainNames_level rfl hnp hnq, ← List.map_append, h4]
      refine (bind_of_ok (dumpMuxes_level rfl hnp hnq h1)).trans ?_
      rfl
    · unfold blocksOf
      rw [h.find]
      exact h2

end Cantools.Sym
