import Verif.Lemmas.SymLoad

/-
Loading the messages of a written SYM file.
-/

namespace Cantools.Sym
open Cantools Cantools.Dbc Spec

variable {F : Type}

/-- The signals of a message as they are loaded. -/
def loadedSignals (T : FloatText F) (m : DMessage F) : List (DSignal F) :=
  match m.signals.find? (·.isMultiplexer) with
  | none => m.signals.map (keptSig T)
  | some sel => keptSig T sel :: (idsOf m.signals).flatMap fun i =>
      (branchOf m.signals i ++ statics m.signals).map fun s => keptSig T (withId sel.name i s)

/-- A message as it is loaded. -/
def loadedMessage (T : FloatText F) (m : DMessage F) : DMessage F :=
  { frameId := m.frameId, isExtendedFrame := m.isExtendedFrame, name := m.name, length := m.length
    senders := m.senders, cycleTime := m.cycleTime, comment := m.comment
    signals := sortByStartBit T (loadedSignals T m) }

/-- The library has the definitions of the signals of a message. -/
def HasSignals (T : FloatText F) (lib : Library F) (m : DMessage F) : Prop :=
  ∀ s ∈ m.signals, s.isMultiplexer = false → dictGet? lib s.name = some (defSignal T s)

theorem mapM_ok {α β : Type} {f : α → Except Err β} {g : α → β} {l : List α} (h : ∀ a ∈ l, f a = .ok (g a)) :
    l.mapM f = .ok (l.map g) := by
  induction l with
  | nil => rfl
  | cons a l ih =>
    rw [List.mapM_cons]
    exact (bind_of_ok (h a (by simp))).trans ((bind_of_ok (ih fun b hb => h b (List.mem_cons_of_mem _ hb))).trans rfl)

theorem loadInner_ok {T : FloatText F} {lib : Library F} {E : Enums} {m : DMessage F} {sigs : List (DSignal F)}
    (hs : ∀ s ∈ sigs, SymSignal s ∧ dictGet? lib s.name = some (defSignal T s) ∧ s.isMultiplexer = false)
    {first last : Option Int} {mx : Option (Int × DSignal F)} (mux : Option Chars) (ids : Option (List Int)) :
    loadInner T lib E mux ids (blockOf T m sigs first last mx) =
      .ok (sigs.map fun s => keptSig T { s with multiplexerIds := ids, multiplexerSignal := mux }) := by
  unfold loadInner
  rw [block_sigs, block_vars, List.mapM_map]
  have h : sigs.mapM (fun s => loadMessageSignal lib mux ids (signalName s, intText (convertStart s.start s.byteOrder))) =
      .ok (sigs.map fun s => keptSig T { s with multiplexerIds := ids, multiplexerSignal := mux }) :=
    mapM_ok fun s hx => loadMessageSignal_ok (hs s hx).1 (hs s hx).2.1 (hs s hx).2.2 mux ids
  refine (bind_of_ok h).trans ?_
  rw [List.mapM_nil]
  refine (bind_of_ok (x := .ok []) rfl).trans ?_
  rw [List.append_nil]
  rfl

theorem loadSelector_ok {T : FloatText F} {sel : DSignal F} (h : SymSelector T sel) (i : Int) :
    loadSelector (muxLineOf i sel) = .ok (keptSig T sel) := by
  unfold loadSelector muxLineOf
  dsimp only
  have ho : (if "-m".toList ∈ (if sel.byteOrder = .big then ["-m".toList] else []) then ByteOrder.big else ByteOrder.little) =
      sel.byteOrder := by cases sel.byteOrder <;> rfl
  rw [ho]
  refine (bind_of_ok (readInt_intText _)).trans ((bind_of_ok (readInt_decimal _)).trans ?_)
  rw [convertStart_twice]
  unfold keptSig defSignal
  rw [h.isMultiplexer, h.root.1, h.root.2, h.type.1, h.type.2, h.limits.1, h.limits.2, h.rest.1, h.rest.2.1, h.rest.2.2.1,
    h.rest.2.2.2, if_neg (by simp [h.scale]), if_neg (by simp [h.offset])]
  rfl

theorem loadMuxId_ok {i : Int} (h : 0 ≤ i) (s : DSignal F) : loadMuxId (muxLineOf i s) = .ok i := by
  unfold loadMuxId muxLineOf
  dsimp only
  rw [if_pos (by simp), List.dropLast_concat, readHex_hexText h]

section
variable {T : FloatText F} {m : DMessage F} {sel : DSignal F} {a b : List (DSignal F)}

theorem Muxed.branch_signals (h : Muxed T m sel a b) (i : Int) {s : DSignal F}
    (hs : s ∈ branchOf m.signals i ++ Sym.statics m.signals) : s ∈ m.signals ∧ s.isMultiplexer = false := by
  have hsel : s ∈ m.signals → s ≠ sel → s.isMultiplexer = false := by
    intro h1 h2
    apply h.plain
    rw [h.split] at h1
    simp only [List.mem_append, List.mem_cons] at h1 ⊢
    tauto
  rcases List.mem_append.1 hs with h1 | h1
  · obtain ⟨h2, h3⟩ := List.mem_filter.1 h1
    refine ⟨h2, hsel h2 ?_⟩
    rintro rfl
    rw [h.isSel.root.2] at h3
    simp at h3
  · obtain ⟨h2, h3⟩ := List.mem_filter.1 h1
    simp only [Bool.and_eq_true, Bool.not_eq_true'] at h3
    exact ⟨h2, h3.1⟩

theorem Muxed.inner (h : Muxed T m sel a b) (hm : SymMessage T m) {lib : Library F} (hl : HasSignals T lib m)
    {E : Enums} {first last : Option Int} {mx : Option (Int × DSignal F)} (i : Int) (n : Chars) :
    loadInner T lib E (some n) (some [i]) (blockOf T m (branchOf m.signals i ++ Sym.statics m.signals) first last mx) =
      .ok ((branchOf m.signals i ++ Sym.statics m.signals).map fun s => keptSig T (withId n i s)) := by
  refine loadInner_ok ?_ _ _
  intro s hs
  obtain ⟨h1, h2⟩ := h.branch_signals i hs
  exact ⟨hm.signals s h1, hl s h1 h2, h2⟩

theorem same_refl (b : Block) : b.same b = true := by simp [Block.same]

theorem same_ids {x b : Block} (h : x.ids ≠ b.ids) : x.same b = false := by simp [Block.same, h]

theorem others_filter {c : Block} (hi : c.ids ≠ []) (ids : List Int) :
    (branchBlocks T m sel none ids).filter (fun x => !x.same c) = branchBlocks T m sel none ids := by
  rw [List.filter_eq_self]
  intro x hx
  have : x.ids = [] := by
    clear hi
    induction ids with
    | nil => cases hx
    | cons i r ih =>
      rw [branchBlocks] at hx
      rcases List.mem_cons.1 hx with rfl | hx
      · rw [block_ids]
      · exact ih hx
  rw [same_ids (by rw [this]; exact fun e => hi e.symm)]
  rfl

theorem others_ok (h : Muxed T m sel a b) (hm : SymMessage T m) {lib : Library F} (hl : HasSignals T lib m)
    {E : Enums} (n : Chars) {ids : List Int} (hids : ∀ i ∈ ids, 0 ≤ i) :
    ((branchBlocks T m sel none ids).mapM fun x => do
      let lx ← firstMux x
      let id ← loadMuxId lx
      loadInner T lib E (some n) (some [id]) x) = .ok (ids.map fun i =>
        (branchOf m.signals i ++ Sym.statics m.signals).map fun s => keptSig T (withId n i s)) := by
  induction ids with
  | nil => rfl
  | cons i r ih =>
    rw [branchBlocks, List.mapM_cons]
    have hf : firstMux (blockOf T m (branchOf m.signals i ++ Sym.statics m.signals) none none (some (i, sel))) =
        .ok (muxLineOf i sel) := by unfold firstMux; rw [block_muxes]
    have h1 := (bind_of_ok (f := fun lx => do
      let id ← loadMuxId lx
      loadInner T lib E (some n) (some [id])
        (blockOf T m (branchOf m.signals i ++ Sym.statics m.signals) none none (some (i, sel)))) hf).trans
      ((bind_of_ok (loadMuxId_ok (hids i (by simp)) sel)).trans (h.inner hm hl i n))
    exact (bind_of_ok h1).trans ((bind_of_ok (ih fun x hx => hids x (List.mem_cons_of_mem _ hx))).trans rfl)

/-- The signals of a message are loaded from its first block. -/
theorem loadMessageSignals_ok (hm : SymMessage T m) {lib : Library F} (hl : HasSignals T lib m) {E : Enums}
    {blocks : List Block} {last : Option Int} (hlast : Plain m ∨ last = none)
    (hb : blocks.filter (fun x => decide (x.name = m.name)) = blocksOf T m last) :
    ∃ c rest, blocksOf T m last = c :: rest ∧ c.name = m.name ∧ c.ids = [idLineOf m m.frameId last] ∧
      c.lens = [decimal m.length] ∧
      c.cycleTimes = (match m.cycleTime with | none => [] | some n => if n.value T ≠ 0 then [(n.text T, none)] else []) ∧
      c.types = (if m.isExtendedFrame then ["Extended".toList] else []) ∧ (∀ x ∈ rest, x.ids = []) ∧
      loadMessageSignals T lib E blocks c = .ok (loadedSignals T m) := by
  rcases hm.mux with hp | ho
  · have hf : m.signals.find? (·.isMultiplexer) = none := by
      rw [List.find?_eq_none]
      intro s hs
      simp [(hp s hs).1]
    refine ⟨blockOf T m m.signals (some m.frameId) last none, [], ?_, rfl, block_ids, block_lens, block_cycleTimes,
      block_types, by simp, ?_⟩
    · unfold blocksOf; rw [hf]
    · unfold loadMessageSignals loadedSignals
      rw [block_muxes, if_neg (by simp), hf]
      rw [loadInner_ok fun s hs => ⟨hm.signals s hs, hl s hs (hp s hs).1, (hp s hs).1⟩]
      congr 1
      apply List.map_congr_left
      intro s hs
      have e1 := (hp s hs).2.1
      have e2 := (hp s hs).2.2
      unfold keptSig defSignal
      rw [e1, e2]
  · obtain ⟨sel, a, b, h⟩ := muxed_of hm.nodup ho
    have hlast : last = none := by
      refine hlast.resolve_left fun hp => ?_
      have hs : sel ∈ m.signals := by rw [h.split]; simp
      have := (hp sel hs).1
      rw [h.isSel.isMultiplexer] at this
      cases this
    subst hlast
    have hbl : blocksOf T m none = branchBlocks T m sel (some m.frameId) (idsOf m.signals) := by
      unfold blocksOf; rw [h.find]
    rw [hbl] at hb ⊢
    unfold loadedSignals
    rw [h.find]
    dsimp only
    have hids : ∀ i ∈ idsOf m.signals, 0 ≤ i := fun i hi => (h.mem_ids hi).1
    cases hi : idsOf m.signals with
    | nil => exact absurd hi h.idsOf_ne
    | cons i r =>
      rw [hi] at hb hids
      rw [branchBlocks] at hb ⊢
      refine ⟨_, _, rfl, rfl, block_ids, block_lens, block_cycleTimes, block_types, ?_, ?_⟩
      · intro x hx
        clear hb hids hi hbl
        induction r with
        | nil => cases hx
        | cons j r ih =>
          rw [branchBlocks] at hx
          rcases List.mem_cons.1 hx with rfl | hx
          · rw [block_ids]
          · exact ih hx
      · unfold loadMessageSignals
        rw [block_muxes, if_pos (by simp)]
        unfold loadMuxed
        have hf : firstMux (blockOf T m (branchOf m.signals i ++ Sym.statics m.signals) (some m.frameId) none
            (some (i, sel))) = .ok (muxLineOf i sel) := by unfold firstMux; rw [block_muxes]
        refine (bind_of_ok hf).trans ((bind_of_ok (loadSelector_ok h.isSel i)).trans
          ((bind_of_ok (loadMuxId_ok (hids i (by simp)) sel)).trans ?_))
        have hn : (muxLineOf i sel).name = sel.name := rfl
        rw [hn]
        refine (bind_of_ok (h.inner hm hl i _)).trans ?_
        rw [← List.filter_filter, block_name]
        have hfil : (blocks.filter fun x => decide (x.name = m.name)).filter
            (fun x => !x.same (blockOf T m (branchOf m.signals i ++ Sym.statics m.signals) (some m.frameId) none
              (some (i, sel)))) = branchBlocks T m sel none r := by
          rw [hb, List.filter_cons_of_neg (by simp [same_refl])]
          exact others_filter (by rw [block_ids]; simp) r
        rw [← List.filter_comm, hfil]
        refine (bind_of_ok (others_ok h hm hl _ fun x hx => hids x (List.mem_cons_of_mem _ hx))).trans ?_
        rw [List.flatMap_cons, ← List.flatMap_def]
        rfl

end

/-! ### Frame ids -/

theorem idText_length {m : DMessage F} {i : Int} (h : ValidFrameId i m.isExtendedFrame) (hs : m.isExtendedFrame = false) :
    (idText m i).length ≠ 9 := by
  rw [hs] at h
  obtain ⟨h1, h2⟩ := h
  unfold idText
  rw [hexText_nonneg h1, hs]
  have h2 : i < 2 ^ 11 := h2
  have := hexadecimal_length (n := i.toNat) (w := 3) (by omega) (by omega)
  simp only [List.length_append, List.length_replicate, List.length_singleton, Bool.false_eq_true, if_false]
  omega

theorem loadFrameIds_ok {T : FloatText F} {m : DMessage F} (hm : SymMessage T m) {last : Option Int}
    (hlast : ∀ j, last = some j → 0 ≤ j) {c : Block}
    (ht : c.types = if m.isExtendedFrame then ["Extended".toList] else []) :
    loadFrameIds c (idLineOf m m.frameId last) = .ok (pyRange m.frameId (last.getD m.frameId), m.isExtendedFrame) := by
  have hdrop : ∀ i : Int, 0 ≤ i → readHex (idText m i).dropLast = .ok i := by
    intro i hi
    unfold idText
    rw [List.dropLast_concat, readHex_hexText hi]
  unfold loadFrameIds idLineOf
  refine (bind_of_ok (hdrop _ hm.id.1)).trans ?_
  have hl : (match last.map fun j => '-' :: idText m j with
      | none => .ok m.frameId
      | some t => readHex (t.drop 1).dropLast : Except Err Int) = .ok (last.getD m.frameId) := by
    cases last with
    | none => rfl
    | some j => exact hdrop j (hlast j rfl)
  refine (bind_of_ok hl).trans ?_
  dsimp only
  rw [ht]
  cases he : m.isExtendedFrame with
  | true =>
    have : (decide ((idText m m.frameId).length = 9) ||
        decide (lower ((if true = true then ["Extended".toList] else []).head?.getD "Standard".toList) = "extended".toList) ||
        decide (lower ((if true = true then ["Extended".toList] else []).head?.getD "Standard".toList) = "fdextended".toList)) =
        true := by
      rw [show decide (lower ((if true = true then ["Extended".toList] else []).head?.getD "Standard".toList) =
        "extended".toList) = true by decide]
      simp
    rw [this]
    rfl
  | false =>
    have h1 : decide ((idText m m.frameId).length = 9) = false := decide_eq_false (idText_length hm.id he)
    rw [h1]
    rfl

/-! ### Messages -/

/-- The message that is constructed with the loaded signals. -/
def Constructible (T : FloatText F) (strict : Bool) (m : DMessage F) : Prop :=
  ∃ msg, Message.create m.frameId (String.ofList m.name) m.length ((loadedSignals T m).map (·.core T)) 0xff
    m.isExtendedFrame strict = .ok msg

theorem loadMessage_ok {T : FloatText F} (L : FloatLaws T) {strict : Bool} {m : DMessage F} (hm : SymMessage T m)
    (hc : Constructible T strict m) {lib : Library F} {E : Enums} {blocks : List Block} {c : Block}
    {last : Option Int} {lead : Int} (h1 : c.name = m.name) (h2 : c.lens = [decimal m.length])
    (h3 : c.cycleTimes = (match m.cycleTime with | none => [] | some n => if n.value T ≠ 0 then [(n.text T, none)] else []))
    (h4 : loadMessageSignals T lib E blocks c = .ok (loadedSignals T m)) :
    loadMessage T strict lib E m.senders blocks c (idLineOf m lead last) m.frameId m.isExtendedFrame =
      .ok (loadedMessage T m) := by
  unfold loadMessage
  have e1 : (match c.lens with
    | [] => .ok 8
    | t :: _ => readInt t : Except Err Int) = .ok (m.length : Int) := by
    rw [h2]
    exact readInt_decimal _
  refine (bind_of_ok e1).trans ?_
  have e2 : (match c.cycleTimes with
    | [] => .ok none
    | t :: _ => (num T t.1).map some : Except Err (Option (Num F))) = .ok m.cycleTime := by
    rw [h3]
    cases hn : m.cycleTime with
    | none => rfl
    | some n =>
      dsimp only
      rw [if_pos (hm.cycleTime n hn)]
      dsimp only
      rw [num_text L]
      rfl
  refine (bind_of_ok e2).trans ((bind_of_ok h4).trans ?_)
  obtain ⟨msg, hmsg⟩ := hc
  rw [h1, Int.toNat_natCast]
  refine (bind_of_ok hmsg).trans ?_
  unfold loadedMessage idLineOf
  have e3 : (m.comment.map fun c => commentText (' ' :: c)).map loadComment = m.comment := by
    cases hcm : m.comment with
    | none => rfl
    | some x =>
      have := hm.comment x hcm
      rw [Option.map_some, Option.map_some, loadComment_text this.2 this.1]
  show Except.ok _ = _
  dsimp only
  rw [e3]

theorem loadedSignals_frameId (T : FloatText F) (m : DMessage F) (i : Int) :
    loadedSignals T { m with frameId := i } = loadedSignals T m := rfl

/-! ### Sections -/

theorem filter_blocks {T : FloatText F} {gs : List (Group F)} (hd : gs.Pairwise fun a b => a.lead.name ≠ b.lead.name)
    {g : Group F} (hg : g ∈ gs) :
    (gs.flatMap (groupBlocks T)).filter (fun x => decide (x.name = g.lead.name)) = groupBlocks T g := by
  have hname : ∀ g : Group F, ∀ x ∈ groupBlocks T g, x.name = g.lead.name := by
    intro g x hx
    unfold groupBlocks blocksOf at hx
    split at hx
    · rw [List.mem_singleton] at hx; rw [hx]; rfl
    · generalize some g.lead.frameId = first at hx
      generalize idsOf g.lead.signals = ids at hx
      induction ids generalizing first with
      | nil => cases hx
      | cons i r ih =>
        rw [branchBlocks] at hx
        rcases List.mem_cons.1 hx with rfl | hx
        · rfl
        · exact ih _ hx
  induction gs with
  | nil => cases hg
  | cons y gs ih =>
    rw [List.pairwise_cons] at hd
    rw [List.flatMap_cons, List.filter_append]
    rcases List.mem_cons.1 hg with rfl | hg
    · have h1 : (groupBlocks T g).filter (fun x => decide (x.name = g.lead.name)) = groupBlocks T g := by
        rw [List.filter_eq_self]
        intro x hx
        simpa using hname g x hx
      have h2 : (gs.flatMap (groupBlocks T)).filter (fun x => decide (x.name = g.lead.name)) = [] := by
        rw [List.filter_eq_nil_iff]
        intro x hx
        obtain ⟨z, hz, hxz⟩ := List.mem_flatMap.1 hx
        simpa using fun h => hd.1 z hz (h.symm.trans (hname z x hxz))
      rw [h1, h2, List.append_nil]
    · have h1 : (groupBlocks T y).filter (fun x => decide (x.name = g.lead.name)) = [] := by
        rw [List.filter_eq_nil_iff]
        intro x hx
        simpa using fun h => hd.1 g hg ((hname y x hx).symm.trans h)
      rw [h1, List.nil_append]
      exact ih hd.2 hg

theorem mapM_flatMap {α β γ : Type} {f : β → Except Err (List γ)} {B : α → List β} {k : α → List γ} {l : List α}
    (h : ∀ a ∈ l, ∃ r, (B a).mapM f = .ok r ∧ r.flatten = k a) :
    ∃ R, (l.flatMap B).mapM f = .ok R ∧ R.flatten = l.flatMap k := by
  induction l with
  | nil => exact ⟨[], rfl, rfl⟩
  | cons a l ih =>
    obtain ⟨r, h1, h2⟩ := h a (by simp)
    obtain ⟨R, h3, h4⟩ := ih fun b hb => h b (List.mem_cons_of_mem _ hb)
    refine ⟨r ++ R, ?_, ?_⟩
    · rw [List.flatMap_cons, List.mapM_append]
      exact (bind_of_ok h1).trans ((bind_of_ok h3).trans rfl)
    · rw [List.flatten_append, List.flatMap_cons, h2, h4]

/-- The messages of a group in the order in which they are read. -/
def Group.read (g : Group F) : List (DMessage F) :=
  (pyRange g.lead.frameId (g.last.getD g.lead.frameId)).map fun i => { g.lead with frameId := i }

theorem GoodGroup.read_perm {T : FloatText F} {g : Group F} (G : GoodGroup T g) : g.read.Perm g.all := by
  have h1 : g.read = ((List.range g.all.length).map fun k : Nat => g.lead.frameId + (k : Int)).map
      fun i => { g.lead with frameId := i } := by
    unfold Group.read
    congr 1
    unfold pyRange
    congr 2
    rw [G.last]
    split
    · rename_i h
      simp [Group.all, h]
    · simp only [Option.getD_some, Group.all, List.length_cons]
      omega
  rw [h1]
  refine (G.ids.map _).symm.trans ?_
  rw [List.map_map]
  refine (List.Perm.of_eq ?_)
  conv_rhs => rw [← List.map_id g.all]
  apply List.map_congr_left
  intro x hx
  exact (G.same x hx).symm

theorem loadSection_ok {T : FloatText F} (L : FloatLaws T) {strict : Bool} {lib : Library F} {E : Enums}
    {gs : List (Group F)} (hG : ∀ g ∈ gs, GoodGroup T g) (hall : ∀ g ∈ gs, ∀ x ∈ g.all, SymMessage T x)
    (hc : ∀ g ∈ gs, ∀ x ∈ g.all, Constructible T strict x) (hl : ∀ g ∈ gs, HasSignals T lib g.lead)
    (hd : gs.Pairwise fun a b => a.lead.name ≠ b.lead.name) {senders : List Chars}
    (hs : ∀ g ∈ gs, g.lead.senders = senders) :
    loadSection T strict lib E senders (gs.flatMap (groupBlocks T)) =
      .ok ((gs.flatMap Group.read).map (loadedMessage T)) := by
  have key : ∀ g ∈ gs, ∃ r, (groupBlocks T g).mapM (fun b => match b.ids with
      | [] => (.ok [] : Except Err (List (DMessage F)))
      | l :: _ => do
        let (ids, extended) ← loadFrameIds b l
        ids.mapM fun i => loadMessage T strict lib E senders (gs.flatMap (groupBlocks T)) b l i extended) = .ok r ∧
      r.flatten = g.read.map (loadedMessage T) := by
    intro g hg
    have G := hG g hg
    obtain ⟨c, rest, h0, h1, h2, h3, h4, h5, h6, h7⟩ :=
      loadMessageSignals_ok G.lead (hl g hg) (E := E) G.plain (filter_blocks hd hg)
    have hfirst : (do
        let (ids, extended) ← loadFrameIds c (idLineOf g.lead g.lead.frameId g.last)
        ids.mapM fun i => loadMessage T strict lib E senders (gs.flatMap (groupBlocks T)) c
          (idLineOf g.lead g.lead.frameId g.last) i extended : Except Err (List (DMessage F))) =
        .ok (g.read.map (loadedMessage T)) := by
      refine (bind_of_ok (loadFrameIds_ok G.lead (fun j hj => (G.lastId (hall g hg) hj).1) h5)).trans ?_
      dsimp only
      unfold Group.read
      rw [List.map_map]
      refine mapM_ok fun i hi => ?_
      have hx : { g.lead with frameId := i } ∈ g.all := by
        rw [← G.read_perm.mem_iff]
        exact List.mem_map.2 ⟨i, hi, rfl⟩
      rw [← hs g hg]
      exact loadMessage_ok L (hall g hg _ hx) (hc g hg _ hx) h1 h3 h4 h7
    have hrest : rest.mapM (fun b => match b.ids with
      | [] => (.ok [] : Except Err (List (DMessage F)))
      | l :: _ => do
        let (ids, extended) ← loadFrameIds b l
        ids.mapM fun i => loadMessage T strict lib E senders (gs.flatMap (groupBlocks T)) b l i extended) =
        .ok (rest.map fun _ => []) := by
      refine mapM_ok fun x hx => ?_
      rw [h6 x hx]
    refine ⟨g.read.map (loadedMessage T) :: rest.map fun _ => [], ?_, ?_⟩
    · unfold groupBlocks
      rw [h0, List.mapM_cons]
      have : (match c.ids with
          | [] => (.ok [] : Except Err (List (DMessage F)))
          | l :: _ => do
            let (ids, extended) ← loadFrameIds c l
            ids.mapM fun i => loadMessage T strict lib E senders (gs.flatMap (groupBlocks T)) c l i extended) =
          .ok (g.read.map (loadedMessage T)) := by
        rw [h2]
        exact hfirst
      exact (bind_of_ok this).trans ((bind_of_ok hrest).trans rfl)
    · rw [List.flatten_cons]
      have : (rest.map fun _ => ([] : List (DMessage F))).flatten = [] := by simp
      rw [this, List.append_nil]
  obtain ⟨R, h1, h2⟩ := mapM_flatMap key
  unfold loadSection
  refine (bind_of_ok h1).trans ?_
  rw [h2, List.map_flatMap]
  rfl

/-! ### The whole file -/

section
variable (c : Content) (v : Chars)

theorem flatMap_sectionsOf {α β : Type} (f : List (Option α) → Section) (l : List α) (p : Section → List β) :
    (sectionsOf f l).flatMap p = if l = [] then [] else p (f (l.map some)) := by
  unfold sectionsOf
  cases l <;> simp

theorem filterMap_some {α : Type} (l : List α) : (l.map some).filterMap id = l := by
  induction l with
  | nil => rfl
  | cons a l ih => simp

theorem doc_enums : ({ version := v, sections := c.sections } : Doc).enums = c.enums := by
  unfold Doc.enums Content.sections
  simp only [List.flatMap_append, flatMap_sectionsOf, filterMap_some, ite_self, List.append_nil]
  split <;> simp_all

theorem doc_signals : ({ version := v, sections := c.sections } : Doc).signals = c.signals := by
  unfold Doc.signals Content.sections
  simp only [List.flatMap_append, flatMap_sectionsOf, filterMap_some, ite_self, List.append_nil, List.nil_append]
  split <;> simp_all

theorem doc_send : ({ version := v, sections := c.sections } : Doc).send = c.send := by
  unfold Doc.send Content.sections
  simp only [List.flatMap_append, flatMap_sectionsOf, filterMap_some, ite_self, List.append_nil, List.nil_append]
  split <;> simp_all

theorem doc_receive : ({ version := v, sections := c.sections } : Doc).receive = c.receive := by
  unfold Doc.receive Content.sections
  simp only [List.flatMap_append, flatMap_sectionsOf, filterMap_some, ite_self, List.append_nil, List.nil_append]
  split <;> simp_all

theorem doc_sendReceive : ({ version := v, sections := c.sections } : Doc).sendReceive = c.sendReceive := by
  unfold Doc.sendReceive Content.sections
  simp only [List.flatMap_append, flatMap_sectionsOf, filterMap_some, ite_self, List.nil_append]
  split <;> simp_all

end

theorem firstByName_covers {g : List Chars} {l : List (DSignal F)} {s : DSignal F} (hs : s ∈ l) :
    s.name ∈ g ∨ ∃ x ∈ firstByName g l, x.name = s.name := by
  induction l generalizing g with
  | nil => cases hs
  | cons x l ih =>
    rw [firstByName]
    rcases List.mem_cons.1 hs with rfl | hs
    · split
      · left; assumption
      · right; exact ⟨s, by simp, rfl⟩
    · split
      · exact ih hs
      · rcases ih (g := x.name :: g) hs with h | ⟨y, hy, hye⟩
        · rcases List.mem_cons.1 h with h | h
          · right; exact ⟨x, by simp, h.symm⟩
          · left; exact h
        · right; exact ⟨y, List.mem_cons_of_mem _ hy, hye⟩

theorem firstSignals_covers {sort : List (DSignal F) → List (DSignal F)} (hs : ∀ l, (sort l).Perm l)
    {db : DDatabase F} {m : DMessage F} (hm : m ∈ db.messages) {s : DSignal F} (h : s ∈ m.signals) :
    ∃ x ∈ firstSignals sort db, x.name = s.name := by
  have : s ∈ db.messages.flatMap fun m => sort m.signals := List.mem_flatMap.2 ⟨m, hm, (hs _).mem_iff.2 h⟩
  rcases firstByName_covers (g := []) this with h | h
  · cases h
  · exact h

/-- The messages of the database in the order in which they are read. -/
def readOrder (db : DDatabase F) : List (DMessage F) :=
  let part (p : List Chars → Bool) := ((groupsOf db.messages).filter fun g => p g.lead.senders).flatMap Group.read
  part (fun l => decide (l = [ecu])) ++ part (fun l => decide (l = [peripherals])) ++
    part fun l => !decide (l = [ecu]) && !decide (l = [peripherals])

theorem readOrder_perm {T : FloatText F} {db : DDatabase F} (W : SymDatabase T db) :
    (readOrder db).Perm db.messages := by
  have hp : ∀ gs : List (Group F), (gs.filter (fun g => decide (g.lead.senders = [ecu])) ++
      gs.filter (fun g => decide (g.lead.senders = [peripherals])) ++
      gs.filter fun g => !decide (g.lead.senders = [ecu]) && !decide (g.lead.senders = [peripherals])).Perm gs := by
    intro gs
    have h1 := List.filter_append_perm (fun g : Group F => decide (g.lead.senders = [ecu])) gs
    have h2 := List.filter_append_perm (fun g : Group F => decide (g.lead.senders = [peripherals]))
      (gs.filter fun g => !decide (g.lead.senders = [ecu]))
    rw [List.append_assoc]
    refine List.Perm.trans ?_ h1
    refine List.Perm.append_left _ ?_
    refine List.Perm.trans ?_ h2
    rw [List.filter_filter, List.filter_filter]
    refine List.Perm.of_eq ?_
    congr 1
    · apply List.filter_congr
      intro g _
      by_cases h : g.lead.senders = [peripherals]
      · rw [h]; decide
      · simp [h]
    · apply List.filter_congr
      intro g _
      rw [Bool.and_comm]
  unfold readOrder
  dsimp only
  rw [← List.flatMap_append, ← List.flatMap_append]
  refine ((hp (groupsOf db.messages)).flatMap_right Group.read).trans ?_
  refine List.Perm.trans ?_ (groupsOf_flat (l := db.messages))
  apply List.Perm.flatMap_left
  intro g hg
  exact (goodGroup W hg).read_perm

/-- The written text of a database is read as the database, up to what is not kept. -/
theorem load_dump {T : FloatText F} (L : FloatLaws T) {sort : List (DSignal F) → List (DSignal F)}
    (hs : ∀ l, (sort l).Perm l) {db : DDatabase F} (W : SymDatabase T db) {strict : Bool}
    (hc : ∀ m ∈ db.messages, Constructible T strict m) :
    ∃ text, dumpString T sort db = .ok text ∧ loadString T strict text =
      .ok { messages := (readOrder db).map (loadedMessage T), version := some "6.0".toList } := by
  obtain ⟨text, h1, h2⟩ := load_text L hs W (strict := strict)
  refine ⟨text, h1, h2.trans ?_⟩
  unfold loadDoc
  rw [doc_enums, doc_signals, doc_send, doc_receive, doc_sendReceive]
  -- enumerations
  have hfs := fun {s : DSignal F} (h : s ∈ firstSignals id db) => mem_firstSignals (fun l => List.Perm.refl l) h
  obtain ⟨E, hE, hE'⟩ := loadEnums_ok (l := firstSignals id db)
    (fun s h => by obtain ⟨m, hm, h⟩ := hfs h; exact (W.messages m hm).signals s h)
    (by
      intro s h s' h' cs cs' e e' en
      obtain ⟨m, hm, h⟩ := hfs h
      obtain ⟨m', hm', h'⟩ := hfs h'
      rw [enumName_eq ((W.messages m hm).signals s h), enumName_eq ((W.messages m' hm').signals s' h')] at en
      exact W.enums m hm s h m' hm' s' h' cs cs' e e' (List.append_cancel_right en))
  refine (bind_of_ok hE).trans ?_
  have hEall : ∀ m ∈ db.messages, ∀ s ∈ m.signals, ∀ cs, s.choices = some cs → dictGet? E (enumName s) = some cs := by
    intro m hm s h cs hcs
    obtain ⟨x, hx, hxn⟩ := firstSignals_covers (sort := id) (fun l => List.Perm.refl l) hm h
    have hen : enumName x = enumName s := by unfold enumName signalName; rw [hxn]
    obtain ⟨m', hm', hx'⟩ := hfs hx
    have hsel : s.isMultiplexer = false := by
      rcases (W.messages m hm).mux with hp | ho
      · exact (hp s h).1
      · obtain ⟨sel, -, h1, -, h3⟩ := ho
        by_cases e : s = sel
        · rw [e, h1.rest.2.2.1] at hcs; cases hcs
        · exact (h3 s h e).1
    have hsame := W.signals m hm s h hsel m' hm' x hx' hxn
    have : x.choices = some cs := by rw [hsame]; exact hcs
    rw [← hen]
    exact hE' x hx cs this
  -- signals
  obtain ⟨lib, hlib, hlib'⟩ := loadSignals_ok L (l := firstSignals sort db) (E := E)
    (fun s h => by obtain ⟨m, hm, h⟩ := mem_firstSignals hs h; exact (W.messages m hm).signals s h)
    (fun s h cs hcs => by obtain ⟨m, hm, h⟩ := mem_firstSignals hs h; exact hEall m hm s h cs hcs)
  refine (bind_of_ok hlib).trans ?_
  have hhas : ∀ m ∈ db.messages, HasSignals T lib m := by
    intro m hm s h hsel
    refine hlib' _ _ (firstSignals_covers hs hm h) ?_
    intro x hx hxn
    obtain ⟨m', hm', hx'⟩ := mem_firstSignals hs hx
    exact defSignal_congr (W.signals m hm s h hsel m' hm' x hx' hxn)
  -- messages
  have hsec : ∀ (p : List Chars → Bool) (senders : List Chars),
      (∀ m ∈ db.messages, p m.senders = true → m.senders = senders) →
      loadSection T strict lib E senders (sectionBlocks T db p) =
        .ok ((((groupsOf db.messages).filter fun g => p g.lead.senders).flatMap Group.read).map (loadedMessage T)) := by
    intro p senders hp
    have hmem : ∀ g ∈ (groupsOf db.messages).filter fun g => p g.lead.senders,
        g ∈ groupsOf db.messages ∧ p g.lead.senders = true := fun g hg => List.mem_filter.1 hg
    have hlead : ∀ g ∈ groupsOf db.messages, g.lead ∈ db.messages := fun g hg => group_mem hg (goodGroup W hg).mem
    unfold sectionBlocks
    refine loadSection_ok L (fun g hg => goodGroup W (hmem g hg).1)
      (fun g hg x hx => W.messages x (group_mem (hmem g hg).1 hx)) (fun g hg x hx => hc x (group_mem (hmem g hg).1 hx))
      (fun g hg => hhas _ (hlead g (hmem g hg).1)) ?_ (fun g hg => hp _ (hlead g (hmem g hg).1) (hmem g hg).2)
    have hd := (groupsOf_distinct (l := db.messages)).filter fun g => p g.lead.senders
    refine hd.imp_of_mem ?_
    intro x y hx hy hne
    have e1 := mem_all_name (hmem x hx).1 (goodGroup W (hmem x hx).1).mem
    have e2 := mem_all_name (hmem y hy).1 (goodGroup W (hmem y hy).1).mem
    rw [e1, e2]
    exact hne
  refine (bind_of_ok (hsec (fun l => decide (l = [ecu])) [ecu] fun m _ h => of_decide_eq_true h)).trans ?_
  refine (bind_of_ok (hsec (fun l => decide (l = [peripherals])) [peripherals] fun m _ h => of_decide_eq_true h)).trans ?_
  refine (bind_of_ok (hsec (fun l => !decide (l = [ecu]) && !decide (l = [peripherals])) [ecu, peripherals] ?_)).trans ?_
  · intro m hm h
    simp only [Bool.and_eq_true, Bool.not_eq_true', decide_eq_false_iff_not] at h
    rcases (W.messages m hm).senders with e | e | e
    · exact absurd e h.1
    · exact absurd e h.2
    · exact e
  · unfold readOrder
    simp only [List.map_append]
    rfl

end Cantools.Sym
