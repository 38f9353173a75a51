import Verif.Lemmas.SymKept
/-
The lines of signals in the text of a SYM file (C48).
-/

namespace Cantools.Sym
open Cantools Spec Dbc

variable {F : Type}

theorem symBit_unique {o : ByteOrder} {start k k' : Nat} (h : SymBit o start k) (h' : SymBit o start k') : k = k' := by
  cases o with
  | little => exact h.trans (Eq.symm h')
  | big =>
    obtain ⟨h1, h2⟩ := h
    obtain ⟨h3, h4⟩ := h'
    omega

theorem convertStart_bit (start : Nat) (o : ByteOrder) :
    ∃ k, SymBit o start k ∧ intText (convertStart start o) = decimal k := by
  cases o with
  | little => exact ⟨start, rfl, rfl⟩
  | big =>
    refine ⟨8 * (start / 8) + (7 - start % 8), ⟨by omega, by omega⟩, ?_⟩
    have : convertStart (start : Int) .big = ((8 * (start / 8) + (7 - start % 8) : Nat) : Int) := by
      simp only [convertStart]
      omega
    rw [this]
    rfl

theorem infix_flatMap {α β : Type} (f : α → List β) {l : List α} {a : α} (h : a ∈ l) : f a <:+: l.flatMap f := by
  obtain ⟨x, y, rfl⟩ := List.append_of_mem h
  exact ⟨x.flatMap f, y.flatMap f, by simp⟩

theorem textOf_infix {a b : List Piece} (h : a <:+: b) : textOf a <:+: textOf b := by
  obtain ⟨x, y, rfl⟩ := h
  exact ⟨textOf x, textOf y, by simp only [textOf_append]⟩

theorem section_infix {header : String} {l : List Block} {b : Block} (h : b ∈ l) :
    blockPieces b <:+: sectionPieces header blockPieces l := by
  unfold sectionPieces
  rw [if_neg (by cases l; cases h; simp)]
  exact (infix_flatMap blockPieces h).trans (List.suffix_append _ _).isInfix

/-- A line of a block of a message is in the text. -/
theorem line_infix {T : FloatText F} {sort : List (DSignal F) → List (DSignal F)} {db : DDatabase F} {g : Group F}
    (hg : g ∈ groupsOf db.messages) {b : Block} (hb : b ∈ groupBlocks T g) {l : Line} (hl : l ∈ b.lines) :
    textOf (linePieces l) <:+: textOf (contentOf T sort db).pieces := by
  apply textOf_infix
  have h1 : linePieces l <:+: blockPieces b := by
    unfold blockPieces
    exact ((infix_flatMap linePieces hl).trans (List.prefix_append _ _).isInfix).trans (List.suffix_append _ _).isInfix
  refine h1.trans ?_
  unfold Content.pieces
  have hm : ∀ p : List Chars → Bool, p g.lead.senders = true → b ∈ sectionBlocks T db p := fun p hp =>
    List.mem_flatMap.2 ⟨g, List.mem_filter.2 ⟨hg, hp⟩, hb⟩
  have r := fun (x y : List Piece) => (List.suffix_append x y).isInfix
  have s := fun (x y : List Piece) => (List.prefix_append x y).isInfix
  by_cases e1 : g.lead.senders = [ecu]
  · exact ((((section_infix (hm (fun l => decide (l = [ecu])) (by simp [e1]))).trans (s _ _)).trans (r _ _)).trans (r _ _)).trans (r _ _)
  · by_cases e2 : g.lead.senders = [peripherals]
    · exact (((((section_infix (hm (fun l => decide (l = [peripherals])) (by simp [e2]))).trans (s _ _)).trans (r _ _)).trans (r _ _)).trans (r _ _)).trans (r _ _)
    · exact (((((section_infix (hm (fun l => !decide (l = [ecu]) && !decide (l = [peripherals])) (by simp [e1, e2]))).trans (r _ _)).trans (r _ _)).trans (r _ _)).trans (r _ _)).trans (r _ _)

theorem branch_written {T : FloatText F} {m : DMessage F} {sel : DSignal F} {i : Int} : ∀ {ids : List Int} {first : Option Int},
    i ∈ ids → ∃ f, blockOf T m (branchOf m.signals i ++ statics m.signals) f none (some (i, sel)) ∈ branchBlocks T m sel first ids
  | j :: r, first, h => by
    unfold branchBlocks
    by_cases e : i = j
    · subst e
      exact ⟨first, List.mem_cons_self ..⟩
    · obtain ⟨f, hf⟩ := branch_written (first := none) ((List.mem_cons.1 h).resolve_left e)
      exact ⟨f, List.mem_cons_of_mem _ hf⟩

/-- The lines of a message: each signal has one, the selector one for every multiplexer id. -/
theorem lines_of_message {T : FloatText F} {m : DMessage F} (hm : SymMessage T m) (last : Option Int) {s : DSignal F}
    (hs : s ∈ m.signals) :
    (s.isMultiplexer = false → ∃ b ∈ blocksOf T m last, Line.sig (signalName s) (intText (convertStart s.start s.byteOrder)) ∈ b.lines) ∧
    (s.isMultiplexer = true → ∀ x ∈ m.signals, ∀ ids, x.multiplexerIds = some ids → ∀ i ∈ ids,
      ∃ b ∈ blocksOf T m last, Line.mux (muxLineOf i s) ∈ b.lines) := by
  by_cases hp : Plain m
  · have h2 : m.signals.find? (·.isMultiplexer) = none := by
      rw [List.find?_eq_none]
      intro s hs
      simp [(hp s hs).1]
    refine ⟨fun _ => ?_, fun h => ?_⟩
    · unfold blocksOf
      rw [h2]
      refine ⟨_, List.mem_singleton_self _, ?_⟩
      simp only [blockOf, List.mem_append, List.mem_cons, List.mem_map]
      exact .inr (.inr (.inr (.inr (.inr ⟨s, hs, rfl⟩))))
    · rw [(hp s hs).1] at h; cases h
  · obtain ⟨sel, a, b, h⟩ := muxed_of hm.nodup (hm.mux.resolve_left hp)
    have hb : blocksOf T m last = branchBlocks T m sel (some m.frameId) (idsOf m.signals) := by
      unfold blocksOf
      rw [h.find]
    have hids : ∀ x ∈ m.signals, ∀ ids, x.multiplexerIds = some ids → ∀ i ∈ ids, i ∈ idsOf m.signals := by
      intro x hx ids e i hi
      unfold idsOf
      rw [mem_dedupInt, List.mem_flatMap]
      exact ⟨x, hx, by rw [e]; exact hi⟩
    rw [hb]
    refine ⟨fun hf => ?_, fun ht x hx ids e i hi => ?_⟩
    · have hab : s ∈ a ++ b := by
        rw [h.split] at hs
        simp only [List.mem_append, List.mem_cons] at hs ⊢
        rcases hs with hs | rfl | hs
        · exact .inl hs
        · rw [h.isSel.isMultiplexer] at hf; cases hf
        · exact .inr hs
      obtain ⟨i, hi, hmem⟩ : ∃ i ∈ idsOf m.signals, s ∈ branchOf m.signals i ++ statics m.signals := by
        rcases h.both s hab with ⟨-, hn⟩ | ⟨-, ids, hne, e, -⟩
        · obtain ⟨i, hi⟩ := List.exists_mem_of_ne_nil _ h.idsOf_ne
          exact ⟨i, hi, List.mem_append_right _ (List.mem_filter.2 ⟨hs, by simp [hf, hn]⟩)⟩
        · obtain ⟨i, hi⟩ := List.exists_mem_of_ne_nil _ hne
          exact ⟨i, hids s hs ids e i hi, List.mem_append_left _ (List.mem_filter.2 ⟨hs, by simp [e, hi]⟩)⟩
      obtain ⟨f, hf⟩ := branch_written (T := T) (m := m) (sel := sel) (first := some m.frameId) hi
      refine ⟨_, hf, ?_⟩
      simp only [blockOf, List.mem_append, List.mem_cons, List.mem_map]
      exact .inr (.inr (.inr (.inr (.inr ⟨s, List.mem_append.1 hmem, rfl⟩))))
    · have hsel : s = sel := by
        rw [h.split] at hs
        simp only [List.mem_append, List.mem_cons] at hs
        rcases hs with hs | rfl | hs
        · have := (h.plain s (List.mem_append_left _ hs)).symm.trans ht; cases this
        · rfl
        · have := (h.plain s (List.mem_append_right _ hs)).symm.trans ht; cases this
      subst hsel
      obtain ⟨f, hf⟩ := branch_written (T := T) (m := m) (sel := s) (first := some m.frameId) (hids x hx ids e i hi)
      refine ⟨_, hf, ?_⟩
      simp only [blockOf, List.mem_append, List.mem_cons, List.mem_map]
      exact .inr (.inr (.inr (.inr (.inl (.inl trivial)))))

/-- The group of a message, and the message that is written for it. -/
theorem group_of {T : FloatText F} {db : DDatabase F} (W : SymDatabase T db) {m : DMessage F} (hm : m ∈ db.messages) :
    ∃ g ∈ groupsOf db.messages, g.lead.signals = m.signals ∧ SymMessage T g.lead := by
  have : m ∈ (groupsOf db.messages).flatMap Group.all := (groupsOf_flat (l := db.messages)).mem_iff.2 hm
  obtain ⟨g, hg, hx⟩ := List.mem_flatMap.1 this
  have G := goodGroup W hg
  exact ⟨g, hg, by rw [G.same m hx], G.lead⟩

end Cantools.Sym
