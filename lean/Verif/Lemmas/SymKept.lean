import Verif.Lemmas.SymMsg
import Verif.Lemmas.SpreadCodec
import Mathlib.Data.List.Dedup

/-
What a SYM file keeps of a database.
-/

namespace Cantools.Sym
open Cantools Cantools.Dbc Spec

variable {F : Type}

theorem defSignal_scale {T : FloatText F} (s : DSignal F) : (defSignal T s).scale.value T = s.scale.value T := by
  unfold defSignal
  dsimp only
  split
  · rfl
  · rename_i h
    rw [not_not] at h
    rw [h]; rfl

theorem defSignal_offset {T : FloatText F} (s : DSignal F) : (defSignal T s).offset.value T = s.offset.value T := by
  unfold defSignal
  dsimp only
  split
  · rfl
  · rename_i h
    rw [not_not] at h
    rw [h]; rfl

theorem keptSig_core (T : FloatText F) (s : DSignal F) : (keptSig T s).core T = s.core T := by
  have h1 : (keptSig T s).scale.value T = s.scale.value T := defSignal_scale s
  have h2 : (keptSig T s).offset.value T = s.offset.value T := defSignal_offset s
  unfold DSignal.core
  rw [h1, h2]
  rfl

theorem keptSig_kept (T : FloatText F) (s : DSignal F) : SymKeptSignal T s (keptSig T s) where
  name := rfl
  start := rfl
  length := rfl
  byteOrder := rfl
  isSigned := rfl
  scale := defSignal_scale s
  offset := defSignal_offset s
  isFloat := rfl
  minimum := rfl
  maximum := rfl
  unit := rfl
  comment := rfl
  choices := rfl
  isMultiplexer := rfl
  multiplexerSignal := rfl
  ids := rfl
  spn := rfl

/-- The signals of a message as they are loaded, with their own values. -/
def spreadOrder (m : DMessage F) : List (DSignal F) :=
  match m.signals.find? (·.isMultiplexer) with
  | none => m.signals
  | some sel => sel :: (idsOf m.signals).flatMap fun i =>
      (branchOf m.signals i ++ statics m.signals).map fun s => withId sel.name i s

theorem loadedSignals_eq (T : FloatText F) (m : DMessage F) : loadedSignals T m = (spreadOrder m).map (keptSig T) := by
  unfold loadedSignals spreadOrder
  cases m.signals.find? (·.isMultiplexer) with
  | none => rfl
  | some sel =>
    dsimp only
    rw [List.map_cons, List.map_flatMap]
    congr 1
    refine List.flatMap_congr fun i _ => ?_
    rw [List.map_map]
    rfl

theorem loadedSignals_core (T : FloatText F) (m : DMessage F) :
    (loadedSignals T m).map (·.core T) = (spreadOrder m).map (·.core T) := by
  rw [loadedSignals_eq, List.map_map]
  exact List.map_congr_left fun s _ => keptSig_core T s

theorem spreadOrder_perm {T : FloatText F} {m : DMessage F} (hm : SymMessage T m) : (spreadOrder m).Perm (spread m.signals) := by
  unfold spreadOrder spread
  cases hf : m.signals.find? (·.isMultiplexer) with
  | none => exact List.Perm.refl _
  | some sel =>
    refine List.Perm.cons _ ?_
    have hnp : ¬ Plain m := by
      intro hp
      have h1 := List.mem_of_find?_eq_some hf
      have h2 := List.find?_some hf
      rw [(hp sel h1).1] at h2
      cases h2
    obtain ⟨sel', a, b, h⟩ := muxed_of hm.nodup (hm.mux.resolve_left hnp)
    have hids : (idsOf m.signals).Perm (Spec.muxIds m.signals) := by
      unfold idsOf Spec.muxIds
      refine (List.perm_ext_iff_of_nodup (nodup_dedupInt _) (List.nodup_dedup _)).2 fun i => ?_
      rw [mem_dedupInt, List.mem_dedup]
    refine (List.Perm.flatMap_right _ hids).trans (List.Perm.flatMap_left _ fun i _ => ?_)
    refine List.Perm.map _ ?_
    -- a filter by either of two tests
    have key : ∀ l : List (DSignal F), (∀ s ∈ l, s.isMultiplexer = true → s.multiplexerIds = none) →
        (l.filter (fun s => (s.multiplexerIds.getD []).contains i) ++
          l.filter fun s => !s.isMultiplexer && s.multiplexerIds.isNone).Perm
        (l.filter fun s => !s.isMultiplexer && (s.multiplexerIds.isNone || (s.multiplexerIds.getD []).contains i)) := by
      intro l hl
      induction l with
      | nil => exact List.Perm.refl _
      | cons s l ih =>
        have ih := ih fun x hx => hl x (List.mem_cons_of_mem _ hx)
        have hs := hl s (by simp)
        cases hmx : s.isMultiplexer with
        | true =>
          simp only [List.filter_cons, hmx, hs hmx, Option.getD_none, List.contains_nil, Bool.false_eq_true, if_false,
            Bool.not_true, Bool.false_and]
          exact ih
        | false =>
          cases hi : s.multiplexerIds with
          | none =>
            simp only [List.filter_cons, hmx, hi, Option.getD_none, List.contains_nil, Bool.false_eq_true, if_false,
              Bool.not_false, Option.isNone_none, Bool.true_and, Bool.true_or, if_true]
            exact List.perm_middle.trans (ih.cons _)
          | some ids =>
            by_cases hc : ids.contains i = true
            · simp only [List.filter_cons, hmx, hi, Option.getD_some, hc, if_true, Option.isNone_some, Bool.not_false,
                Bool.and_false, Bool.false_eq_true, if_false, Bool.false_or, Bool.true_and]
              exact ih.cons _
            · simp only [List.filter_cons, hmx, hi, Option.getD_some, hc, if_false, Option.isNone_some, Bool.not_false,
                Bool.and_false, Bool.false_eq_true, Bool.false_or]
              exact ih
    refine key _ fun s hs hmx => ?_
    rw [h.split] at hs
    rcases List.mem_append.1 hs with hs | hs
    · rw [h.plain s (List.mem_append_left _ hs)] at hmx; cases hmx
    · rcases List.mem_cons.1 hs with rfl | hs
      · exact h.isSel.root.2
      · rw [h.plain s (List.mem_append_right _ hs)] at hmx; cases hmx

theorem loaded_kept {T : FloatText F} {m : DMessage F} (hm : SymMessage T m) : SymKeptMessage T m (loadedMessage T m) where
  frameId := rfl
  isExtendedFrame := rfl
  name := rfl
  length := rfl
  senders := rfl
  cycleTime := rfl
  comment := rfl
  signals := by
    refine ⟨sortedBy (fun s => startBit ((keptSig T s).core T)) (spreadOrder m),
      (sortedBy_perm _ _).trans (spreadOrder_perm hm), ?_⟩
    unfold loadedMessage sortByStartBit
    dsimp only
    rw [loadedSignals_eq, sortedBy_map, List.forall₂_map_right_iff]
    exact List.forall₂_same.2 fun s _ => keptSig_kept T s
  sorted := by
    unfold loadedMessage sortByStartBit
    exact sortedBy_pairwise _ _

/-! ### The messages of the encoder -/

theorem messageOf_loaded (T : FloatText F) (pat : UInt8) (strict : Bool) (m : DMessage F) :
    messageOf T pat strict (loadedMessage T m) =
      Message.create m.frameId (String.ofList m.name) m.length ((spreadOrder m).map (·.core T)) pat m.isExtendedFrame strict := by
  have : SortSignals.default.apply (((loadedMessage T m).signals).map (·.core T)) =
      SortSignals.default.apply ((spreadOrder m).map (·.core T)) := by
    rw [← loadedSignals_core]
    unfold loadedMessage sortByStartBit SortSignals.apply sortSignalsByStartBit
    dsimp only
    rw [sortedBy_map startBit (fun s : DSignal F => s.core T) (loadedSignals T m), sortedBy_of_pairwise]
    rw [List.pairwise_map]
    exact sortedBy_pairwise (fun s : DSignal F => startBit (s.core T)) _
  unfold messageOf Message.create
  rw [this]
  rfl

theorem built_core (T : FloatText F) (l : List (DSignal F)) : ∀ s ∈ l.map (·.core T), Built s.conversion := by
  intro s hs
  obtain ⟨k, _, rfl⟩ := List.mem_map.1 hs
  exact ⟨_, _, _, _, rfl⟩

theorem core_float (T : FloatText F) (k : DSignal F) : (k.core T).conversion.isFloat = k.isFloat := by
  unfold DSignal.core Conversion.isFloat Conversion.factory
  cases k.choices <;> simp only [Option.map_none, Option.map_some, Conversion.inner, BaseConv.factory] <;>
    split <;> (try split) <;> simp_all [BaseConv.isFloat]

theorem core_choices (T : FloatText F) {k : DSignal F} (h : k.choices = none) : (k.core T).conversion.choices = none := by
  unfold DSignal.core
  rw [h]
  rfl

/-- The multiplexed signals of a message. -/
def muxed (l : List (DSignal F)) : List (DSignal F) := l.filter fun s => s.multiplexerIds.isSome

section
variable {T : FloatText F} {m : DMessage F} {sel : DSignal F} {a b : List (DSignal F)}

theorem Muxed.parts (h : Muxed T m sel a b) : m.signals.Perm (sel :: (muxed m.signals ++ Sym.statics m.signals)) := by
  have h1 : muxed m.signals = (a ++ b).filter fun s => s.multiplexerIds.isSome := by
    unfold muxed
    exact h.filter_out (by rw [h.isSel.root.2]; rfl)
  rw [h1, h.statics]
  have h2 : m.signals.Perm (sel :: (a ++ b)) := by rw [h.split]; exact List.perm_middle
  refine h2.trans (List.Perm.cons _ ?_)
  have := List.filter_append_perm (fun s : DSignal F => s.multiplexerIds.isSome) (a ++ b)
  refine this.symm.trans (List.Perm.append_left _ ?_)
  rw [List.filter_congr (q := fun s => s.multiplexerIds.isNone)]
  intro s _
  cases s.multiplexerIds <;> rfl

theorem Muxed.oneMux (h : Muxed T m sel a b) (hnd : (m.signals.map (·.name)).Nodup) :
    OneMux (sel.core T) ((muxed m.signals).map (·.core T)) ((Sym.statics m.signals).map (·.core T)) (idsOf m.signals) where
  mux := h.isSel.isMultiplexer
  root := by simp [DSignal.core, h.isSel.root.1]
  choices := core_choices T h.isSel.rest.2.2.1
  inner := by
    intro c hc
    obtain ⟨s, hs, rfl⟩ := List.mem_map.1 hc
    obtain ⟨h1, h2⟩ := List.mem_filter.1 hs
    have hs' : s ∈ a ++ b := by
      have := h.filter_out (p := fun s => s.multiplexerIds.isSome) (by rw [h.isSel.root.2]; rfl)
      rw [show m.signals.filter (fun s => s.multiplexerIds.isSome) = muxed m.signals from rfl] at this
      rw [this] at hs
      exact (List.mem_filter.1 hs).1
    refine ⟨h.plain s hs', ?_⟩
    rcases h.both s hs' with ⟨-, h3⟩ | ⟨h3, l, -, h4, -⟩
    · rw [h3] at h2; cases h2
    · refine ⟨by simp [DSignal.core, h3], l, h4, fun i hi => ?_⟩
      unfold idsOf
      rw [mem_dedupInt, List.mem_flatMap]
      exact ⟨s, h1, by rw [h4]; exact hi⟩
  outer := by
    intro c hc
    obtain ⟨s, hs, rfl⟩ := List.mem_map.1 hc
    rw [h.statics] at hs
    obtain ⟨h1, h2⟩ := List.mem_filter.1 hs
    refine ⟨h.plain s h1, ?_⟩
    rcases h.both s h1 with ⟨h3, -⟩ | ⟨-, l, -, h4, -⟩
    · simp [DSignal.core, h3]
    · rw [h4] at h2; cases h2
  used := by
    intro i hi
    unfold idsOf at hi
    rw [mem_dedupInt, List.mem_flatMap] at hi
    obtain ⟨s, hs, hi⟩ := hi
    cases hl : s.multiplexerIds with
    | none => rw [hl] at hi; cases hi
    | some l =>
      rw [hl] at hi
      exact ⟨s.core T, List.mem_map_of_mem (List.mem_filter.2 ⟨hs, by simp [hl]⟩), l, hl, hi⟩
  ne := h.idsOf_ne
  nodup := nodup_dedupInt _
  names := by
    rw [← List.map_append, ← List.map_cons (f := fun s : DSignal F => s.core T), List.map_map]
    have : ((sel :: (muxed m.signals ++ Sym.statics m.signals)).map (·.name)).Nodup := (h.parts.map _).nodup_iff.1 hnd
    have e : ((·.name) ∘ fun s : DSignal F => s.core T) = String.ofList ∘ (·.name) := rfl
    rw [e, ← List.map_map]
    exact this.map fun _ _ => String.ofList_injective

theorem Muxed.spread_core (h : Muxed T m sel a b) : (spreadOrder m).map (·.core T) =
    spreadSigs (sel.core T) ((muxed m.signals).map (·.core T)) ((Sym.statics m.signals).map (·.core T)) (idsOf m.signals) := by
  unfold spreadOrder spreadSigs
  rw [h.find]
  dsimp only
  rw [List.map_cons, List.map_flatMap]
  congr 1
  refine List.flatMap_congr fun i _ => ?_
  unfold branchAt
  have e : ((muxed m.signals).map (·.core T)).filter (fun s => (s.multiplexerIds.getD []).contains i) =
      (branchOf m.signals i).map (·.core T) := by
    rw [List.filter_map]
    congr 1
    unfold muxed branchOf
    rw [List.filter_filter]
    refine List.filter_congr fun s _ => ?_
    show ((s.multiplexerIds.getD []).contains i && s.multiplexerIds.isSome) = _
    cases s.multiplexerIds <;> simp
  rw [e, ← List.map_append, List.map_map, List.map_map]
  rfl

end

/-- What is said of the frames of two messages. -/
def SameFrames (fo : FloatOps) (pattern pattern' : UInt8) (msg msg' : Message) : Prop :=
  (∀ data scaling padding strict payload, (padding = true → pattern = pattern') →
    (encode fo msg data scaling padding strict = .ok payload ↔ encode fo msg' data scaling padding strict = .ok payload)) ∧
  ∀ data decodeChoices scaling excess,
    (decode fo msg data decodeChoices scaling false excess = .error .decodeError ∧
      decode fo msg' data decodeChoices scaling false excess = .error .decodeError) ∨
    ∃ r r', decode fo msg data decodeChoices scaling false excess = .ok r ∧
      decode fo msg' data decodeChoices scaling false excess = .ok r' ∧ r'.Perm r

theorem core_nodup {T : FloatText F} {l : List (DSignal F)} (h : (l.map (·.name)).Nodup) :
    ((l.map (·.core T)).map (·.name)).Nodup := by
  rw [List.map_map]
  have e : ((·.name) ∘ fun s : DSignal F => s.core T) = String.ofList ∘ (·.name) := rfl
  rw [e, ← List.map_map]
  exact h.map fun _ _ => String.ofList_injective

theorem loaded_frames {T : FloatText F} {fo : FloatOps} {m : DMessage F} (hm : SymMessage T m)
    {pat : UInt8} {msg : Message} (h : messageOf T pat true m = .ok msg) (pat' : UInt8) (strict : Bool) :
    ∃ msg', messageOf T pat' strict (loadedMessage T m) = .ok msg' ∧
      (strict = true → (∀ s ∈ m.signals, s.isFloat = true → s.choices = none) → SameFrames fo pat pat' msg msg') := by
  have hnd := core_nodup (T := T) hm.nodup
  have hb := built_core T m.signals
  have hpt : (∀ s ∈ m.signals, s.isFloat = true → s.choices = none) →
      ∀ s ∈ m.signals.map (·.core T), s.conversion.isFloat = true → s.conversion.choices = none := by
    intro hp s hs hf
    obtain ⟨k, hk, rfl⟩ := List.mem_map.1 hs
    rw [core_float] at hf
    exact core_choices T (hp k hk hf)
  rw [messageOf_loaded]
  unfold messageOf at h
  by_cases hp : Plain m
  · have e : spreadOrder m = m.signals := by
      unfold spreadOrder
      have : m.signals.find? (·.isMultiplexer) = none := by
        rw [List.find?_eq_none]
        intro s hs
        simp [(hp s hs).1]
      rw [this]
    rw [e]
    obtain ⟨h1, h2, c, h3, h4, -⟩ := create_ok_iff.1 h
    have hok := (create_ok_iff (name := String.ofList m.name) (pat := pat') (strict := strict)).2
      ⟨h1, h2, c, h3, fun _ => h4 rfl, rfl⟩
    refine ⟨_, hok, ?_⟩
    rintro rfl hf
    refine ⟨?_, ?_⟩
    · intro data scaling padding st payload hpat
      exact C39_encode_order_independent hnd hb (List.Perm.refl _) h hok fun hh => (hpat hh).symm
    · intro data dc sc ex
      exact C39_decode_order_independent hnd hb (hpt hf) (List.Perm.refl _) h hok data dc sc false ex
  · obtain ⟨sel, a, b, hx⟩ := muxed_of hm.nodup (hm.mux.resolve_left hp)
    have ho := hx.oneMux hm.nodup
    have hO : (m.signals.map (·.core T)).Perm (sel.core T :: ((muxed m.signals).map (·.core T) ++
        (Sym.statics m.signals).map (·.core T))) := by
      rw [← List.map_append, ← List.map_cons (f := fun s : DSignal F => s.core T)]
      exact hx.parts.map _
    rw [hx.spread_core]
    obtain ⟨msg', hmsg'⟩ := ho.create_spread hO h pat' strict
    refine ⟨msg', hmsg', ?_⟩
    rintro rfl hf
    refine ⟨?_, ?_⟩
    · intro data scaling padding st payload hpat
      exact (ho.encode_iff hb hO h hmsg' fun hh => (hpat hh).symm).symm
    · intro data dc sc ex
      exact ho.decode_same hb (hpt hf) hO h hmsg' data dc sc ex

theorem constructible_of {T : FloatText F} {strict : Bool} {m : DMessage F} (hm : SymMessage T m)
    {pat : UInt8} {msg : Message} (h : messageOf T pat true m = .ok msg) : Constructible T strict m := by
  obtain ⟨msg', h', -⟩ := loaded_frames (fo := ⟨fun n _ => .ok (List.replicate n false), fun _ => 0, by rintro n q l ⟨⟩; simp⟩) hm h 0xff strict
  rw [messageOf_loaded, ← loadedSignals_core] at h'
  exact ⟨msg', h'⟩

end Cantools.Sym
