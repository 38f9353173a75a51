import Verif.Lemmas.SymOk

/-
Loading the contents of a written SYM file.
-/

namespace Cantools.Sym
open Cantools Cantools.Dbc Spec

variable {F : Type}

/-! ### Dictionaries -/

theorem foldlM_ok {α σ : Type} {f : σ → α → Except Err σ} {g : σ → α → σ} {l : List α}
    (h : ∀ a ∈ l, ∀ st, f st a = .ok (g st a)) (st : σ) : l.foldlM f st = .ok (l.foldl g st) := by
  induction l generalizing st with
  | nil => rfl
  | cons a l ih =>
    rw [List.foldlM_cons, h a (by simp)]
    exact ih (fun b hb => h b (List.mem_cons_of_mem _ hb)) _

/-- All entries of a key have the same value. -/
theorem dictGet?_foldl {κ α β : Type} [DecidableEq κ] {key : β → κ} {val : β → α} {l : List β} {k : κ} {v : α}
    (hv : ∀ b ∈ l, key b = k → val b = v) {acc : List (κ × α)}
    (h : (∃ b ∈ l, key b = k) ∨ dictGet? acc k = some v) :
    dictGet? (l.foldl (fun d b => dictSet d (key b) (val b)) acc) k = some v := by
  induction l generalizing acc with
  | nil => exact h.resolve_left (by rintro ⟨b, hb, -⟩; cases hb)
  | cons b l ih =>
    rw [List.foldl_cons]
    apply ih fun x hx => hv x (List.mem_cons_of_mem _ hx)
    by_cases hk : key b = k
    · right
      rw [dictGet?_set, if_pos (by simp [hk]), hv b (by simp) hk]
    · rcases h with ⟨x, hx, hxk⟩ | h
      · rcases List.mem_cons.1 hx with rfl | hx
        · exact absurd hxk hk
        · exact .inl ⟨x, hx, hxk⟩
      · right
        rw [dictGet?_set, if_neg (by simpa [eq_comm] using hk), h]

/-! ### Enumerations -/

theorem loadEnum_values {cs : List (Int × Chars)} (hnd : (cs.map (·.1)).Nodup) :
    (cs.map fun c => (intText c.1, c.2)).foldlM (fun (e : List (Int × Chars)) (v : Chars × Chars) => do
      let i ← readInt v.1
      return dictSet e i v.2) [] = (.ok cs : Except Err (List (Int × Chars))) := by
  rw [List.foldlM_map, foldlM_ok (g := fun e c => dictSet e c.1 c.2)]
  · rw [foldl_dictSet_fresh (fun c : Int × Chars => c) cs [] hnd (by simp)]
    simp
  · intro c _ st
    exact (bind_of_ok (readInt_intText c.1)).trans rfl

theorem enumLineOf_some {s : DSignal F} {l : EnumLine} (h : enumLineOf s = some l) :
    ∃ cs, s.choices = some cs ∧ l = { name := enumName s, values := cs.map fun c => (intText c.1, c.2) } := by
  unfold enumLineOf at h
  split at h
  · cases h
  · cases h
  · exact ⟨_, ‹_›, (Option.some.inj h).symm⟩

theorem enumLineOf_of {s : DSignal F} {cs : List (Int × Chars)} (h : s.choices = some cs) (hne : cs ≠ []) :
    enumLineOf s = some { name := enumName s, values := cs.map fun c => (intText c.1, c.2) } := by
  unfold enumLineOf
  rw [h]
  cases cs with
  | nil => exact absurd rfl hne
  | cons c cs => rfl

theorem loadEnums_ok {l : List (DSignal F)} (hl : ∀ s ∈ l, SymSignal s)
    (he : ∀ s ∈ l, ∀ s' ∈ l, ∀ cs cs', s.choices = some cs → s'.choices = some cs' → enumName s' = enumName s → cs' = cs) :
    ∃ E, loadEnums (l.filterMap enumLineOf) = .ok E ∧
      ∀ s ∈ l, ∀ cs, s.choices = some cs → dictGet? E (enumName s) = some cs := by
  -- the signals with choices
  let c := l.filter fun s => s.choices.isSome
  have hc : ∀ s ∈ c, s ∈ l ∧ s.choices.isSome = true := fun s hs => List.mem_filter.1 hs
  have hline : l.filterMap enumLineOf =
      c.map fun s => { name := enumName s, values := (s.choices.getD []).map fun c => (intText c.1, c.2) } := by
    have : ∀ l : List (DSignal F), (∀ s ∈ l, SymSignal s) → l.filterMap enumLineOf =
        (l.filter fun s => s.choices.isSome).map fun s =>
          { name := enumName s, values := (s.choices.getD []).map fun c => (intText c.1, c.2) } := by
      intro l hl
      induction l with
      | nil => rfl
      | cons s l ih =>
        have ih := ih fun x hx => hl x (List.mem_cons_of_mem _ hx)
        cases hs : s.choices with
        | none =>
          rw [List.filter_cons_of_neg (by simp [hs]), List.filterMap_cons, enumLineOf, hs]
          exact ih
        | some cs =>
          rw [List.filter_cons_of_pos (by simp [hs]), List.filterMap_cons,
            enumLineOf_of hs ((hl s (by simp)).choices cs hs).1, List.map_cons, hs, ih]
          rfl
    exact this l hl
  refine ⟨c.foldl (fun d s => dictSet d (enumName s) (s.choices.getD [])) [], ?_, ?_⟩
  · unfold loadEnums
    rw [hline, List.foldlM_map, foldlM_ok]
    intro s hs st
    obtain ⟨h1, h2⟩ := hc s hs
    obtain ⟨cs, h3⟩ := Option.isSome_iff_exists.1 h2
    rw [h3]
    exact (bind_of_ok (loadEnum_values ((hl s h1).choices cs h3).2.1)).trans rfl
  · intro s hs cs hcs
    refine dictGet?_foldl (key := enumName) ?_ (.inl ⟨s, List.mem_filter.2 ⟨hs, by simp [hcs]⟩, rfl⟩)
    intro b hb hk
    obtain ⟨h1, h2⟩ := hc b hb
    obtain ⟨cs', h3⟩ := Option.isSome_iff_exists.1 h2
    rw [h3]
    exact he s hs b h1 cs cs' hcs h3 hk

/-! ### Signals -/

/-- A signal as it is defined in the file. -/
def defSignal (T : FloatText F) (s : DSignal F) : DSignal F :=
  { name := s.name, start := 0, length := s.length, byteOrder := s.byteOrder, isSigned := s.isSigned
    scale := if s.scale.value T ≠ 1 then s.scale else .int 1
    offset := if s.offset.value T ≠ 0 then s.offset else .int 0
    isFloat := s.isFloat, minimum := s.minimum, maximum := s.maximum, unit := s.unit, comment := s.comment
    choices := s.choices, spn := s.spn }

theorem loadComment_text {c : Chars} (h : c.getLast? ≠ some '\r') (hn : '\n' ∉ c) :
    loadComment (commentText (' ' :: c)) = c := by
  unfold loadComment commentText
  simp only [List.cons_append, List.drop_succ_cons, List.drop_zero]
  rw [List.reverse_append]
  simp only [List.reverse_cons, List.reverse_nil, List.nil_append, List.cons_append]
  rw [List.dropWhile_cons_of_pos (by simp)]
  cases hr : c.reverse with
  | nil => rw [List.reverse_eq_nil_iff.1 hr]; rfl
  | cons x r =>
    have hx : c.getLast? = some x := by rw [List.getLast?_eq_head?_reverse, hr]; rfl
    have h1 : x ≠ '\r' := by rintro rfl; exact h hx
    have h2 : x ≠ '\n' := by rintro rfl; exact hn (List.mem_of_getLast? hx)
    rw [List.dropWhile_cons_of_neg (by simp [h1, h2]), ← hr, List.reverse_reverse]

theorem comment_ok {c : Option Chars} (h : ∀ x, c = some x → x ≠ [] ∧ LineText x) :
    (commentOf c).map loadComment = c := by
  match c with
  | none => rfl
  | some [] => exact absurd rfl (h [] rfl).1
  | some (x :: r) =>
    have := (h _ rfl).2
    simp only [commentOf, Option.map_some]
    rw [loadComment_text this.2 this.1]

/-- The limits that come with the type. -/
def typeLimits (T : FloatText F) (s : DSignal F) : Option (Num F) × Option (Num F) :=
  if signalType T s = "bit".toList then (some (.int 0), some (.int 1)) else (none, none)

theorem loadType_ok {T : FloatText F} {s : DSignal F} (h : SymSignal s) (E : Enums) :
    loadType (signalType T s) (some (decimal s.length)) E =
      .ok ({ isSigned := s.isSigned, isFloat := s.isFloat, length := s.length, enum := none
             minimum := (typeLimits T s).1, maximum := (typeLimits T s).2 } : TypeInfo F) := by
  have hr : lengthOf (some (decimal s.length)) = .ok (s.length : Int) := readInt_decimal _
  have hlim : ∀ t, signalType T s = t → t ≠ "bit".toList → typeLimits T s = (none, none) := by
    intro t ht hne
    unfold typeLimits
    rw [if_neg (ht ▸ hne)]
  by_cases hf : s.isFloat = true
  · obtain ⟨h1, h2⟩ := h.float hf
    by_cases h64 : s.length = 64
    · have ht : signalType T s = "double".toList := by unfold signalType; rw [if_pos hf, if_pos h64]
      rw [hlim _ ht (by decide), ht, hf, h2, h64]
      rfl
    · have ht : signalType T s = "float".toList := by unfold signalType; rw [if_pos hf, if_neg h64]
      rw [hlim _ ht (by decide), ht, hf, h2, h1.resolve_right h64]
      rfl
  · by_cases hs : s.isSigned = true
    · have ht : signalType T s = "signed".toList := by unfold signalType; rw [if_neg hf, if_pos hs]
      rw [hlim _ ht (by decide), ht, hs]
      unfold loadType
      rw [if_pos rfl, hr]
      simp [Except.map, hf]
    · by_cases hb : s.length = 1 ∧ s.minimum.map (·.value T) = some 0 ∧ s.maximum.map (·.value T) = some 1
      · have ht : signalType T s = "bit".toList := by
          unfold signalType; rw [if_neg hf, if_neg hs, if_pos hb]
        have hl : typeLimits T s = (some (.int 0), some (.int 1)) := by unfold typeLimits; rw [if_pos ht]
        have hf' : s.isFloat = false := by simpa using hf
        have hs' : s.isSigned = false := by simpa using hs
        rw [hl, ht, hf', hs', hb.1]
        rfl
      · have ht : signalType T s = "unsigned".toList := by
          unfold signalType; rw [if_neg hf, if_neg hs, if_neg hb]
        have hf' : s.isFloat = false := by simpa using hf
        have hs' : s.isSigned = false := by simpa using hs
        rw [hlim _ ht (by decide), ht, hf', hs']
        unfold loadType
        rw [if_neg (by decide), if_pos rfl, hr]
        rfl

theorem typeLimits_none {T : FloatText F} {s : DSignal F} :
    (s.minimum = none → (typeLimits T s).1 = none) ∧ (s.maximum = none → (typeLimits T s).2 = none) := by
  unfold typeLimits
  split
  · rename_i h
    have : s.length = 1 ∧ s.minimum.map (·.value T) = some 0 ∧ s.maximum.map (·.value T) = some 1 := by
      by_contra hc
      unfold signalType at h
      split at h
      · split at h <;> exact absurd h (by decide)
      · split at h
        · exact absurd h (by decide)
        · exact absurd h (by decide)
    constructor
    · intro hn; rw [hn] at this; cases this.2.1
    · intro hn; rw [hn] at this; cases this.2.2
  · exact ⟨fun _ => rfl, fun _ => rfl⟩

theorem foldlM_append_ok {α σ : Type} {f : σ → α → Except Err σ} {a b : List α} {st st' : σ}
    (h : a.foldlM f st = .ok st') : (a ++ b).foldlM f st = b.foldlM f st' := by
  rw [List.foldlM_append]
  exact bind_of_ok h

theorem loadOptions_ok {T : FloatText F} (L : FloatLaws T) {s : DSignal F} (h : SymSignal s) {E : Enums}
    (hE : ∀ cs, s.choices = some cs → dictGet? E (enumName s) = some cs) {info : TypeInfo F}
    (hi : info.enum = none) (hmin : s.minimum = none → info.minimum = none)
    (hmax : s.maximum = none → info.maximum = none) :
    loadOptions T E info (optionsOf T s) = .ok
      { unit := s.unit, factor := if s.scale.value T ≠ 1 then s.scale else .int 1
        offset := if s.offset.value T ≠ 0 then s.offset else .int 0, enum := s.choices
        minimum := s.minimum, maximum := s.maximum
        spn := match s.spn with | some (.num (.int i)) => some i | _ => none } := by
  have h1 : ∀ st : OptionInfo F, st.unit = none →
      (match s.unit with | none => [] | some [] => [] | some u => [SigOption.unit (unitText u)]).foldlM
        (loadOption T E) st = .ok { st with unit := s.unit } := by
    intro st hst
    split
    · rename_i hu; rw [hu, ← hst]; rfl
    · rename_i hu; exact absurd rfl (h.unit _ hu).1
    · rename_i u _ hu
      rw [hu]
      simp only [List.foldlM_cons, List.foldlM_nil, loadOption]
      have e1 : (unitText u).take 4 = "/u:\"".toList := rfl
      rw [if_pos e1, unitText_drop]
      rfl
  have h2 : ∀ st : OptionInfo F, st.factor = .int 1 →
      (if s.scale.value T ≠ 1 then [SigOption.factor (s.scale.text T)] else []).foldlM (loadOption T E) st =
        .ok { st with factor := if s.scale.value T ≠ 1 then s.scale else .int 1 } := by
    intro st hst
    split
    · simp only [List.foldlM_cons, List.foldlM_nil, loadOption, num_text L]; rfl
    · rw [← hst]; rfl
  have h3 : ∀ st : OptionInfo F, st.offset = .int 0 →
      (if s.offset.value T ≠ 0 then [SigOption.offset (s.offset.text T)] else []).foldlM (loadOption T E) st =
        .ok { st with offset := if s.offset.value T ≠ 0 then s.offset else .int 0 } := by
    intro st hst
    split
    · simp only [List.foldlM_cons, List.foldlM_nil, loadOption, num_text L]; rfl
    · rw [← hst]; rfl
  have h4 : ∀ st : OptionInfo F, (s.maximum = none → st.maximum = none) →
      (match s.maximum with | none => [] | some n => [SigOption.max (n.text T)]).foldlM (loadOption T E) st =
        .ok { st with maximum := s.maximum } := by
    intro st hst
    split
    · rename_i hn; rw [hn, ← hst hn]; rfl
    · rename_i n hn
      rw [hn]
      simp only [List.foldlM_cons, List.foldlM_nil, loadOption, num_text L]; rfl
  have h5 : ∀ st : OptionInfo F, (s.minimum = none → st.minimum = none) →
      (match s.minimum with | none => [] | some n => [SigOption.min (n.text T)]).foldlM (loadOption T E) st =
        .ok { st with minimum := s.minimum } := by
    intro st hst
    split
    · rename_i hn; rw [hn, ← hst hn]; rfl
    · rename_i n hn
      rw [hn]
      simp only [List.foldlM_cons, List.foldlM_nil, loadOption, num_text L]; rfl
  have h6 : ∀ st : OptionInfo F, st.spn = none →
      (match s.spn with | none => [] | some v => if truthy T v then [SigOption.spn (v.text T)] else []).foldlM
        (loadOption T E) st =
        .ok { st with spn := match s.spn with | some (.num (.int i)) => some i | _ => none } := by
    intro st hst
    cases hs : s.spn with
    | none => rw [← hst]; rfl
    | some v =>
      obtain ⟨i, hi, rfl⟩ := h.spn v hs
      dsimp only
      have ht : truthy T (.num (.int i)) = true := by
        unfold truthy Num.value
        simpa using hi
      rw [if_pos ht]
      have hv : readInt (AttrVal.text T (.num (.int i))) = .ok i := readInt_intText i
      simp only [List.foldlM_cons, List.foldlM_nil, loadOption, hv]
      rfl
  have h7 : ∀ st : OptionInfo F, st.enum = none →
      (match s.choices with | none => [] | some [] => [] | some _ => [SigOption.enum (enumName s)]).foldlM
        (loadOption T E) st = .ok { st with enum := s.choices } := by
    intro st hst
    split
    · rename_i hc; rw [hc, ← hst]; rfl
    · rename_i hc; exact absurd rfl (h.choices _ hc).1
    · rename_i cs _ hc
      rw [hc]
      simp only [List.foldlM_cons, List.foldlM_nil, loadOption, getEnum, hE _ hc]
      rfl
  unfold loadOptions optionsOf
  exact (foldlM_append_ok (h1 _ rfl)).trans ((foldlM_append_ok (h2 _ rfl)).trans
    ((foldlM_append_ok (h3 _ rfl)).trans ((foldlM_append_ok (h4 _ hmax)).trans
    ((foldlM_append_ok (h5 _ hmin)).trans ((foldlM_append_ok (h6 _ rfl)).trans (h7 _ hi))))))

theorem loadSignal_ok {T : FloatText F} (L : FloatLaws T) {s : DSignal F} (h : SymSignal s) {E : Enums}
    (hE : ∀ cs, s.choices = some cs → dictGet? E (enumName s) = some cs) :
    loadSignal T E (sigLineOf T s) = .ok (defSignal T s) := by
  unfold loadSignal
  refine (bind_of_ok (loadType_ok h E)).trans ?_
  refine (bind_of_ok (loadOptions_ok L h hE rfl typeLimits_none.1 typeLimits_none.2)).trans ?_
  simp only [sigLineOf, makeSignal, defSignal, comment_ok h.comment, signalName_eq h]
  have h1 : (if decide (s.byteOrder = ByteOrder.big) = true then ByteOrder.big else ByteOrder.little) = s.byteOrder := by
    cases s.byteOrder <;> rfl
  have h2 : (match s.spn with | some (.num (.int i)) => some i | _ => none).map (fun i => AttrVal.num (.int i)) =
      s.spn := by
    cases hs : s.spn with
    | none => rfl
    | some v => obtain ⟨i, -, rfl⟩ := h.spn v hs; rfl
  rw [h1]
  show Except.ok _ = _
  congr 1
  simp only [h2]
  rfl

theorem defSignal_congr {T : FloatText F} {a b : DSignal F} (h : SameDefinition a b) : defSignal T b = defSignal T a := by
  rw [h]
  rfl

theorem loadSignals_ok {T : FloatText F} (L : FloatLaws T) {l : List (DSignal F)} (hl : ∀ s ∈ l, SymSignal s)
    {E : Enums} (hE : ∀ s ∈ l, ∀ cs, s.choices = some cs → dictGet? E (enumName s) = some cs) :
    ∃ lib, loadSignals T E (l.map (sigLineOf T)) = .ok lib ∧
      ∀ n d, (∃ s ∈ l, s.name = n) → (∀ s ∈ l, s.name = n → defSignal T s = d) → dictGet? lib n = some d := by
  refine ⟨l.foldl (fun d s => dictSet d s.name (defSignal T s)) [], ?_, ?_⟩
  · unfold loadSignals
    rw [List.foldlM_map, foldlM_ok]
    intro s hs st
    exact (bind_of_ok (loadSignal_ok L (hl s hs) (hE s hs))).trans rfl
  · intro n d h1 h2
    exact dictGet?_foldl (key := fun s : DSignal F => s.name) h2 (.inl h1)

/-! ### Signals of messages -/

theorem convertStart_twice (n : Nat) (o : ByteOrder) : (convertStart (convertStart n o) o).toNat = n := by
  cases o with
  | little => simp [convertStart]
  | big => simp only [convertStart]; omega

/-- A signal as it is in a message of the file. -/
def keptSig (T : FloatText F) (s : DSignal F) : DSignal F :=
  { defSignal T s with
    start := s.start, isMultiplexer := s.isMultiplexer, multiplexerIds := s.multiplexerIds
    multiplexerSignal := s.multiplexerSignal }

/-- A signal for one multiplexer id. -/
def withId (sel : Chars) (i : Int) (s : DSignal F) : DSignal F :=
  { s with multiplexerIds := some [i], multiplexerSignal := some sel }

theorem loadMessageSignal_ok {T : FloatText F} {lib : Library F} {s : DSignal F} (h : SymSignal s)
    (hl : dictGet? lib s.name = some (defSignal T s)) (hm : s.isMultiplexer = false) (mux : Option Chars)
    (ids : Option (List Int)) :
    loadMessageSignal lib mux ids (signalName s, intText (convertStart s.start s.byteOrder)) =
      .ok (keptSig T { s with multiplexerIds := ids, multiplexerSignal := mux }) := by
  unfold loadMessageSignal
  dsimp only
  rw [signalName_eq h]
  have hd : dictGet lib s.name = .ok (defSignal T s) := by unfold dictGet; rw [hl]
  refine (bind_of_ok hd).trans ((bind_of_ok (readInt_intText _)).trans ?_)
  have e : (defSignal T s).byteOrder = s.byteOrder := rfl
  rw [e, convertStart_twice]
  unfold keptSig defSignal
  rw [hm]
  rfl

/-! ### The lines of a block -/

section
variable {T : FloatText F} {m : DMessage F} {sigs : List (DSignal F)} {first last : Option Int}
  {mux : Option (Int × DSignal F)}

theorem filterMap_none {α β : Type} {l : List α} {f : α → Option β} (h : ∀ a ∈ l, f a = none) : l.filterMap f = [] := by
  rw [List.filterMap_eq_nil_iff]; exact h

theorem filterMap_block {β : Type} (f : Line → Option β) (T : FloatText F) (m : DMessage F) (sigs : List (DSignal F))
    (first last : Option Int) (mux : Option (Int × DSignal F)) :
    (blockOf T m sigs first last mux).lines.filterMap f =
      (match first with | none => [] | some i => (f (.id (idLineOf m i last))).toList) ++
      ((if m.isExtendedFrame then (f (.type "Extended".toList)).toList else []) ++
      ((f (.len (decimal m.length))).toList ++
      ((match m.cycleTime with
        | none => []
        | some n => if n.value T ≠ 0 then (f (.cycleTime (n.text T) none)).toList else []) ++
      ((match mux with | none => [] | some x => (f (.mux (muxLineOf x.1 x.2))).toList) ++
      sigs.filterMap fun s => f (.sig (signalName s) (intText (convertStart s.start s.byteOrder))))))) := by
  have h1 : ∀ l : Line, [l].filterMap f = (f l).toList := by
    intro l; rw [List.filterMap_cons]; cases f l <;> rfl
  unfold blockOf
  dsimp only
  rw [List.filterMap_append, List.filterMap_append, ← List.singleton_append (x := Line.len (decimal m.length)),
    List.filterMap_append, List.filterMap_append, List.filterMap_append, List.filterMap_map, h1]
  refine congrArg₂ _ ?_ (congrArg₂ _ ?_ (congrArg₂ _ rfl (congrArg₂ _ ?_ (congrArg₂ _ ?_ rfl))))
  · cases first with
    | none => rfl
    | some i => exact h1 _
  · split
    · exact h1 _
    · rfl
  · cases m.cycleTime with
    | none => rfl
    | some n =>
      dsimp only
      split
      · exact h1 _
      · rfl
  · cases mux with
    | none => rfl
    | some x => exact h1 _

theorem block_name : (blockOf T m sigs first last mux).name = m.name := rfl

theorem block_ids : (blockOf T m sigs first last mux).ids =
    (match first with | none => [] | some i => [idLineOf m i last]) := by
  unfold Block.ids
  rw [filterMap_block]
  cases first <;> cases m.isExtendedFrame <;> cases m.cycleTime <;> cases mux <;> simp

theorem block_lens : (blockOf T m sigs first last mux).lens = [decimal m.length] := by
  unfold Block.lens
  rw [filterMap_block]
  cases first <;> cases m.isExtendedFrame <;> cases m.cycleTime <;> cases mux <;> simp

theorem block_muxes : (blockOf T m sigs first last mux).muxes =
    (match mux with | none => [] | some x => [muxLineOf x.1 x.2]) := by
  unfold Block.muxes
  rw [filterMap_block]
  cases first <;> cases m.isExtendedFrame <;> cases m.cycleTime <;> cases mux <;> simp

theorem block_vars : (blockOf T m sigs first last mux).vars = [] := by
  unfold Block.vars
  rw [filterMap_block]
  cases first <;> cases m.isExtendedFrame <;> cases m.cycleTime <;> cases mux <;> simp

theorem block_sigs : (blockOf T m sigs first last mux).sigs =
    sigs.map fun s => (signalName s, intText (convertStart s.start s.byteOrder)) := by
  unfold Block.sigs
  rw [filterMap_block]
  cases first <;> cases m.isExtendedFrame <;> cases m.cycleTime <;> cases mux <;> simp

theorem block_types : (blockOf T m sigs first last mux).types =
    if m.isExtendedFrame then ["Extended".toList] else [] := by
  unfold Block.types
  rw [filterMap_block]
  cases first <;> cases m.isExtendedFrame <;> cases m.cycleTime <;> cases mux <;> simp

theorem block_cycleTimes : (blockOf T m sigs first last mux).cycleTimes =
    (match m.cycleTime with | none => [] | some n => if n.value T ≠ 0 then [(n.text T, none)] else []) := by
  unfold Block.cycleTimes
  rw [filterMap_block]
  cases first <;> cases m.isExtendedFrame <;> cases m.cycleTime <;> cases mux <;> simp

end

end Cantools.Sym
