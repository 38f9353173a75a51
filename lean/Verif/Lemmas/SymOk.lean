import Verif.Lemmas.SymContent

/-
The contents of a written SYM file can be lexed and parsed.
-/

namespace Cantools.Sym
open Cantools Cantools.Dbc Spec

variable {F : Type}

/-! ### Numbers -/

theorem isNum_int (i : Int) : IsNum (intText i) :=
  ⟨_, _, none, none, intText_eq i, decimal_digits _, (by intro f h; cases h), (by intro s e h; cases h)⟩

theorem isNum_nat (n : Nat) : IsNum (decimal n) := by rw [← intText_nat]; exact isNum_int n

theorem isNum_num {T : FloatText F} (L : FloatLaws T) (n : Num F) : IsNum (n.text T) := by
  cases n with
  | int i => exact isNum_int i
  | float f =>
    obtain ⟨a, b, c, d, h1, h2, h3, h4, -⟩ := L.syntax_ f
    exact ⟨a, b, c, d, h1, h2, h3, h4⟩

theorem hexChar_upper : ∀ n, n < 16 → Regex.isUpperHex (Kcd.hexChar n) = true := by decide
theorem hexChar_digit : ∀ n, n < 10 → isDigit (Kcd.hexChar n) = true := by decide

theorem leadingHex_lt (n : Nat) : leadingHex n < 16 := by
  induction n using Nat.strongRecOn with
  | ind n ih =>
    rw [leadingHex]
    split
    · assumption
    · exact ih _ (by omega)

theorem hexadecimal_head (n : Nat) : ∃ r, Kcd.hexadecimal n = Kcd.hexChar (leadingHex n) :: r ∧
    (∀ x ∈ r, Regex.isUpperHex x = true) ∧ leadingHex n = n / 16 ^ r.length := by
  induction n using Nat.strongRecOn with
  | ind n ih =>
    rw [Kcd.hexadecimal, leadingHex]
    by_cases h : n < 16
    · rw [if_pos h, dif_pos h]
      exact ⟨[], rfl, (by intro x hx; cases hx), by simp⟩
    · rw [if_neg h, dif_neg h]
      obtain ⟨r, h1, h2, h3⟩ := ih (n / 16) (by omega)
      refine ⟨r ++ [Kcd.hexChar (n % 16)], by rw [h1]; rfl, ?_, ?_⟩
      · intro x hx
        rcases List.mem_append.1 hx with hx | hx
        · exact h2 x hx
        · rw [List.mem_singleton.1 hx]
          exact hexChar_upper _ (Nat.mod_lt _ (by decide))
      · rw [h3, Nat.div_div_eq_div_mul, List.length_append, List.length_singleton, Nat.pow_succ, Nat.mul_comm]

theorem hexadecimal_length {n w : Nat} (hw : 0 < w) (h : n < 16 ^ w) : (Kcd.hexadecimal n).length ≤ w := by
  induction n using Nat.strongRecOn generalizing w with
  | ind n ih =>
    rw [Kcd.hexadecimal]
    split
    · simp only [List.length_singleton]; omega
    · obtain ⟨v, rfl⟩ : ∃ v, w = v + 1 := ⟨w - 1, by omega⟩
      rw [Nat.pow_succ] at h
      have hv : 0 < v := by
        rcases Nat.eq_zero_or_pos v with rfl | hv
        · simp at h; omega
        · exact hv
      have := ih (n / 16) (by omega) hv (by omega)
      simp
      omega

theorem hexText_nonneg {w : Nat} {i : Int} (h : 0 ≤ i) : hexText w i =
    List.replicate (w - (Kcd.hexadecimal i.toNat).length) '0' ++ Kcd.hexadecimal i.toNat := by
  unfold hexText
  rw [if_neg (by omega)]
  have : i.natAbs = i.toNat := by omega
  rw [this]

theorem hexText_shape {w : Nat} {i : Int} (h : 0 ≤ i)
    (hd : leadingHex i.toNat < 10 ∨ (Kcd.hexadecimal i.toNat).length < w) :
    ∃ c r, hexText w i = c :: r ∧ isDigit c = true ∧ ∀ x ∈ r, Regex.isUpperHex x = true := by
  rw [hexText_nonneg h]
  obtain ⟨r, h1, h2, -⟩ := hexadecimal_head i.toNat
  have h3 : ∀ x ∈ Kcd.hexadecimal i.toNat, Regex.isUpperHex x = true := by
    intro x hx
    rw [h1] at hx
    rcases List.mem_cons.1 hx with rfl | hx
    · exact hexChar_upper _ (leadingHex_lt _)
    · exact h2 x hx
  cases hk : w - (Kcd.hexadecimal i.toNat).length with
  | zero =>
    refine ⟨Kcd.hexChar (leadingHex i.toNat), r, by rw [h1]; rfl, ?_, h2⟩
    rcases hd with hd | hd
    · exact hexChar_digit _ hd
    · omega
  | succ k =>
    refine ⟨'0', List.replicate k '0' ++ Kcd.hexadecimal i.toNat, rfl, by decide, ?_⟩
    intro x hx
    rcases List.mem_append.1 hx with hx | hx
    · rw [(List.mem_replicate.1 hx).2]; decide
    · exact h3 x hx

theorem hexText_bound {w : Nat} {i : Int} (hi : i.toNat < 10 * 16 ^ w) :
    leadingHex i.toNat < 10 ∨ (Kcd.hexadecimal i.toNat).length < w + 1 := by
  obtain ⟨r, h1, -, h3⟩ := hexadecimal_head i.toNat
  rw [h1, List.length_cons]
  by_cases hr : r.length < w
  · right; omega
  · left
    rw [h3]
    refine Nat.div_lt_of_lt_mul (lt_of_lt_of_le hi ?_)
    rw [Nat.mul_comm]
    exact Nat.mul_le_mul_right 10 (Nat.pow_le_pow_right (by decide) (by omega))

theorem readHex_hexText {w : Nat} {i : Int} (h : 0 ≤ i) : readHex (hexText w i) = .ok i := by
  have hr : Kcd.readDigits 16 Kcd.hex? (hexText w i) 0 = some i.toNat := by
    rw [hexText_nonneg h, Kcd.readDigits_zeros, Kcd.readDigits_hexadecimal]
  have hne : hexText w i ≠ [] := by
    rw [hexText_nonneg h]
    simp [Kcd.hexadecimal_ne_nil]
  unfold readHex
  dsimp only
  split
  · rename_i r he
    rw [he] at hr
    simp [Kcd.readDigits, show Kcd.hex? '-' = none by decide] at hr
  · rw [if_neg hne, hr]
    simp only [Except.map, Int.toNat_of_nonneg h]

theorem frameId_shape {m : DMessage F} {i : Int} (h : ValidFrameId i m.isExtendedFrame) :
    ∃ c r, idText m i = c :: r ++ ['h'] ∧ isDigit c = true ∧ ∀ x ∈ r, Regex.isUpperHex x = true := by
  obtain ⟨h1, h2⟩ := h
  unfold idText
  revert h2
  cases m.isExtendedFrame with
  | false =>
    intro h2
    simp only [Bool.false_eq_true, if_false] at h2 ⊢
    obtain ⟨c, r, h3, h4⟩ := hexText_shape h1 (hexText_bound (w := 2) (by omega))
    exact ⟨c, r, by rw [h3], h4⟩
  | true =>
    intro h2
    simp only [if_true] at h2 ⊢
    obtain ⟨c, r, h3, h4⟩ := hexText_shape h1 (hexText_bound (w := 7) (by omega))
    exact ⟨c, r, by rw [h3], h4⟩

theorem hexOk_id {m : DMessage F} {i : Int} (h : ValidFrameId i m.isExtendedFrame) :
    HexOk (idText m i) ∧ HexOk ('-' :: idText m i) := by
  obtain ⟨c, r, h1, h2, h3⟩ := frameId_shape h
  rw [h1]
  exact ⟨⟨c :: r, rfl, false, c, r, rfl, h2, h3⟩, ⟨'-' :: c :: r, rfl, true, c, r, rfl, h2, h3⟩⟩

theorem hexOk_mux {i : Int} (h : 0 ≤ i ∧ leadingHex i.toNat < 10) : HexOk (hexText 0 i ++ ['h']) := by
  obtain ⟨c, r, h1, h2, h3⟩ := hexText_shape (w := 0) h.1 (.inl h.2)
  exact ⟨hexText 0 i, rfl, false, c, r, h1, h2, h3⟩

/-! ### Lines -/

theorem signalName_eq {s : DSignal F} (h : SymSignal s) : signalName s = s.name := List.take_of_length_le h.short

theorem enumName_eq {s : DSignal F} (h : SymSignal s) : enumName s = enumStem s.name ++ ['E'] := by
  unfold enumName enumStem
  rw [signalName_eq h]

theorem not_keyword {t : Chars} : t ++ ['E'] ∉ keywords := by
  intro h
  have : ∀ k ∈ keywords, k.getLast? ≠ some 'E' := by decide
  exact this _ h (by simp)

theorem isWord_enum {s : DSignal F} (h : SymSignal s) (hi : Ident (enumStem s.name)) : IsWord (enumName s) := by
  rw [enumName_eq h]
  obtain ⟨h1, h2, h3⟩ := hi
  refine ⟨⟨by simp, ?_, ?_⟩, not_keyword⟩
  · intro c hc
    rcases List.mem_append.1 hc with hc | hc
    · exact h2 c hc
    · rw [List.mem_singleton.1 hc]; decide
  · intro c hc
    apply h3
    cases hs : enumStem s.name with
    | nil => exact absurd hs h1
    | cons a r => rw [hs] at hc; simpa using hc

instance (t : Chars) : Decidable (IsWord t) :=
  decidable_of_iff ((t ≠ [] ∧ (∀ c ∈ t, isWordChar c = true) ∧ ∀ c ∈ t.head?, isDigit c = false) ∧ t ∉ keywords) Iff.rfl

theorem isWord_type (T : FloatText F) (s : DSignal F) : IsWord (signalType T s) := by
  unfold signalType
  split
  · split <;> decide
  · split
    · decide
    · split <;> decide

theorem commentOk_of {c : Option Chars} (h : ∀ x, c = some x → LineText x) : CommentOk (commentOf c) := by
  match c with
  | none => intro t ht; cases ht
  | some [] => intro t ht; cases ht
  | some (x :: r) =>
    intro t ht
    cases ht
    refine ⟨_, rfl, ?_⟩
    intro hn
    rcases List.mem_cons.1 hn with h' | h'
    · exact absurd h' (by decide)
    · exact (h _ rfl).1 h'

theorem mem_options {T : FloatText F} {s : DSignal F} {o : SigOption} (h : o ∈ optionsOf T s) :
    (∃ u, s.unit = some u ∧ o = .unit (unitText u)) ∨ o = .factor (s.scale.text T) ∨ o = .offset (s.offset.text T) ∨
    (∃ n, s.maximum = some n ∧ o = .max (n.text T)) ∨ (∃ n, s.minimum = some n ∧ o = .min (n.text T)) ∨
    (∃ v, s.spn = some v ∧ o = .spn (v.text T)) ∨ (∃ cs, s.choices = some cs ∧ o = .enum (enumName s)) := by
  unfold optionsOf at h
  simp only [List.mem_append] at h
  rcases h with h | h | h | h | h | h | h
  · split at h
    · cases h
    · cases h
    · rename_i u _ hu
      exact .inl ⟨_, hu, List.mem_singleton.1 h⟩
  · split at h
    · exact .inr (.inl (List.mem_singleton.1 h))
    · cases h
  · split at h
    · exact .inr (.inr (.inl (List.mem_singleton.1 h)))
    · cases h
  · split at h
    · cases h
    · exact .inr (.inr (.inr (.inl ⟨_, ‹_›, List.mem_singleton.1 h⟩)))
  · split at h
    · cases h
    · exact .inr (.inr (.inr (.inr (.inl ⟨_, ‹_›, List.mem_singleton.1 h⟩))))
  · split at h
    · cases h
    · split at h
      · exact .inr (.inr (.inr (.inr (.inr (.inl ⟨_, ‹_›, List.mem_singleton.1 h⟩)))))
      · cases h
  · split at h
    · cases h
    · cases h
    · exact .inr (.inr (.inr (.inr (.inr (.inr ⟨_, ‹_›, List.mem_singleton.1 h⟩)))))

theorem sigOk_of {T : FloatText F} (L : FloatLaws T) {s : DSignal F} (h : SymSignal s) : SigOk (sigLineOf T s) := by
  refine ⟨?_, isWord_type T s, ⟨_, rfl, isNum_nat _⟩, ?_, commentOk_of fun x hx => (h.comment x hx).2⟩
  · show PlainText (signalName s)
    rw [signalName_eq h]; exact h.name
  · intro o ho
    rcases mem_options ho with ⟨u, h1, rfl⟩ | rfl | rfl | ⟨n, -, rfl⟩ | ⟨n, -, rfl⟩ | ⟨v, h1, rfl⟩ | ⟨cs, h1, rfl⟩
    · exact ⟨u, rfl, (h.unit u h1).2⟩
    · exact isNum_num L _
    · exact isNum_num L _
    · exact isNum_num L _
    · exact isNum_num L _
    · obtain ⟨i, -, rfl⟩ := h.spn v h1
      exact isNum_int i
    · exact isWord_enum h (h.choices cs h1).2.2.2

theorem enumOk_of {s : DSignal F} (h : SymSignal s) {l : EnumLine} (hl : enumLineOf s = some l) : EnumOk l := by
  unfold enumLineOf at hl
  split at hl
  · cases hl
  · cases hl
  · rename_i cs _ hc
    cases hl
    obtain ⟨-, -, h1, h2⟩ := h.choices _ hc
    refine ⟨isWord_enum h h2, ?_⟩
    intro v hv
    obtain ⟨c, hc, rfl⟩ := List.mem_map.1 hv
    exact ⟨isNum_int _, h1 c hc⟩

theorem blockOk_of {T : FloatText F} (L : FloatLaws T) {m : DMessage F} (hn : PlainText m.name)
    (hc : ∀ c, m.comment = some c → LineText c) {sigs : List (DSignal F)} (hs : ∀ s ∈ sigs, SymSignal s)
    {first last : Option Int} (hf : ∀ i, first = some i → ValidFrameId i m.isExtendedFrame)
    (hl : ∀ i, last = some i → ValidFrameId i m.isExtendedFrame) {mux : Option (Int × DSignal F)}
    (hx : ∀ x, mux = some x → PlainText x.2.name ∧ 0 ≤ x.1 ∧ leadingHex x.1.toNat < 10) :
    BlockOk (blockOf T m sigs first last mux) := by
  refine ⟨hn, ?_⟩
  intro l hmem
  unfold blockOf at hmem
  dsimp only at hmem
  rcases List.mem_append.1 hmem with h | hmem
  · split at h
    · cases h
    · rename_i i
      rw [List.mem_singleton.1 h]
      refine ⟨(hexOk_id (hf i rfl)).1, ?_, ?_⟩
      · intro t ht
        obtain ⟨j, hj, rfl⟩ := Option.map_eq_some_iff.1 ht
        exact (hexOk_id (hl j hj)).2
      · intro t ht
        obtain ⟨c, hc', rfl⟩ := Option.map_eq_some_iff.1 ht
        refine ⟨_, rfl, ?_⟩
        intro h
        rcases List.mem_cons.1 h with h | h
        · exact absurd h (by decide)
        · exact (hc c hc').1 h
  rcases List.mem_append.1 hmem with h | hmem
  · split at h
    · rw [List.mem_singleton.1 h]
      exact (by decide : IsWord "Extended".toList)
    · cases h
  rcases List.mem_cons.1 hmem with h | hmem
  · rw [h]; exact isNum_nat _
  rcases List.mem_append.1 hmem with h | hmem
  · split at h
    · cases h
    · split at h
      · rw [List.mem_singleton.1 h]
        exact ⟨isNum_num L _, rfl⟩
      · cases h
  rcases List.mem_append.1 hmem with h | hmem
  · split at h
    · cases h
    · rw [List.mem_singleton.1 h]
      obtain ⟨h1, h2⟩ := hx _ rfl
      refine ⟨h1, isNum_int _, isNum_nat _, hexOk_mux h2, ?_, rfl⟩
      unfold muxLineOf
      dsimp only
      split <;> simp
  · obtain ⟨s, hs', rfl⟩ := List.mem_map.1 hmem
    refine ⟨?_, isNum_int _⟩
    rw [signalName_eq (hs s hs')]
    exact (hs s hs').name

theorem mem_branchBlocks {T : FloatText F} {m : DMessage F} {sel : DSignal F} {ids : List Int} {first : Option Int}
    {b : Block} (h : b ∈ branchBlocks T m sel first ids) : ∃ i ∈ ids, ∃ f : Option Int, (f = first ∨ f = none) ∧
      b = blockOf T m (branchOf m.signals i ++ statics m.signals) f none (some (i, sel)) := by
  induction ids generalizing first with
  | nil => cases h
  | cons i ids ih =>
    rw [branchBlocks] at h
    rcases List.mem_cons.1 h with rfl | h
    · exact ⟨i, by simp, first, .inl rfl, rfl⟩
    · obtain ⟨j, hj, f, hf, hb⟩ := ih h
      exact ⟨j, List.mem_cons_of_mem _ hj, f, .inr (by simpa using hf), hb⟩

theorem Muxed.mem_ids {T : FloatText F} {m : DMessage F} {sel : DSignal F} {a b : List (DSignal F)}
    (h : Muxed T m sel a b) {i : Int} (hi : i ∈ idsOf m.signals) : 0 ≤ i ∧ leadingHex i.toNat < 10 := by
  unfold idsOf at hi
  rw [mem_dedupInt, List.mem_flatMap] at hi
  obtain ⟨s, hs, hi⟩ := hi
  have hs' : s = sel ∨ s ∈ a ++ b := by
    rw [h.split] at hs
    simp only [List.mem_append, List.mem_cons] at hs ⊢
    tauto
  rcases hs' with rfl | hs'
  · rw [h.isSel.root.2] at hi; cases hi
  · rcases h.both s hs' with ⟨-, h1⟩ | ⟨-, ids, -, h1, h2⟩
    · rw [h1] at hi; cases hi
    · rw [h1] at hi; exact h2 i hi

theorem blocksOk_of {T : FloatText F} (L : FloatLaws T) {m : DMessage F} (hm : SymMessage T m) {last : Option Int}
    (hl : ∀ i, last = some i → ValidFrameId i m.isExtendedFrame) : ∀ b ∈ blocksOf T m last, BlockOk b := by
  intro b hb
  unfold blocksOf at hb
  split at hb
  · rw [List.mem_singleton.1 hb]
    exact blockOk_of L hm.name hm.comment hm.signals (by intro i hi; cases hi; exact hm.id) hl (by intro x hx; cases hx)
  · rename_i sel hsel
    have hmux := hm.mux.resolve_left (by
      intro hp
      have := List.find?_some hsel
      rw [(hp sel (List.mem_of_find?_eq_some hsel)).1] at this
      cases this)
    obtain ⟨sel', a, b', h⟩ := muxed_of hm.nodup hmux
    have : sel' = sel := Option.some.inj (h.find.symm.trans hsel)
    subst this
    obtain ⟨i, hi, f, hf, rfl⟩ := mem_branchBlocks hb
    have hs : sel' ∈ m.signals := by rw [h.split]; simp
    refine blockOk_of L hm.name hm.comment ?_ ?_ (by intro i hi; cases hi) ?_
    · intro s hs
      rcases List.mem_append.1 hs with hs | hs
      · exact hm.signals s (List.mem_filter.1 hs).1
      · exact hm.signals s (List.mem_filter.1 hs).1
    · intro j hj
      rcases hf with rfl | rfl
      · cases hj; exact hm.id
      · cases hj
    · intro x hx
      cases hx
      exact ⟨(hm.signals _ hs).name, h.mem_ids hi⟩

theorem mem_firstByName {g : List Chars} {l : List (DSignal F)} {s : DSignal F} (h : s ∈ firstByName g l) : s ∈ l := by
  induction l generalizing g with
  | nil => cases h
  | cons x l ih =>
    rw [firstByName] at h
    split at h
    · exact List.mem_cons_of_mem _ (ih h)
    · rcases List.mem_cons.1 h with rfl | h
      · simp
      · exact List.mem_cons_of_mem _ (ih h)

theorem mem_firstSignals {sort : List (DSignal F) → List (DSignal F)} (hs : ∀ l, (sort l).Perm l) {db : DDatabase F}
    {s : DSignal F} (h : s ∈ firstSignals sort db) : ∃ m ∈ db.messages, s ∈ m.signals := by
  obtain ⟨m, hm, h⟩ := List.mem_flatMap.1 (mem_firstByName h)
  exact ⟨m, hm, (hs _).mem_iff.1 h⟩

theorem GoodGroup.lastId {T : FloatText F} {g : Group F} (G : GoodGroup T g)
    (hall : ∀ x ∈ g.all, SymMessage T x) {i : Int} (hi : g.last = some i) : ValidFrameId i g.lead.isExtendedFrame := by
  have h1 : i ∈ g.all.map (·.frameId) := by
    rw [G.ids.mem_iff]
    rw [G.last] at hi
    split at hi
    · cases hi
    · cases hi
      exact List.mem_map.2 ⟨g.2.length, List.mem_range.2 (by simp [Group.all]), rfl⟩
  obtain ⟨x, hx, rfl⟩ := List.mem_map.1 h1
  have h2 := (hall x hx).id
  rw [G.same x hx] at h2
  exact h2

theorem contentOk_of {T : FloatText F} (L : FloatLaws T) {sort : List (DSignal F) → List (DSignal F)}
    (hs : ∀ l, (sort l).Perm l) {db : DDatabase F} (W : SymDatabase T db) : ContentOk (contentOf T sort db) := by
  have hsec : ∀ p, ∀ b ∈ sectionBlocks T db p, BlockOk b := by
    intro p b hb
    obtain ⟨g, hg, hb⟩ := List.mem_flatMap.1 hb
    have hg := (List.mem_filter.1 hg).1
    have G := goodGroup W hg
    exact blocksOk_of L G.lead (fun i hi => G.lastId (fun x hx => W.messages x (group_mem hg hx)) hi) b hb
  refine ⟨?_, ?_, hsec fun l => decide (l = [ecu]), hsec fun l => decide (l = [peripherals]),
    hsec fun l => !decide (l = [ecu]) && !decide (l = [peripherals])⟩
  · intro e he
    obtain ⟨s, hs', he⟩ := List.mem_filterMap.1 he
    obtain ⟨m, hm, hs'⟩ := mem_firstSignals (fun l => List.Perm.refl l) hs'
    exact enumOk_of ((W.messages m hm).signals s hs') he
  · intro l hl
    obtain ⟨s, hs', rfl⟩ := List.mem_map.1 hl
    obtain ⟨m, hm, hs'⟩ := mem_firstSignals hs hs'
    exact sigOk_of L ((W.messages m hm).signals s hs')

/-- The text of a database is read as its contents. -/
theorem load_text {T : FloatText F} (L : FloatLaws T) {sort : List (DSignal F) → List (DSignal F)}
    (hs : ∀ l, (sort l).Perm l) {db : DDatabase F} (W : SymDatabase T db) {strict : Bool} :
    ∃ text, dumpString T sort db = .ok text ∧ loadString T strict text =
      loadDoc T strict { version := "6.0".toList, sections := (contentOf T sort db).sections } := by
  have C := contentOk_of L hs W
  refine ⟨_, text_content W, ?_⟩
  have hv : hasVersion (textOf (contentOf T sort db).pieces) = true := by
    unfold hasVersion Content.pieces
    rw [textOf_append]
    have h6 : textOf headPieces = "FormatVersion=6.0 // Do not edit this line!\nTitle=\"SYM Database\"\n\n".toList := by
      decide +kernel
    rw [h6]
    rfl
  unfold loadString
  rw [hv]
  exact (bind_of_ok (tokenize_pieces _ (chain_content C))).trans (bind_of_ok (content_parse C))

end Cantools.Sym
