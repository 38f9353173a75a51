import Verif.Lemmas.FilesText
import Verif.Lemmas.DbcKept

/-
The characters of a DBC file.
-/

namespace Cantools.Files
open Cantools Spec Dbc

variable {F : Type}

/-! ### Strings of entries -/

def valQs : Val → List Q
  | .num _ => []
  | .str q => [q]

def defQs : DefVals → List Q
  | .strs x l => x :: l
  | .nums _ => []

def entryQs : Entry → List Q
  | .version v => [v]
  | .valueTable _ pairs => pairs.map (·.2)
  | .message _ _ _ _ sigs => sigs.map (·.unit)
  | .envvar _ _ _ _ unit _ _ _ _ => [unit]
  | .busComment text => [text]
  | .comment _ text => [text]
  | .attrDef _ name _ _ vals => name :: defQs vals
  | .attrDefault name val => name :: valQs val
  | .attr name _ val => name :: valQs val
  | .relDef _ name _ _ vals => name :: defQs vals
  | .relDefault name val => name :: valQs val
  | .sigRel name _ _ _ val => name :: valQs val
  | .msgRel name _ _ val => name :: valQs val
  | .choices _ _ pairs => pairs.map (·.2)
  | _ => []

theorem mem_joinP {sep : List Piece} {l : List (List Piece)} {p : Piece} (h : p ∈ joinP sep l) :
    p ∈ sep ∨ ∃ x ∈ l, p ∈ x := by
  induction l with
  | nil => cases h
  | cons x r ih =>
    cases r with
    | nil => exact .inr ⟨x, by simp, h⟩
    | cons y r =>
      simp only [joinP, List.mem_append] at h
      rcases h with h | h | h
      · exact .inr ⟨x, by simp, h⟩
      · exact .inl h
      · rcases ih h with h | ⟨z, hz, h⟩
        · exact .inl h
        · exact .inr ⟨z, List.mem_cons_of_mem _ hz, h⟩

theorem str_words {raw val : Chars} {sep : List Piece} (hs : ∀ p ∈ sep, p ≠ .str raw val) {l : List Chars}
    (h : Piece.str raw val ∈ joinP sep (l.map fun w => [.word w])) : False := by
  rcases mem_joinP h with h | ⟨x, hx, h⟩
  · exact hs _ h rfl
  · obtain ⟨w, -, rfl⟩ := List.mem_map.1 hx
    simp at h

theorem str_pairs {raw val : Chars} {l : List (Chars × Q)}
    (h : Piece.str raw val ∈ joinP [spc] (l.map pairPieces)) : ⟨raw, val⟩ ∈ l.map (·.2) := by
  rcases mem_joinP h with h | ⟨x, hx, h⟩
  · simp at h
  · obtain ⟨w, hw, rfl⟩ := List.mem_map.1 hx
    simp only [pairPieces, List.mem_cons, List.not_mem_nil, or_false, Q.piece, reduceCtorEq, false_or,
      Piece.str.injEq] at h
    exact List.mem_map.2 ⟨w, hw, by rw [h.1, h.2]⟩

theorem str_obj {raw val : Chars} {o : Obj} (h : Piece.str raw val ∈ o.pieces) : False := by
  cases o <;> simp [Obj.pieces] at h

theorem str_blanks {raw val s : Chars} (h : Piece.str raw val ∈ blanks s) : False := by
  simp [blanks] at h

theorem str_val {raw val : Chars} {v : Val} (h : Piece.str raw val = v.piece) : ⟨raw, val⟩ ∈ valQs v := by
  cases v with
  | num t => cases h
  | str q =>
    simp only [Val.piece, Q.piece, Piece.str.injEq] at h
    simp [valQs, h.1, h.2]

theorem str_sig {raw val : Chars} {s : SigE} (h : Piece.str raw val ∈ s.pieces) : s.unit = ⟨raw, val⟩ := by
  unfold SigE.pieces at h
  simp only [List.mem_append] at h
  rcases h with h | h | h | h | h
  · simp at h
  · cases hm : s.mux <;> simp [hm] at h
  · simp only [List.mem_cons, List.not_mem_nil, or_false, reduceCtorEq, false_or, Q.piece, Piece.str.injEq] at h
    rw [h.1, h.2]
  · split at h <;> simp at h
  · exact (str_words (by simp) h).elim

theorem str_vals {raw val : Chars} {vals : DefVals} (h : Piece.str raw val ∈ vals.pieces) :
    ⟨raw, val⟩ ∈ defQs vals := by
  cases vals with
  | strs x l =>
    rcases mem_joinP h with h | ⟨y, hy, h⟩
    · simp at h
    · obtain ⟨q, hq, rfl⟩ := List.mem_map.1 hy
      simp only [List.mem_cons, List.not_mem_nil, or_false, Q.piece, Piece.str.injEq] at h
      have : q = ⟨raw, val⟩ := by rw [h.1, h.2]
      rw [← this]; exact hq
  | nums l =>
    rcases mem_joinP h with h | ⟨y, hy, h⟩
    · simp at h
    · obtain ⟨q, hq, rfl⟩ := List.mem_map.1 hy
      simp at h

theorem str_entry {raw val : Chars} {e : Entry} (h : Piece.str raw val ∈ e.pieces) : ⟨raw, val⟩ ∈ entryQs e := by
  cases e with
  | version v =>
    simp only [Entry.pieces, List.mem_cons, List.not_mem_nil, or_false, reduceCtorEq, false_or, Q.piece,
      Piece.str.injEq] at h
    simp [entryQs, h.1, h.2]
  | ns =>
    simp only [Entry.pieces, List.mem_append, List.mem_flatMap] at h
    rcases h with (h | h) | ⟨k, -, h | h⟩
    · simp at h
    · exact (str_blanks h).elim
    · simp at h
    · exact (str_blanks h).elim
  | bs => simp [Entry.pieces] at h
  | nodes names =>
    simp only [Entry.pieces, List.mem_append] at h
    rcases h with h | h
    · simp at h
    · exact (str_words (by simp) h).elim
  | valueTable name pairs =>
    simp only [Entry.pieces, List.mem_append] at h
    rcases h with h | h | h
    · simp at h
    · exact str_pairs h
    · simp at h
  | message id name len sender sigs =>
    simp only [Entry.pieces, List.mem_append, List.mem_flatMap] at h
    rcases h with h | ⟨s, hs, h | h⟩
    · simp at h
    · exact (str_blanks h).elim
    · exact List.mem_map.2 ⟨s, hs, str_sig h⟩
  | senders id first more =>
    simp only [Entry.pieces, List.mem_append] at h
    rcases h with h | h | h
    · simp at h
    · exact (str_words (by simp) h).elim
    · simp at h
  | envvar name type lo hi unit init id acc node =>
    simp only [Entry.pieces, List.mem_cons, List.not_mem_nil, or_false, reduceCtorEq, false_or, Q.piece,
      Piece.str.injEq] at h
    simp [entryQs, h.1, h.2]
  | busComment text =>
    simp only [Entry.pieces, List.mem_cons, List.not_mem_nil, or_false, reduceCtorEq, false_or, Q.piece,
      Piece.str.injEq] at h
    simp [entryQs, h.1, h.2]
  | comment obj text =>
    simp only [Entry.pieces, List.mem_append] at h
    rcases h with h | h | h
    · simp at h
    · exact (str_obj h).elim
    · simp only [List.mem_cons, List.not_mem_nil, or_false, reduceCtorEq, false_or, Q.piece, Piece.str.injEq] at h
      simp [entryQs, h.1, h.2]
  | attrDef kind name type gap vals =>
    simp only [Entry.pieces, List.mem_append] at h
    rcases h with h | h | h | h | h | h
    · simp at h
    · cases kind <;> simp at h
    · simp only [List.mem_cons, List.not_mem_nil, or_false, reduceCtorEq, false_or, Q.piece, Piece.str.injEq] at h
      simp [entryQs, h.1, h.2]
    · exact (str_blanks h).elim
    · exact List.mem_cons_of_mem _ (str_vals h)
    · simp at h
  | attrDefault name val =>
    simp only [Entry.pieces, List.mem_cons, List.not_mem_nil, or_false, reduceCtorEq, false_or, Q.piece,
      Piece.str.injEq] at h
    rcases h with h | h
    · simp [entryQs, h.1, h.2]
    · exact List.mem_cons_of_mem _ (str_val h)
  | attr name obj val =>
    simp only [Entry.pieces, List.mem_append] at h
    rcases h with h | h | h
    · simp only [List.mem_cons, List.not_mem_nil, or_false, reduceCtorEq, false_or, Q.piece, Piece.str.injEq] at h
      simp [entryQs, h.1, h.2]
    · cases obj with
      | none => simp at h
      | some o =>
        rcases List.mem_append.1 h with h | h
        · exact (str_obj h).elim
        · simp at h
    · simp only [List.mem_cons, List.not_mem_nil, or_false, reduceCtorEq] at h
      exact List.mem_cons_of_mem _ (str_val h)
  | relDef kind name type gap vals =>
    simp only [Entry.pieces, List.mem_append] at h
    rcases h with h | h | h | h
    · simp only [List.mem_cons, List.not_mem_nil, or_false, reduceCtorEq, false_or, Q.piece, Piece.str.injEq] at h
      simp [entryQs, h.1, h.2]
    · exact (str_blanks h).elim
    · exact List.mem_cons_of_mem _ (str_vals h)
    · simp at h
  | relDefault name val =>
    simp only [Entry.pieces, List.mem_cons, List.not_mem_nil, or_false, reduceCtorEq, false_or, Q.piece,
      Piece.str.injEq] at h
    rcases h with h | h
    · simp [entryQs, h.1, h.2]
    · exact List.mem_cons_of_mem _ (str_val h)
  | sigRel name node id signal val =>
    simp only [Entry.pieces, List.mem_cons, List.not_mem_nil, or_false, reduceCtorEq, false_or, Q.piece,
      Piece.str.injEq] at h
    rcases h with h | h
    · simp [entryQs, h.1, h.2]
    · exact List.mem_cons_of_mem _ (str_val h)
  | msgRel name node id val =>
    simp only [Entry.pieces, List.mem_cons, List.not_mem_nil, or_false, reduceCtorEq, false_or, Q.piece,
      Piece.str.injEq] at h
    rcases h with h | h
    · simp [entryQs, h.1, h.2]
    · exact List.mem_cons_of_mem _ (str_val h)
  | choices id name pairs =>
    simp only [Entry.pieces, List.mem_append] at h
    rcases h with h | h | h
    · simp at h
    · exact str_pairs h
    · simp at h
  | sigType id name type => simp [Entry.pieces] at h
  | group id name rep names =>
    simp only [Entry.pieces, List.mem_append] at h
    rcases h with h | h | h
    · simp at h
    · exact (str_words (by simp) h).elim
    · simp at h
  | muxVal id name mux first more =>
    simp only [Entry.pieces, List.mem_append] at h
    rcases h with h | h | h
    · simp at h
    · rcases mem_joinP h with h | ⟨y, hy, h⟩
      · simp at h
      · obtain ⟨q, hq, rfl⟩ := List.mem_map.1 hy
        simp [rangePieces] at h
    · simp at h

theorem chain_ok : ∀ {ps : List Piece}, Chain ps → ∀ p ∈ ps, p.Ok := by
  intro ps
  induction ps with
  | nil => intro _ p hp; cases hp
  | cons q r ih =>
    rintro ⟨h1, -, h3⟩ p hp
    rcases List.mem_cons.1 hp with rfl | hp
    · exact h1
    · exact ih h3 p hp

/-! ### Characters -/

/-- Characters of texts: ASCII among them, carriage returns apart. -/
structure Base (P : Char → Prop) : Prop where
  ascii : ∀ c : Char, c.toNat < 0x80 → c ≠ '\r' → P c

def Fine (P : Char → Prop) (t : Chars) : Prop := ∀ c ∈ t, P c

variable {P : Char → Prop}

theorem fine_ascii (B : Base P) {t : Chars} (h : ∀ c ∈ t, c.toNat < 0x80 ∧ c ≠ '\r') : Fine P t :=
  fun c hc => B.ascii c (h c hc).1 (h c hc).2

theorem fine_name (B : Base P) {t : Chars} (h : Name t) : Fine P t := fine_ascii B fun c hc => isWordChar_ascii (h.1.2.1 c hc)

theorem fine_number (B : Base P) {t : Chars} (h : IsNumber t) : Fine P t := fine_ascii B (number_ascii h)

theorem fine_nil : Fine P [] := fun c hc => by cases hc

theorem fine_cons {c : Char} {t : Chars} (hc : P c) (h : Fine P t) : Fine P (c :: t) := by
  intro d hd
  rcases List.mem_cons.1 hd with rfl | hd
  · exact hc
  · exact h d hd

theorem fine_append {a b : Chars} (ha : Fine P a) (hb : Fine P b) : Fine P (a ++ b) := by
  intro d hd
  rcases List.mem_append.1 hd with h | h
  · exact ha d h
  · exact hb d h

theorem fine_pq (B : Base P) {t : Chars} (h : Fine P t) : Fine P (pq t).raw :=
  fine_cons (B.ascii _ (by decide) (by decide))
    (fine_append h (fine_cons (B.ascii _ (by decide) (by decide)) fine_nil))

theorem fine_escape (B : Base P) {t : Chars} (h : Fine P t) : Fine P (escapeQuotes t) := by
  induction t with
  | nil => exact fine_nil
  | cons c r ih =>
    have hr := ih fun d hd => h d (List.mem_cons_of_mem _ hd)
    rw [escapeQuotes]
    split
    · exact fine_cons (B.ascii _ (by decide) (by decide)) (fine_cons (B.ascii _ (by decide) (by decide)) hr)
    · exact fine_cons (h c (by simp)) hr

theorem fine_cq (B : Base P) {t : Chars} (h : Fine P t) : Fine P (cq t).raw :=
  fine_cons (B.ascii _ (by decide) (by decide))
    (fine_append (fine_escape B h) (fine_cons (B.ascii _ (by decide) (by decide)) fine_nil))

/-- The characters of a piece. -/
theorem piece_fine (B : Base P) {p : Piece} (h : p.Ok) (hs : ∀ raw val, p = .str raw val → Fine P raw) :
    (∃ c, p = .sp c ∧ isBlank c = true) ∨ Fine P p.text := by
  cases p with
  | sp c => exact .inl ⟨c, rfl, h⟩
  | key k =>
    have : ∀ k ∈ keywords, ∀ c ∈ k, c.toNat < 0x80 ∧ c ≠ '\r' := by decide +kernel
    exact .inr (fine_ascii B (this _ h))
  | word w => exact .inr (fine_name B h)
  | num t => exact .inr (fine_number B h)
  | str raw val => exact .inr (hs raw val rfl)
  | pun c =>
    refine .inr (fine_ascii B ?_)
    intro d hd
    simp only [Piece.text, List.mem_cons, List.not_mem_nil, or_false] at hd
    subst hd
    have h : (punct? d).isSome = true := h
    unfold punct? at h
    split at h <;> first | decide | cases h

/-! ### The texts that are written -/

section
variable {T : FloatText F} (L : FloatLaws T) (B : Base P)

theorem mem_attrTexts {as : Attrs F} {e : Chars × Attr F} (he : e ∈ as) {s : Chars} (h : e.2.value = .str s) :
    s ∈ attrTexts as := List.mem_flatMap.2 ⟨e, he, by rw [h]; simp [valueTexts]⟩

theorem attrTexts_mem {as : Attrs F} {t : Chars} (h : t ∈ attrTexts as) : ∃ e ∈ as, e.2.value = .str t := by
  obtain ⟨e, he, h⟩ := List.mem_flatMap.1 h
  cases hv : e.2.value with
  | num n => rw [hv] at h; cases h
  | str s =>
    rw [hv] at h
    simp only [valueTexts, List.mem_cons, List.not_mem_nil, or_false] at h
    exact ⟨e, he, by rw [hv, h]⟩

theorem shortAttrs_texts {sys new old t : Chars} {d : AttrDef F} {as : Attrs F}
    (h : t ∈ attrTexts (shortAttrs sys d new old as)) : t = old ∨ t ∈ attrTexts as := by
  obtain ⟨e, he, hv⟩ := attrTexts_mem h
  unfold shortAttrs at he
  split at he
  · exact .inr (mem_attrTexts (mem_dictPop he).1 hv)
  · rcases mem_dictSet he with rfl | he
    · simp only [AttrVal.str.injEq] at hv
      exact .inl hv.symm
    · exact .inr (mem_attrTexts (mem_dictPop he).1 hv)

theorem mem_addDef {need : Bool} {d : AttrDef F} {defs : Defs F} {e : Chars × AttrDef F} (h : e ∈ addDef need d defs) :
    e = (d.name, d) ∨ e ∈ defs := by
  unfold addDef at h
  split at h
  · exact mem_dictSet h
  · exact .inr h

theorem fine_longSymbol {name : Chars} (h : Fine P name) (kind : String) :
    ∀ t ∈ defTexts (longSymbolDef name kind : AttrDef F), Fine P t := by
  intro t ht
  simp only [longSymbolDef, defTexts, Option.toList, List.flatMap_cons, List.flatMap_nil, valueTexts,
    List.nil_append, List.mem_cons, List.not_mem_nil, or_false, List.append_nil] at ht
  rcases ht with rfl | rfl
  · exact h
  · exact fine_nil

include B in
theorem written_texts {db : DDatabase F} (W : WritableDatabase T db) (shorten : Bool)
    (h : ∀ t ∈ dbcTexts db, Fine P t) : ∀ t ∈ dbcTexts (writtenDb shorten db), Fine P t := by
  intro t ht
  unfold dbcTexts at ht
  simp only [List.mem_append] at ht
  have own : ∀ t, t ∈ dbcTexts db → Fine P t := h
  simp only [dbcTexts, List.mem_append] at own
  rcases ht with ht | ht | ht | ht | ht | ht | ht | ht
  · exact own t (.inl ht)
  · obtain ⟨n', hn', ht⟩ := List.mem_flatMap.1 ht
    obtain ⟨n, hn, rfl⟩ := List.mem_map.1 hn'
    rcases List.mem_append.1 ht with ht | ht
    · exact own t (.inr (.inl (List.mem_flatMap.2 ⟨n, hn, List.mem_append_left _ ht⟩)))
    · rcases shortAttrs_texts ht with rfl | ht
      · exact fine_name B (W.nodes n hn).name
      · exact own t (.inr (.inl (List.mem_flatMap.2 ⟨n, hn, List.mem_append_right _ ht⟩)))
  · obtain ⟨m', hm', ht⟩ := List.mem_flatMap.1 ht
    obtain ⟨m, hm, rfl⟩ := List.mem_map.1 hm'
    have up : ∀ t, t ∈ (m.comment.toList ++ (attrTexts m.attributes ++
        m.signals.flatMap fun s => signalTexts s ++ attrTexts s.attributes)) → Fine P t := fun t ht =>
      own t (.inr (.inr (.inl (List.mem_flatMap.2 ⟨m, hm, ht⟩))))
    rcases List.mem_append.1 ht with ht | ht
    · exact up t (List.mem_append_left _ ht)
    rcases List.mem_append.1 ht with ht | ht
    · rcases shortAttrs_texts ht with rfl | ht
      · exact fine_name B (W.messages m hm).name
      · exact up t (List.mem_append_right _ (List.mem_append_left _ ht))
    · obtain ⟨s', hs', ht⟩ := List.mem_flatMap.1 ht
      obtain ⟨s, hs, rfl⟩ := List.mem_map.1 hs'
      have up2 : ∀ t, t ∈ signalTexts s ++ attrTexts s.attributes → Fine P t := fun t ht =>
        up t (List.mem_append_right _ (List.mem_append_right _ (List.mem_flatMap.2 ⟨s, hs, ht⟩)))
      rcases List.mem_append.1 ht with ht | ht
      · exact up2 t (List.mem_append_left _ ht)
      · rcases shortAttrs_texts ht with rfl | ht
        · exact fine_name B ((W.messages m hm).signals s hs).name
        · exact up2 t (List.mem_append_right _ ht)
  · exact own t (.inr (.inr (.inr (.inl ht))))
  · exact own t (.inr (.inr (.inr (.inr (.inl ht)))))
  · obtain ⟨e, he, ht⟩ := List.mem_flatMap.1 ht
    have he : e ∈ writtenDefs shorten db := he
    unfold writtenDefs at he
    have hsys : ∀ n ∈ [systemNode, systemMessage, systemSignal, systemEnvvar], Fine P n := by
      intro n hn
      refine fine_ascii B ?_
      revert n
      decide +kernel
    rcases mem_addDef he with rfl | he
    · exact fine_longSymbol (hsys _ (by simp)) _ t ht
    rcases mem_addDef he with rfl | he
    · exact fine_longSymbol (hsys _ (by simp)) _ t ht
    rcases mem_addDef he with rfl | he
    · exact fine_longSymbol (hsys _ (by simp)) _ t ht
    rcases mem_addDef he with rfl | he
    · exact fine_longSymbol (hsys _ (by simp)) _ t ht
    exact own t (.inr (.inr (.inr (.inr (.inr (.inl (List.mem_flatMap.2 ⟨e, he, ht⟩)))))))
  · obtain ⟨e', he', ht⟩ := List.mem_flatMap.1 ht
    obtain ⟨e, he, rfl⟩ := List.mem_map.1 he'
    have up : ∀ t, t ∈ e.2.unit :: (e.2.comment.toList ++ attrTexts e.2.attributes) → Fine P t := fun t ht =>
      own t (.inr (.inr (.inr (.inr (.inr (.inr (.inl (List.mem_flatMap.2 ⟨e, he, ht⟩))))))))
    rcases List.mem_cons.1 ht with rfl | ht
    · exact up _ (by simp [writtenEnv])
    rcases List.mem_append.1 ht with ht | ht
    · exact up t (List.mem_cons_of_mem _ (List.mem_append_left _ ht))
    · rcases shortAttrs_texts ht with rfl | ht
      · exact fine_name B (W.envvars e he).name
      · exact up t (List.mem_cons_of_mem _ (List.mem_append_right _ ht))
  · exact own t (.inr (.inr (.inr (.inr (.inr (.inr (.inr ht)))))))


/-! ### The strings of the entries -/

variable {db : DDatabase F} (W : WritableDatabase T db) (h : ∀ t ∈ dbcTexts db, Fine P t)
  {sort sortAttrs : List (DSignal F) → List (DSignal F)}

include h in
theorem fine_node {n : DNode F} (hn : n ∈ db.nodes) {t : Chars} (ht : t ∈ n.comment.toList ++ attrTexts n.attributes) :
    Fine P t := h t (by
  unfold dbcTexts
  simp only [List.mem_append]
  exact .inr (.inl (List.mem_flatMap.2 ⟨n, hn, ht⟩)))

include h in
theorem fine_message {m : DMessage F} (hm : m ∈ db.messages) {t : Chars}
    (ht : t ∈ m.comment.toList ++ (attrTexts m.attributes ++
        m.signals.flatMap fun s => signalTexts s ++ attrTexts s.attributes)) : Fine P t := h t (by
  unfold dbcTexts
  simp only [List.mem_append]
  exact .inr (.inr (.inl (List.mem_flatMap.2 ⟨m, hm, ht⟩))))

include h in
theorem fine_signal {m : DMessage F} (hm : m ∈ db.messages) {s : DSignal F} (hs : s ∈ m.signals) {t : Chars}
    (ht : t ∈ signalTexts s ++ attrTexts s.attributes) : Fine P t :=
  fine_message h hm (List.mem_append_right _ (List.mem_append_right _ (List.mem_flatMap.2 ⟨s, hs, ht⟩)))

include h in
theorem fine_env {e : Chars × DEnvvar F} (he : e ∈ db.envvars) {t : Chars}
    (ht : t ∈ e.2.unit :: (e.2.comment.toList ++ attrTexts e.2.attributes)) : Fine P t := h t (by
  unfold dbcTexts
  simp only [List.mem_append]
  exact .inr (.inr (.inr (.inr (.inr (.inr (.inl (List.mem_flatMap.2 ⟨e, he, ht⟩))))))))

include B h in
theorem fine_sync {e : Chars × AttrDef F} (he : e ∈ syncDefinitions T db) : ∀ t ∈ defTexts e.2, Fine P t := by
  intro t ht
  have lit : ∀ l : List Chars, (∀ t ∈ l, ∀ c ∈ t, c.toNat < 0x80 ∧ c ≠ '\r') → t ∈ l → Fine P t :=
    fun l hl ht => fine_ascii B (hl t ht)
  unfold syncDefinitions at he
  dsimp only at he
  rcases mem_addDef he with rfl | he
  · exact lit ["CANFD_BRS".toList, ['0'], ['1'], ['1']] (by decide +kernel) ht
  rcases mem_addDef he with rfl | he
  · exact lit (vFrameFormat :: (frameFormats ++ ["StandardCAN".toList])) (by decide +kernel) ht
  have he : e = ((baudrateDef : AttrDef F).name, baudrateDef) ∨
      e ∈ addDef (db.messages.any fun m => m.signals.any fun s => s.rawInitial.isSome) (startValueDef T)
        (addDef (db.messages.any fun m => m.cycleTime.isSome) cycleTimeDef db.definitions) := by
    split at he
    · exact mem_addDef he
    · exact .inr (mem_dictPop he).1
  rcases he with rfl | he
  · exact lit [baudrate] (by decide +kernel) ht
  rcases mem_addDef he with rfl | he
  · exact lit [genSigStartValue] (by decide +kernel) ht
  rcases mem_addDef he with rfl | he
  · exact lit [genMsgCycleTime] (by decide +kernel) ht
  exact h t (by
    unfold dbcTexts
    simp only [List.mem_append]
    exact .inr (.inr (.inr (.inr (.inr (.inl (List.mem_flatMap.2 ⟨e, he, ht⟩)))))))

/-- The texts of an attribute. -/
def FineAttr (P : Char → Prop) (a : Attr F) : Prop :=
  Fine P a.definition.name ∧ ∀ s, a.value = .str s → Fine P s

include L B in
theorem fine_value {v : AttrVal F} (hv : ∀ s, v = .str s → Fine P s) : Fine P (v.text T) := by
  cases v with
  | num n => exact fine_number B (isNumber_num L n)
  | str s => exact hv s rfl

include B in
theorem fine_valE {quoted : Bool} {t : Chars} (h : Fine P t) : ∀ q ∈ valQs (valE quoted t), Fine P q.raw := by
  intro q hq
  cases quoted
  · cases hq
  · simp only [valE, if_true, valQs, List.mem_cons, List.not_mem_nil, or_false] at hq
    rw [hq]
    exact fine_pq B h

include L B in
theorem fine_attr {obj : Option Obj} {a : Attr F} (h : FineAttr P a) : ∀ q ∈ entryQs (eAttr T obj a), Fine P q.raw := by
  intro q hq
  rcases List.mem_cons.1 hq with rfl | hq
  · exact fine_pq B h.1
  · exact fine_valE B (fine_value L B h.2) q hq

include B h in
theorem fine_defined {name : Chars} {d : AttrDef F} (hd : dictGet? (syncDefinitions T db) name = some d) :
    Fine P d.name := fine_sync B h (dictGet?_mem hd) _ (by simp [defTexts])

include h in
theorem fine_own {kind : Option String} {as : Attrs F} (hw : WritableAttrs db.definitions kind as)
    (ht : ∀ t ∈ attrTexts as, Fine P t) {e : Chars × Attr F} (he : e ∈ as) : FineAttr P e.2 := by
  refine ⟨?_, fun s hs => ht s (mem_attrTexts he hs)⟩
  have := dictGet?_mem (hw.defined e he).1
  exact h _ (by
    unfold dbcTexts
    simp only [List.mem_append]
    exact .inr (.inr (.inr (.inr (.inr (.inl (List.mem_flatMap.2 ⟨_, this, by simp [defTexts]⟩)))))))

include L B W h in
theorem fine_attrs (hsa : Sorts sortAttrs) {e : Entry} (he : e ∈ eAttrs T sortAttrs (syncDefinitions T db) db) :
    ∀ q ∈ entryQs e, Fine P q.raw := by
  have hdb : ∀ t ∈ attrTexts db.attributes, Fine P t := fun t ht => h t (by
    unfold dbcTexts
    simp only [List.mem_append]
    exact .inr (.inr (.inr (.inr (.inl ht)))))
  unfold eAttrs eMsgAttrs at he
  simp only [List.mem_append, List.mem_flatMap, List.mem_map] at he
  rcases he with ((⟨a, ha, rfl⟩ | ⟨v, hv, a, ha, rfl⟩) | ⟨n, hn, a, ha, rfl⟩) |
    ⟨m, hm, ⟨a, ha, rfl⟩ | ⟨s, hs, a, ha, rfl⟩⟩
  · refine fine_attr L B ?_
    rcases (dbAttrs_eq W).2 with ⟨-, e⟩ | ⟨b, d, -, hd, e⟩
    · rw [e] at ha
      exact fine_own h W.attributes hdb (mem_dictPop ha).1
    · rw [e] at ha
      rcases mem_dictSet ha with rfl | ha
      · exact ⟨fine_defined B h hd, fun s hs => by cases hs⟩
      · exact fine_own h W.attributes hdb (mem_dictPop ha).1
  · exact fine_attr L B (fine_own h (W.envvars v hv).attributes
      (fun t ht => fine_env h hv (List.mem_cons_of_mem _ (List.mem_append_right _ ht))) ha)
  · exact fine_attr L B (fine_own h (W.nodes n hn).attributes
      (fun t ht => fine_node h hn (List.mem_append_right _ ht)) ha)
  · refine fine_attr L B ?_
    have cyc : ∀ a ∈ syncCycleTime T (syncDefinitions T db) m, FineAttr P a.2 := by
      intro a ha
      rcases mem_syncCycleTime ha with ha | ⟨d, hd, rfl⟩
      · exact fine_own h (W.messages m hm).attributes
          (fun t ht => fine_message h hm (List.mem_append_right _ (List.mem_append_left _ ht))) ha
      · exact ⟨fine_defined B h hd, fun s hs => by cases hs⟩
    rw [(msgAttrs_eq W m).2] at ha
    cases hd : dictGet? (syncDefinitions T db) vFrameFormat with
    | none => rw [hd] at ha; exact cyc a ha
    | some d =>
      rw [hd] at ha
      simp only at ha
      split at ha
      · rcases mem_dictSet ha with rfl | ha
        · refine ⟨fine_defined B h hd, fun s hs => ?_⟩
          simp only [formatAttr, AttrVal.str.injEq] at hs
          rw [← hs]
          exact fine_number B (isNumber_intText _)
        · exact cyc a ha
      · exact cyc a ha
  · refine fine_attr L B ?_
    have hs' := (hsa _).mem_iff.1 hs
    have own : ∀ a ∈ s.attributes, FineAttr P a.2 := fun a ha =>
      fine_own h ((W.messages m hm).signals s hs').attributes
        (fun t ht => fine_signal h hm hs' (List.mem_append_right _ ht)) ha
    rw [syncStartValue_eq] at ha
    split at ha
    · exact own a (mem_dictPop ha).1
    · rcases mem_dictSet ha with rfl | ha
      · refine ⟨fine_ascii B ?_, fun s hs => by cases hs⟩
        have : ∀ c ∈ genSigStartValue, c.toNat < 0x80 ∧ c ≠ '\r' := by decide +kernel
        exact this
      · exact own a ha

include L B W h in
theorem fine_entries (hs : Sorts sort) (hsa : Sorts sortAttrs) :
    ∀ e ∈ entriesE T sort sortAttrs db, ∀ q ∈ entryQs e, Fine P q.raw := by
  intro e he q hq
  unfold entriesE partsOf at he
  simp only [List.flatMap_cons, List.flatMap_nil, List.mem_append, List.mem_cons, List.not_mem_nil, or_false] at he
  have sub : ∀ t, t ∈ dbcTexts db → Fine P t := h
  simp only [dbcTexts, List.mem_append] at sub
  rcases he with rfl | rfl | rfl | rfl | he | he | he | he | he | he | he | he | he | he | he | he
  · simp only [entryQs, List.mem_cons, List.not_mem_nil, or_false] at hq
    rw [hq]
    refine fine_pq B ?_
    cases hv : db.version with
    | none => exact fine_nil
    | some v => exact sub v (.inl (by rw [hv]; simp))
  · cases hq
  · cases hq
  · cases hq
  · obtain ⟨t, ht, rfl⟩ := List.mem_map.1 he
    obtain ⟨p, hp, rfl⟩ := List.mem_map.1 hq
    obtain ⟨c, hc, rfl⟩ := List.mem_map.1 hp
    have hc : c ∈ t.2 := (pySorted_perm _ _).mem_iff.1 hc
    exact fine_pq B (sub _ (.inr (.inr (.inr (.inr (.inr (.inr (.inr
      (List.mem_flatMap.2 ⟨t, ht, List.mem_map.2 ⟨c, hc, rfl⟩⟩)))))))))
  · obtain ⟨m, hm, rfl⟩ := List.mem_map.1 he
    obtain ⟨p, hp, rfl⟩ := List.mem_map.1 hq
    obtain ⟨s, hss, rfl⟩ := List.mem_map.1 hp
    have hss := (hs _).mem_iff.1 hss
    refine fine_pq B ?_
    cases hu : s.unit with
    | none => exact fine_nil
    | some u => exact fine_signal h hm hss (by simp [signalTexts, hu])
  · obtain ⟨m, -, rfl⟩ := List.mem_map.1 he
    cases hq
  · obtain ⟨v, hv, rfl⟩ := List.mem_map.1 he
    simp only [eEnv, entryQs, List.mem_cons, List.not_mem_nil, or_false] at hq
    rw [hq]
    exact fine_cq B (fine_env h hv (by simp))
  · unfold eComments at he
    simp only [List.mem_append, List.mem_flatMap, Option.mem_toList, Option.map_eq_some_iff] at he
    rcases he with ((⟨b, hb, c, hc, rfl⟩ | ⟨n, hn, c, hc, rfl⟩) | ⟨m, hm, ⟨c, hc, rfl⟩ | ⟨s, hss, c, hc, rfl⟩⟩) |
      ⟨v, hv, c, hc, rfl⟩ <;> simp only [entryQs, List.mem_cons, List.not_mem_nil, or_false] at hq <;> rw [hq]
    · exact fine_pq B (sub c (.inr (.inr (.inr (.inl (List.mem_flatMap.2 ⟨b, hb, by rw [hc]; simp⟩))))))
    · exact fine_cq B (fine_node h hn (by rw [hc]; simp))
    · exact fine_cq B (fine_message h hm (by rw [hc]; simp))
    · exact fine_cq B (fine_signal h hm ((hsa _).mem_iff.1 hss) (by simp [signalTexts, hc]))
    · exact fine_cq B (fine_env h hv (by rw [hc]; simp))
  · obtain ⟨d, hd, rfl⟩ := List.mem_map.1 he
    have hd' := fine_sync B h hd
    rcases List.mem_cons.1 hq with rfl | hq
    · exact fine_pq B (hd' _ (by simp [defTexts]))
    · unfold defVals at hq
      split at hq
      · rename_i c r hc
        have : ∃ x ∈ d.2.choices, q = pq x := by
          rw [hc]
          rcases List.mem_cons.1 hq with rfl | hq
          · exact ⟨c, by simp, rfl⟩
          · obtain ⟨x, hx, rfl⟩ := List.mem_map.1 hq
            exact ⟨x, List.mem_cons_of_mem _ hx, rfl⟩
        obtain ⟨x, hx, rfl⟩ := this
        exact fine_pq B (hd' x (by simp [defTexts, hx]))
      · split at hq <;> cases hq
  · obtain ⟨d, hd, hm⟩ := List.mem_filterMap.1 he
    obtain ⟨v, hv, rfl⟩ := Option.map_eq_some_iff.1 hm
    have hd' := fine_sync B h hd
    rcases List.mem_cons.1 hq with rfl | hq
    · exact fine_pq B (hd' _ (by simp [defTexts]))
    · refine fine_valE B (fine_value L B ?_) q hq
      rintro s rfl
      exact hd' s (by simp [defTexts, hv, valueTexts])
  · exact fine_attrs L B W h hsa he q hq
  · unfold eChoices at he
    simp only [List.mem_flatMap, Option.mem_toList, Option.map_eq_some_iff] at he
    obtain ⟨m, hm, s, hss, cs, hcs, rfl⟩ := he
    obtain ⟨p, hp, rfl⟩ := List.mem_map.1 hq
    obtain ⟨c, hc, rfl⟩ := List.mem_map.1 hp
    refine fine_pq B (fine_signal h hm ((hsa _).mem_iff.1 hss) ?_)
    simp only [signalTexts, hcs, Option.getD_some, List.mem_append, List.mem_map]
    exact .inl (.inr (.inr ⟨c, hc, rfl⟩))
  · unfold eTypes at he
    simp only [List.mem_flatMap, List.mem_map] at he
    obtain ⟨m, hm, s, hs, rfl⟩ := he
    cases hq
  · unfold eGroups at he
    simp only [List.mem_flatMap, List.mem_map] at he
    obtain ⟨m, hm, g, hg, rfl⟩ := he
    cases hq
  · unfold eMux at he
    split at he
    · simp only [List.mem_flatMap, List.mem_map] at he
      obtain ⟨m, hm, s, hs, rfl⟩ := he
      cases hq
    · cases he

include L B W h in
/-- The text of the database: it is made of pieces in order, without carriage returns but between them. -/
theorem text_pieces (hs : Sorts sort) (hsa : Sorts sortAttrs) {text : Chars}
    (ht : render T sort sortAttrs db = .ok text) :
    ∃ ps, Chain ps ∧ textOf ps = text ∧ ∀ p ∈ ps, (∃ c, p = .sp c ∧ isBlank c = true) ∨ Fine P p.text := by
  rw [render_eq L W hs hsa] at ht
  cases ht
  have hp := parts_ok L W hs hsa
  have hf := fine_entries L B W h hs hsa
  unfold entriesE at hf
  rw [← List.flatMap_map (f := fun p : String × Part => p.2) (g := fun p : Part => p.entries)] at hf
  generalize (partsOf T sort sortAttrs db).map (·.2) = parts at hp hf
  have hc : Chain (parts.flatMap Part.pieces) := by
    clear hf
    induction parts with
    | nil => trivial
    | cons p r ih =>
      rw [List.flatMap_cons]
      exact chain_part (hp p (by simp)) (ih fun q hq => hp q (List.mem_cons_of_mem _ hq))
  refine ⟨_, hc, by unfold textOf; rw [List.flatMap_assoc], ?_⟩
  intro p hpp
  refine piece_fine B (chain_ok hc p hpp) ?_
  rintro raw val rfl
  obtain ⟨part, hpart, hmem⟩ := List.mem_flatMap.1 hpp
  unfold Part.pieces at hmem
  rcases List.mem_append.1 hmem with hmem | hmem
  · rcases mem_joinP hmem with hmem | ⟨x, hx, hmem⟩
    · exact (str_blanks hmem).elim
    · obtain ⟨e, he, rfl⟩ := List.mem_map.1 hx
      exact hf e (List.mem_flatMap.2 ⟨part, hpart, he⟩) _ (str_entry hmem)
  · exact (str_blanks hmem).elim

end

/-- The characters of the text, and the tokens that are read from it. -/
theorem dbc_text {T : FloatText F} (L : FloatLaws T) {U : Unicode} (hU : UnicodeLaws U) {db : DDatabase F}
    (W : WritableDatabase T db) {shorten : Bool} (K : shorten = true → KeptNames db) {good : Char → Prop}
    (hg : ∀ c : Char, c.toNat < 0x80 → good c) (h : FineTexts good (dbcTexts db))
    {sort sortAttrs : List (DSignal F) → List (DSignal F)} (hs : Sorts sort) (hsa : Sorts sortAttrs) {text : Chars}
    (ht : dumpString U T sort sortAttrs shorten db = .ok text) :
    (∀ c ∈ text, good c) ∧ ∀ strict, loadString T strict (universal text) = loadString T strict text := by
  have B : Base fun c => good c ∧ c ≠ '\r' := ⟨fun c hc hr => ⟨hg c hc, hr⟩⟩
  rw [dumpString_eq hU W fun h => (K h).nodes] at ht
  obtain ⟨ps, h1, rfl, h3⟩ := text_pieces L B (written_writable K W) (written_texts B W shorten h) hs hsa ht
  constructor
  · intro c hc
    obtain ⟨p, hp, hc⟩ := List.mem_flatMap.1 hc
    rcases h3 p hp with ⟨d, rfl, hd⟩ | hf
    · simp only [Piece.text, List.mem_cons, List.not_mem_nil, or_false] at hc
      subst hc
      apply hg
      rcases isBlank_cases hd with rfl | rfl | rfl | rfl <;> decide
    · exact (hf c hc).1
  · intro strict
    unfold loadString
    rw [tokenize_universal h1]
    intro p hp
    rcases h3 p hp with ⟨d, rfl, -⟩ | hf
    · exact .inl ⟨d, rfl⟩
    · exact .inr fun hc => (hf _ hc).2 rfl

end Cantools.Files
