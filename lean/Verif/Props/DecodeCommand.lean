import Verif.Spec.DecodeCommand
import Verif.Props.Container
import Verif.Props.LogReader
import Verif.Lemmas.AcceptedDecode
import Verif.Props.Example

/-
C49: what the `decode` command prints.
-/

namespace Cantools
open Spec Dbc

namespace DecodeCommand

variable {fo : FloatOps} {T : Texts} {o : Options}

theorem signalText_entry (s : Signal) (v : Value) : EntryOf T (s, v) (signalText T s v) := by
  unfold EntryOf signalText
  cases v <;> cases h : T.unit s <;> exact ⟨_, rfl, rfl⟩

/-- Looking up every signal gives all values. -/
theorem filterMap_perm {sigs : List Signal} {r : List (String × Value)} (hnd : (sigs.map (·.name)).Nodup)
    (hr : (r.map (·.1)).Nodup) (hsub : ∀ n v, dictGet? r n = some v → ∃ s ∈ sigs, s.name = n) :
    ((sigs.filterMap fun s => (dictGet? r s.name).map fun v => (s, v)).map fun e => (e.1.name, e.2)).Perm r := by
  have hl : ((sigs.filterMap fun s => (dictGet? r s.name).map fun v => (s, v)).map fun e => (e.1.name, e.2)).Nodup := by
    refine List.Nodup.of_map (·.1) ?_
    rw [List.map_map]
    refine hnd.sublist ?_
    clear hnd hsub
    induction sigs with
    | nil => exact List.Sublist.refl _
    | cons s sigs ih =>
      rw [List.filterMap_cons]
      cases dictGet? r s.name with
      | none => exact ih.trans (List.sublist_cons_self _ _)
      | some v => exact ih.cons_cons _
  refine (List.perm_ext_iff_of_nodup hl (List.Nodup.of_map _ hr)).2 fun ⟨n, v⟩ => ?_
  constructor
  · intro h
    obtain ⟨⟨s, w⟩, h1, h2⟩ := List.mem_map.1 h
    obtain ⟨s', h3, h4⟩ := List.mem_filterMap.1 h1
    cases hg : dictGet? r s'.name with
    | none => rw [hg] at h4; cases h4
    | some w' =>
      rw [hg] at h4
      cases h4
      cases h2
      exact dictGet?_mem hg
  · intro h
    have hg := dictGet?_of_mem hr h
    obtain ⟨s, hs, rfl⟩ := hsub n v hg
    exact List.mem_map.2 ⟨(s, v), List.mem_filterMap.2 ⟨s, hs, by rw [hg]; rfl⟩, rfl⟩

theorem lists_of {m : Message} (hnd : (m.signals.map (·.name)).Nodup)
    {r : List (String × Value)} (hr : (r.map (·.1)).Nodup) (hsub : ∀ n v, dictGet? r n = some v → ∃ s ∈ m.signals, s.name = n) :
    Lists T m r (formatSignals T m r) := by
  refine ⟨_, filterMap_perm hnd hr hsub, ?_, ?_⟩
  · generalize m.signals = l
    induction l with
    | nil => exact List.Sublist.refl _
    | cons s l ih =>
      rw [List.filterMap_cons]
      cases dictGet? r s.name with
      | none => exact ih.trans (List.sublist_cons_self _ _)
      | some v => exact ih.cons_cons _
  · unfold formatSignals
    generalize m.signals = l
    induction l with
    | nil => exact .nil
    | cons s l ih =>
      rw [List.filterMap_cons, List.filterMap_cons]
      cases dictGet? r s.name with
      | none => exact ih
      | some v => exact .cons (signalText_entry s v) ih

/-- What a message that passed the check decodes. -/
theorem sound_decode {m : Message} (h : Sound m) {data : Bytes} {dc sc tr ex : Bool} :
    (∀ r, decode fo m data dc sc tr ex = .ok r → Lists T m r (formatSignals T m r)) ∧
    ∀ e, decode fo m data dc sc tr ex = .error e → e = .decodeError := by
  obtain ⟨fid, name, len, sigs, pat, ext, h1, h2, h3, h4⟩ := h
  have ha := (accepted_of_create h1 h4).1
  refine ⟨fun r hr => ?_, fun e he => ha.decode_error h2 h3 he⟩
  cases had : adjustData data m.length tr ex with
  | error e =>
    exfalso
    have := decodeNode_wrong_size (fo := fo) (sigs := m.signals) (dc := dc) (sc := sc) had (c := m.codec)
    unfold decode at hr
    rw [this] at hr
    cases hr
  | ok d =>
    obtain ⟨sel, hsel⟩ := selectorsIn_exists (fo := fo) h1 (fun s hs => ha.pos s ((ha.mem s).2 hs)) d dc sc
      (receivedBytes data.length m.length tr)
    obtain ⟨k1, -, k2⟩ := (ha.decode_ok h2 h3 had hsel).1 r hr
    refine lists_of ha.nodup k1 fun n v hv => ?_
    obtain ⟨s, hs, hn, -⟩ := (k2 n v).1 hv
    exact ⟨s, (ha.mem s).2 hs.mem, hn⟩

theorem hexDigit_eq : ∀ k, k < 16 → hexDigit k = Nat.digitChar k := by decide

theorem hexOf_eq : hexOf = hexText := by
  funext n
  have key : ∀ n, 0 < n → ((Nat.digits 16 n).map hexDigit).reverse = hexText n := by
    intro n
    induction n using Nat.strongRecOn with
    | ind n ih =>
      intro hn
      rw [hexText, Nat.digits_def' (by decide) hn, List.map_cons, List.reverse_cons,
        hexDigit_eq _ (Nat.mod_lt _ (by decide))]
      split
      · rename_i h
        rw [Nat.div_eq_of_lt h, Nat.mod_eq_of_lt h]
        simp
      · rw [ih _ (Nat.div_lt_self hn (by decide)) (by omega)]
  unfold hexOf
  split
  · rename_i h; subst h; rw [hexText]; rfl
  · exact key n (by omega)

theorem hexOf6_eq : hexOf6 = hex6 := by
  funext n
  unfold hexOf6 hex6
  rw [hexOf_eq]
  rfl

theorem byteHex_eq : byteHex = byteText := by
  funext b
  unfold byteHex byteText
  have := b.toNat_lt
  rw [hexDigit_eq _ (by omega), hexDigit_eq _ (by omega)]

theorem bytesHex_eq : bytesHex = bytesText := by
  funext b
  unfold bytesHex bytesText
  rw [byteHex_eq]
  rfl

theorem hexText_head (n : Nat) : ∃ k, k < 16 ∧ ∃ r, hexText n = Nat.digitChar k :: r := by
  induction n using Nat.strongRecOn with
  | ind n ih =>
    rw [hexText]
    split
    · exact ⟨n, by assumption, [], rfl⟩
    · obtain ⟨k, hk, r, hr⟩ := ih (n / 16) (by omega)
      exact ⟨k, hk, r ++ [Nat.digitChar (n % 16)], by rw [hr]; rfl⟩

theorem hex6_head (n : Nat) : ∃ c r, hex6 n = c :: r ∧ Regex.isSpace c = false ∧ c ≠ '\n' := by
  unfold hex6
  cases h : 6 - (hexText n).length with
  | zero =>
    obtain ⟨k, hk, r, hr⟩ := hexText_head n
    refine ⟨Nat.digitChar k, r, by rw [hr]; rfl, ?_⟩
    have : ∀ k < 16, Regex.isSpace (Nat.digitChar k) = false ∧ Nat.digitChar k ≠ '\n' := by decide
    exact this k hk
  | succ j => exact ⟨'0', _, rfl, by decide, by decide⟩

theorem strip_indent {c d : Char} {r t : Chars} (hc : Regex.isSpace c = false) (hc' : c ≠ '\n') (hd : Regex.isSpace d = false)
    (hd' : d ≠ '\n') (h : c :: r = t ++ [d]) : strip (indent (c :: r)) = indent (c :: r) := by
  have e1 : indent (c :: r) = c :: indent r := by
    unfold indent
    rw [List.flatMap_cons, if_neg hc']; rfl
  have e2 : indent (c :: r) = indent t ++ [d] := by
    rw [h]
    unfold indent
    rw [List.flatMap_append]
    congr 1
    simp [hd']
  unfold strip
  have k1 : (indent (c :: r)).dropWhile Regex.isSpace = indent (c :: r) := by
    rw [e1, List.dropWhile_cons_of_neg (by simp [hc])]
  rw [k1, e2, List.reverse_append, List.reverse_singleton, List.singleton_append,
    List.dropWhile_cons_of_neg (by simp [hd]), List.reverse_cons, List.reverse_reverse]

theorem shows_single (name : String) (entries : List Chars) : Shows true name entries (singleLine name entries) := by
  unfold Shows singleLine
  simp

theorem shows_multi (name : String) (entries : List Chars) : Shows false name entries (multiLine name entries) := by
  unfold Shows multiLine
  simp

/-- The result of decoding an entry of a container. -/
def decodedEntry (fo : FloatOps) (o : Options) (e : Ref × Bytes) : DecodedEntry :=
  (e.1, match e.1 with
    | .inr _ => .inl e.2
    | .inl m =>
      match decode fo m.msg e.2 o.decodeChoices true o.allowTruncated o.allowExcess with
      | .ok d => .inr d
      | .error _ => .inl e.2)

theorem decodedEntry_unknown (id : Nat) (b : Bytes) : decodedEntry fo o (.inr id, b) = (.inr id, .inl b) := rfl

theorem decodedEntry_ok {m : Contained} {b : Bytes} {r : List (String × Value)}
    (h : decode fo m.msg b o.decodeChoices true o.allowTruncated o.allowExcess = .ok r) :
    decodedEntry fo o (.inl m, b) = (.inl m, .inr r) := by
  unfold decodedEntry
  dsimp only
  rw [h]

theorem decodedEntry_error {m : Contained} {b : Bytes} {x : Err}
    (h : decode fo m.msg b o.decodeChoices true o.allowTruncated o.allowExcess = .error x) :
    decodedEntry fo o (.inl m, b) = (.inl m, .inl b) := by
  unfold decodedEntry
  dsimp only
  rw [h]

/-- The text of the entry of a container. -/
theorem contained_text {e : Ref × Bytes} (hs : ∀ m, e.1 = .inl m → Sound m.msg ∧ m.headerId.isSome) :
    (o.singleLine = true → ContainedText fo T o e (entrySingle T (decodedEntry fo o e) e.2)) ∧
    (o.singleLine = false → ∃ t, entryMulti T (decodedEntry fo o e) e.2 = .ok t ∧ ContainedText fo T o e t) := by
  obtain ⟨r, b⟩ := e
  cases r with
  | inr id =>
    rw [decodedEntry_unknown]
    unfold ContainedText entrySingle entryMulti
    rw [hexOf_eq, hexOf6_eq, bytesHex_eq]
    dsimp only
    refine ⟨fun h => ?_, fun h => ⟨_, rfl, ?_⟩⟩
    · rw [if_pos h]
      simp only [List.append_assoc]
      rfl
    · rw [if_neg (by simp [h])]
      simp only [List.append_assoc]
  | inl m =>
    obtain ⟨hm, hid⟩ := hs m rfl
    obtain ⟨id, hid⟩ := Option.isSome_iff_exists.1 hid
    obtain ⟨k1, k2⟩ := sound_decode (fo := fo) (T := T) hm (data := b) (dc := o.decodeChoices) (sc := true)
      (tr := o.allowTruncated) (ex := o.allowExcess)
    cases hd : decode fo m.msg b o.decodeChoices true o.allowTruncated o.allowExcess with
    | error x =>
      rw [decodedEntry_error hd]
      unfold ContainedText entrySingle entryMulti
      rw [hexOf6_eq, bytesHex_eq, byteHex_eq]
      dsimp only
      rw [hd, hid]
      dsimp only
      refine ⟨fun h => ⟨id, rfl, ?_⟩, fun h => ⟨_, rfl, id, rfl, ?_⟩⟩
      · rw [if_pos h]
        simp only [List.append_assoc]
      · rw [if_neg (by simp [h])]
        simp only [List.append_assoc]
    | ok r =>
      rw [decodedEntry_ok hd]
      unfold ContainedText entrySingle entryMulti
      rw [hexOf6_eq, bytesHex_eq, byteHex_eq]
      dsimp only
      rw [hd, hid]
      dsimp only
      refine ⟨fun h => ⟨id, rfl, _, _, k1 r hd, by rw [h]; exact shows_single _ _, ?_⟩,
        fun h => ⟨_, rfl, id, rfl, _, _, k1 r hd, by rw [h]; exact shows_multi _ _, ?_⟩⟩
      · rw [if_pos h]
      · rw [if_neg (by simp [h])]
        obtain ⟨a, l, hal, ha, ha'⟩ := hex6_head id
        simp only [List.append_assoc]
        congr 1
        rw [hal, List.cons_append]
        refine strip_indent (d := ')') (t := hex6 id ++ ("##".toList ++ (bytesText b ++ (" ::".toList ++
          ('\n' :: (m.msg.name.toList ++ ("(\n".toList ++ (joinC ",\n".toList
            ((formatSignals T m.msg r).map ("    ".toList ++ ·)) ++ "\n".toList)))))))) ha ha' (by decide) (by decide) ?_
        rw [← List.cons_append, ← hal]
        unfold multiLine
        simp

theorem isSome_of_consists {c : Container} {tr : Bool} {data : Bytes} {es : List (Ref × Bytes)}
    (h : Consists c tr data es) : ∀ e ∈ es, ∀ m, e.1 = .inl m → m ∈ c.contained ∧ m.headerId.isSome := by
  induction h with
  | done _ => simp
  | entry _ _ hr _ ih =>
    intro e he m hm
    rcases List.mem_cons.1 he with rfl | he
    · dsimp only at hm
      subst hm
      exact ⟨hr.1, by rw [hr.2]; rfl⟩
    · exact ih e he m hm
  | cut _ _ _ _ hr =>
    intro e he m hm
    rw [List.mem_singleton] at he
    subst he
    dsimp only at hm
    subst hm
    exact ⟨hr.1, by rw [hr.2]; rfl⟩

theorem zip_map {α β γ : Type} (f : α → β) (g : α → γ) (l : List α) :
    (l.map f).zip (l.map g) = l.map fun a => (f a, g a) := by
  induction l with
  | nil => rfl
  | cons a l ih => rw [List.map_cons, List.map_cons, List.zip_cons_cons, ih]; rfl

theorem mapM_forall {α β : Type} {f : α → Except Err β} {P : α → β → Prop} {l : List α}
    (h : ∀ a ∈ l, ∃ b, f a = .ok b ∧ P a b) : ∃ r, l.mapM f = .ok r ∧ List.Forall₂ P l r := by
  induction l with
  | nil => exact ⟨[], rfl, .nil⟩
  | cons a l ih =>
    obtain ⟨b, hb, hp⟩ := h a (by simp)
    obtain ⟨r, hr, hf⟩ := ih fun x hx => h x (by simp [hx])
    exact ⟨b :: r, by rw [List.mapM_cons, hb]; simp only [bind, Except.bind]; rw [hr]; rfl, .cons hp hf⟩

/-- What is printed for a container. -/
theorem container_text {name : String} {c : Container} (hu : Unambiguous c) (hs : ∀ x ∈ c.contained, Sound x.msg)
    (data : Bytes) : ∃ text, formatContainerMessage fo T o name c data = .ok text ∧
      match unpackContainer c data o.allowTruncated with
      | .ok es => ∃ texts, List.Forall₂ (ContainedText fo T o) es texts ∧
          text = if o.singleLine then " ".toList ++ name.toList ++ "(".toList ++ joinC ", ".toList texts ++ ")".toList
            else "\n".toList ++ name.toList ++ "(\n".toList ++ joinC ",\n".toList texts ++ "\n)".toList
      | .error _ => text = " ".toList ++ T.error name data := by
  obtain ⟨k1, k2⟩ := C18_decode_container fo c hs hu data o.decodeChoices true o.allowTruncated o.allowExcess
  unfold formatContainerMessage
  cases hc : unpackContainer c data o.allowTruncated with
  | error e =>
    obtain ⟨rfl, -⟩ := C18_unpack_error c hu data _ e hc
    exact ⟨_, rfl, rfl⟩
  | ok es =>
    have hd : decodeContainer fo c data o.decodeChoices true o.allowTruncated o.allowExcess =
      .ok (es.map (decodedEntry fo o)) := k1 es hc
    have hes := isSome_of_consists ((C18_unpack_iff c hu data _ es).1 hc).2
    have ht : ∀ e ∈ es, ∀ m, e.1 = .inl m → Sound m.msg ∧ m.headerId.isSome := fun e he m hm =>
      ⟨hs m (hes e he m hm).1, (hes e he m hm).2⟩
    rw [hd]
    simp only [bind, Except.bind, pure, Except.pure]
    unfold formatContainer
    rw [zip_map]
    cases hl : o.singleLine with
    | true =>
      refine ⟨_, rfl, es.map (fun e => entrySingle T (decodedEntry fo o e) e.2), ?_, ?_⟩
      · rw [List.forall₂_map_right_iff, List.forall₂_same]
        exact fun e he => (contained_text (ht e he)).1 hl
      · rw [if_pos rfl, List.map_map]
        simp only [List.append_assoc]
        rfl
    | false =>
      obtain ⟨r, h1, h2⟩ := mapM_forall (f := fun e => entryMulti T (decodedEntry fo o e) e.2)
        fun e he => (contained_text (fo := fo) (T := T) (o := o) (ht e he)).2 hl
      dsimp only
      rw [if_neg (by simp), List.mapM_map]
      refine ⟨_, by simp only [bind, Except.bind]; erw [h1]; rfl, r, h2, ?_⟩
      simp

/-- What is printed for a frame. -/
theorem frame_text {db : Db} (h : SoundDb db) (f : LogReader.Frame) :
    ∃ text, formatFrame fo T o db f.frameId f.data = .ok text ∧ FrameText fo T o db f text := by
  unfold formatFrame FrameText
  rw [hexOf_eq]
  cases hg : db.getByFrameId f.frameId false with
  | error e =>
    have : e = .keyError := by
      unfold Db.getByFrameId dictGet at hg
      dsimp only at hg
      split at hg <;> cases hg
      rfl
    subst this
    exact ⟨_, rfl, by simp⟩
  | ok m =>
    obtain ⟨k, hm⟩ : ∃ k, (k, m) ∈ db.byId := by
      unfold Db.getByFrameId dictGet at hg
      dsimp only at hg
      split at hg <;> cases hg
      rename_i hv
      exact ⟨_, dictGet?_mem hv⟩
    have hb := h _ hm
    dsimp only at hb ⊢
    cases hbody : m.body with
    | inl msg =>
      rw [hbody] at hb
      dsimp only at hb ⊢
      obtain ⟨k1, k2⟩ := sound_decode (fo := fo) (T := T) hb (data := f.data) (dc := o.decodeChoices) (sc := true)
        (tr := o.allowTruncated) (ex := o.allowExcess)
      cases hd : decode fo msg f.data o.decodeChoices true o.allowTruncated o.allowExcess with
      | error e =>
        rw [k2 e hd]
        exact ⟨_, rfl, rfl⟩
      | ok r =>
        refine ⟨_, rfl, _, k1 r hd, ?_⟩
        unfold formatMessage
        cases o.singleLine
        · exact shows_multi _ _
        · exact shows_single _ _
    | inr c =>
      rw [hbody] at hb
      dsimp only at hb ⊢
      by_cases hc : o.decodeContainers = true
      · rw [if_pos hc]
        obtain ⟨t, h1, h2⟩ := container_text (fo := fo) (T := T) (o := o) (name := m.name) hb.1 hb.2 f.data
        exact ⟨t, h1, by rw [if_pos hc]; exact h2⟩
      · rw [if_neg hc]
        refine ⟨_, rfl, ?_⟩
        rw [if_neg hc]
        simp

end DecodeCommand

open DecodeCommand

/-- C49: the `decode` command prints one line for every line of the log that it read, in order: the
line itself if it is not a frame, otherwise the line followed by the text of the frame. -/
theorem C49_output_partial (fo : FloatOps) (T : Texts) (o : Options) {db : Db} (h : SoundDb db) (clock : LogReader.Clock)
    (lines : List Chars) :
    (run fo T o db clock lines).2 = (LogReader.iterlines clock true none lines).2 ∧
    List.Forall₂ (fun y out => match y.2 with
      | none => out = y.1
      | some f => ∃ text, FrameText fo T o db f text ∧ out = y.1 ++ (" ::".toList ++ text))
      (LogReader.iterlines clock true none lines).1 (run fo T o db clock lines).1 := by
  unfold run
  dsimp only
  generalize LogReader.iterlines clock true none lines = r
  obtain ⟨ys, e⟩ := r
  dsimp only
  induction ys with
  | nil => exact ⟨rfl, .nil⟩
  | cons y ys ih =>
    obtain ⟨line, fr⟩ := y
    cases fr with
    | none => exact ⟨ih.1, .cons rfl ih.2⟩
    | some f =>
      obtain ⟨t, h1, h2⟩ := frame_text (fo := fo) (T := T) (o := o) h f
      unfold printLoop
      rw [h1]
      exact ⟨ih.1, .cons ⟨t, h2, rfl⟩ ih.2⟩

/-- C49: if the command ends normally, it has printed every line of the log, in order, each followed by at
most the text of its frame. -/
theorem C49_every_line_partial (fo : FloatOps) (T : Texts) (o : Options) {db : Db} (h : SoundDb db) (clock : LogReader.Clock)
    (lines : List Chars) (hn : (run fo T o db clock lines).2 = none) :
    List.Forall₂ (fun line out => LogReader.stripNewlines line <+: out) lines (run fo T o db clock lines).1 := by
  obtain ⟨h1, h2⟩ := C49_output_partial fo T o h clock lines
  have h3 := (C36_iterlines (clock := clock) (st := none) (lines := lines)).2.2 (h1.symm.trans hn)
  have h4 : List.Forall₂ (fun l out => l <+: out) ((LogReader.iterlines clock true none lines).1.map (·.1))
      (run fo T o db clock lines).1 := by
    rw [List.forall₂_map_left_iff]
    refine h2.imp fun y out hy => ?_
    obtain ⟨l, f⟩ := y
    cases f with
    | none => exact hy ▸ List.prefix_rfl
    | some f =>
      obtain ⟨t, -, rfl⟩ := hy
      exact List.prefix_append _ _
  rw [h3, List.forall₂_map_left_iff] at h4
  exact h4

/-- C49: an exception other than a decoding error, raised for a frame, ends the command: what is printed
are the lines before the frame, and nothing else. -/
theorem C49_error_ends (fo : FloatOps) (T : Texts) (o : Options) (db : Db) (clock : LogReader.Clock) (lines : List Chars)
    {before after : List (Chars × Option LogReader.Frame)} {line : Chars} {f : LogReader.Frame} {e : Err}
    (hl : (LogReader.iterlines clock true none lines).1 = before ++ (line, some f) :: after)
    (hb : ∀ y ∈ before, ∀ g, y.2 = some g → ∃ text, formatFrame fo T o db g.frameId g.data = .ok text)
    (he : formatFrame fo T o db f.frameId f.data = .error e) :
    (run fo T o db clock lines).2 = some e ∧
    List.Forall₂ (fun y out => match y.2 with
      | none => out = y.1
      | some g => ∃ text, formatFrame fo T o db g.frameId g.data = .ok text ∧ out = y.1 ++ (" ::".toList ++ text))
      before (run fo T o db clock lines).1 := by
  unfold run
  dsimp only
  rw [hl]
  clear hl
  generalize (LogReader.iterlines clock true none lines).2 = failure
  induction before with
  | nil =>
    rw [List.nil_append, printLoop, he]
    exact ⟨rfl, .nil⟩
  | cons y before ih =>
    have ih := ih fun y hy => hb y (List.mem_cons_of_mem _ hy)
    obtain ⟨l, g⟩ := y
    cases g with
    | none => exact ⟨ih.1, .cons rfl ih.2⟩
    | some g =>
      obtain ⟨t, ht⟩ := hb _ (List.mem_cons_self ..) g rfl
      rw [List.cons_append, printLoop, ht]
      exact ⟨ih.1, .cons ⟨t, ht, rfl⟩ ih.2⟩

namespace DecodeExample
open Example LogReader

/-- Numbers without fraction, units of one signal, a text for errors. -/
def texts : Texts where
  num _ q := Dbc.intText q.num
  unit s := if s.name = "P" then some ['V'] else none
  error _ _ := "wrong size".toList

def exampleDb : Db :=
  ({ messages := [⟨"Msg", 0x123, false, .inl msg, true⟩, ⟨"C", 0x700, false, .inr ContainerExample.cont, true⟩] } : Db).refresh.1

theorem soundDb : SoundDb exampleDb := by
  have he : exampleDb.byId = [(0x123, ⟨"Msg", 0x123, false, .inl msg, true⟩),
      (0x700, ⟨"C", 0x700, false, .inr ContainerExample.cont, true⟩)] := rfl
  intro e h
  rw [he] at h
  simp only [List.mem_cons, List.not_mem_nil, or_false] at h
  rcases h with rfl | rfl
  · exact ⟨_, _, _, _, _, _, nodup, built, plain, msg_ok⟩
  · exact ⟨ContainerExample.unambiguous, ContainerExample.sound⟩

def log : List Chars := ["comment".toList, "(1579857014.345944) can2 123#91A5AFC5".toList,
  "(1579857014.345945) can2 123#91".toList, "(1579857014.345946) can2 124#91".toList]

-- C49_output_partial
example := C49_output_partial fo texts { singleLine := true } soundDb LogExample.clock log
example : run fo texts { singleLine := true } exampleDb LogExample.clock log = (["comment".toList,
    "(1579857014.345944) can2 123#91A5AFC5 :: Msg(Mux: drive, P: 9 V, A: -12)".toList,
    "(1579857014.345945) can2 123#91 :: wrong size".toList,
    "(1579857014.345946) can2 124#91 :: Unknown frame id 292 (0x124)".toList], none) := by decide +kernel
example : run fo texts {} exampleDb LogExample.clock [log[1]] = ([
    "(1579857014.345944) can2 123#91A5AFC5 ::\nMsg(\n    Mux: drive,\n    P: 9 V,\n    A: -12\n)".toList], none) := by
  decide +kernel
example := C49_every_line_partial fo texts { singleLine := true } soundDb LogExample.clock log (by decide +kernel)
/-- A container with a known and an unknown entry. -/
example := C49_output_partial fo texts {} soundDb LogExample.clock
  ["(1579857014.345944) can2 700##10102030491A5AFC5ABCDEF020102".toList]

end DecodeExample

open DecodeExample

/-- The kind of the frame is not looked at: an extended frame with a small id is decoded with the
message that has this standard id, although the database has no message for extended frames. -/
theorem C49_extended_ignored :
    (exampleDb.messages.all fun m => !m.isExtended) = true ∧
    (LogReader.frames LogExample.clock ["(1579857014.345944) can2 00000123#91A5AFC5".toList]).1.map (·.isExtendedFrame) = [true] ∧
    run Example.fo texts { singleLine := true } exampleDb LogExample.clock ["(1579857014.345944) can2 00000123#91A5AFC5".toList] =
      (["(1579857014.345944) can2 00000123#91A5AFC5 :: Msg(Mux: drive, P: 9 V, A: -12)".toList], none) := by
  decide +kernel

/-- A message with the same signal under two selector values, as they come from SYM files. -/
def twice : Message := Example.get (Message.create 0x123 "Twice" 2
  [{ name := "M", start := 0, length := 8, isMultiplexer := true },
   { name := "S", start := 8, length := 8, multiplexerIds := some [0], multiplexerSignal := some "M" },
   { name := "S", start := 8, length := 8, multiplexerIds := some [1], multiplexerSignal := some "M" }])

/-- Its decoded value is printed twice. -/
theorem C49_printed_twice :
    decode Example.fo twice [1, 5] true true false false = .ok [("M", .num 1), ("S", .num 5)] ∧
    run Example.fo texts { singleLine := true } ({ messages := [⟨"Twice", 0x123, false, .inl twice, true⟩] } : Db).refresh.1
        LogExample.clock ["(1579857014.345944) can2 123#0105".toList] =
      (["(1579857014.345944) can2 123#0105 :: Twice(M: 1, S: 5, S: 5)".toList], none) := by
  decide +kernel

/-- A message with two signals of the same name, loaded without the strict check (as with `--no-strict`). -/
def sameName : Db := ({ messages := [⟨"Same", 0x123, false, .inl (Example.get (Message.create 0x123 "Same" 2
  [{ name := "S", start := 8, length := 4 }, { name := "S", start := 12, length := 4 }] (strict := false))), true⟩] } : Db).refresh.1

/-- With `--no-strict`, a truncated frame of such a message ends the command with a `KeyError`. -/
theorem C49_truncated_aborts :
    run Example.fo texts { allowTruncated := true } sameName LogExample.clock
      ["first".toList, "(1579857014.345944) can2 123#01".toList, "last".toList] = (["first".toList], some .keyError) := by
  decide +kernel

-- C49_error_ends
example := C49_error_ends Example.fo texts { allowTruncated := true } sameName LogExample.clock
  ["first".toList, "(1579857014.345944) can2 123#01".toList, "last".toList]
  (before := [("first".toList, none)]) (after := [("last".toList, none)])
  (line := "(1579857014.345944) can2 123#01".toList)
  (f := { channel := "can2".toList, frameId := 0x123, isExtendedFrame := false, data := [1], isRemoteFrame := false
          timestamp := .given .epoch "1579857014.345944".toList })
  (e := .keyError) (by decide +kernel) (by simp) (by decide +kernel)

/-- The command ends with a `TypeError` at a frame without data bytes in a PCAN trace of version 2: nothing is
printed for it and for the lines after it. -/
theorem C49_aborts :
    run Example.fo texts {} exampleDb LogExample.clock
      ["1 1059.900 DT 0300 Rx 0".toList, LogExample.pc.text .v20] = ([], some .typeError) := by
  decide +kernel

end Cantools
