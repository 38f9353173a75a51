import Verif.Lemmas.DbcSignal
import Verif.Spec.LayoutIds
import Verif.Props.Layout
import Mathlib.Data.List.Perm.Basic

/-
The messages that are read from a written DBC file.
-/

namespace Cantools.Dbc
open Cantools Spec

/-! ### Construction of messages whose multiplexer ids have another order -/

theorem forall₂_mem_right {α β : Type} {R : α → β → Prop} {l : List α} {k : List β} (h : List.Forall₂ R l k) {b : β}
    (hb : b ∈ k) : ∃ a ∈ l, R a b := by
  induction h with
  | nil => cases hb
  | cons h1 _ ih =>
    rcases List.mem_cons.1 hb with rfl | hb
    · exact ⟨_, by simp, h1⟩
    · obtain ⟨a, ha, hr⟩ := ih hb
      exact ⟨a, List.mem_cons_of_mem _ ha, hr⟩

theorem forall₂_mem_left {α β : Type} {R : α → β → Prop} {l : List α} {k : List β} (h : List.Forall₂ R l k) {a : α}
    (ha : a ∈ l) : ∃ b ∈ k, R a b := by
  induction h with
  | nil => cases ha
  | cons h1 _ ih =>
    rcases List.mem_cons.1 ha with rfl | ha
    · exact ⟨_, by simp, h1⟩
    · obtain ⟨b, hb, hr⟩ := ih ha
      exact ⟨b, List.mem_cons_of_mem _ hb, hr⟩

theorem present_ids {sigs sigs' : List Signal} (h : List.Forall₂ SameIds sigs sigs') {sel : String → Option Int}
    {s' : Signal} (hp : Present sigs' sel s') : ∃ s ∈ sigs, SameIds s s' ∧ Present sigs sel s := by
  induction hp with
  | root s hs hm =>
    obtain ⟨a, ha, hr⟩ := forall₂_mem_right h hs
    refine ⟨a, ha, hr, .root a ha ?_⟩
    rw [hr.rest] at hm
    exact hm
  | child s p i ids hs hp hm _ hsel hids hi ih =>
    obtain ⟨a, ha, hr⟩ := forall₂_mem_right h hs
    obtain ⟨q, _, hq, hpar⟩ := ih
    refine ⟨a, ha, hr, ?_⟩
    cases hai : a.multiplexerIds with
    | none =>
      rw [hr.none_.2 hai] at hids
      cases hids
    | some ids' =>
      refine .child a q i ids' ha ?_ ?_ hpar ?_ hai ?_
      · rw [hr.rest] at hp
        rw [← hq.name]
        exact hp
      · rw [hq.rest] at hm; exact hm
      · rw [← hq.name]; exact hsel
      · have := (hr.ids i).1 (by rw [hids]; exact hi)
        rw [hai] at this
        exact this

theorem forall₂_map_eq {α β γ : Type} {R : α → β → Prop} {f : α → γ} {g : β → γ} (hf : ∀ a b, R a b → g b = f a)
    {l : List α} {k : List β} (h : List.Forall₂ R l k) : k.map g = l.map f := by
  induction h with
  | nil => rfl
  | cons h1 _ ih => rw [List.map_cons, List.map_cons, ih, hf _ _ h1]

theorem validLayout_ids {sigs sigs' : List Signal} (h : List.Forall₂ SameIds sigs sigs')
    (hnd : (sigs.map (·.name)).Nodup) {L : Nat} (hv : ValidLayout L sigs) : ValidLayout L sigs' := by
  have hnd' : (sigs'.map (·.name)).Nodup := by
    rw [forall₂_map_eq (fun a b hr => hr.name) h]; exact hnd
  constructor
  · rintro s ⟨sel, hs⟩
    obtain ⟨a, _, hr, hp⟩ := present_ids h hs
    have := hv.1 a ⟨sel, hp⟩
    rw [hr.rest]
    exact this
  · intro sel x y hx hy hxy
    obtain ⟨a, ha, hra, hpa⟩ := present_ids h hx
    obtain ⟨b, hb, hrb, hpb⟩ := present_ids h hy
    have hab : a ≠ b := by
      rintro rfl
      apply hxy
      have h1 : x ∈ sigs' := hx.mem
      have h2 : y ∈ sigs' := hy.mem
      exact List.inj_on_of_nodup_map hnd' h1 h2 (hra.name.trans hrb.name.symm)
    have := hv.2 sel a b hpa hpb hab
    rw [hra.rest, hrb.rest]
    exact this

/-- A message can be constructed, strictly if the other can. -/
theorem create_ids {sigs l sigs' : List Signal} (hl : l.Perm sigs) (h : List.Forall₂ SameIds l sigs')
    (hnd : (sigs.map (·.name)).Nodup) {fid : Int} {name : String} {len : Nat} {pat : UInt8} {ext : Bool}
    {strict : Bool} (hlen : ∀ s ∈ sigs, 0 < s.length)
    (hid : -(2 ^ (if ext then 29 else 11)) < fid ∧ fid < 2 ^ (if ext then 29 else 11))
    (hc : strict = true → ValidLayout len sigs) :
    ∃ m, Message.create fid name len sigs' pat ext strict = .ok m := by
  have hndl : (l.map (·.name)).Nodup := (hl.map _).nodup_iff.2 hnd
  have hnd' : (sigs'.map (·.name)).Nodup := by
    rw [forall₂_map_eq (fun a b hr => hr.name) h]; exact hndl
  have hlen' : ∀ s ∈ sigs', 0 < s.length := by
    intro s hs
    obtain ⟨a, ha, hr⟩ := forall₂_mem_right h hs
    rw [hr.rest]
    exact hlen a (hl.mem_iff.1 ha)
  cases strict with
  | true =>
    exact (C05_strict_check_iff hnd' (default_perm _)).1.2 ⟨hid, hlen',
      validLayout_ids h hndl (validLayout_congr (fun s => hl.mem_iff.symm) (hc rfl))⟩
  | false =>
    have hp := default_perm sigs'
    have hnd2 : ((SortSignals.default.apply sigs').map (·.name)).Nodup := (hp.map _).nodup_iff.2 hnd'
    obtain ⟨c, hcc⟩ := Option.isSome_iff_exists.1 (createCodec_isSome hnd2 (π := []) .nil (Nat.le_refl _))
    exact ⟨_, create_ok_iff.2 ⟨bitLength_le.2 hid, fun s hs => hlen' s (hp.mem_iff.1 hs), c, hcc, by simp, rfl⟩⟩

variable {F : Type} {T : FloatText F} {sort sortAttrs : List (DSignal F) → List (DSignal F)} {db : DDatabase F}

theorem SameSignal.core_ids {a b : DSignal F} (h : SameSignal T a b) : SameIds (a.core T) (b.core T) := by
  refine ⟨?_, h.multiplexed, h.ids⟩
  unfold DSignal.core
  rw [h.name, h.start, h.length, h.byteOrder, h.isSigned, h.scale, h.offset, h.choices, h.isFloat, h.minimum, h.maximum,
    h.isMultiplexer, h.multiplexerSignal]

/-! ### Messages -/

/-- What the long names of a written database must be like. -/
structure Restorable (T : FloatText F) (db : DDatabase F) (strict : Bool) : Prop where
  vector : restoreNode T db vectorXXX = vectorXXX
  senders : ∀ m ∈ db.messages, (m.senders.map (restoreNode T db)).Nodup ∧ vectorXXX ∉ m.senders.map (restoreNode T db)
  envvars : ((db.envvars.map (restoreEnvvar T)).map (·.1)).Nodup
  names : ∀ m ∈ db.messages, ((m.signals.map (restoreSignal T db)).map (·.name)).Nodup
  lengths : ∀ m ∈ db.messages, ∀ s ∈ m.signals, 0 < s.length
  layout : strict = true → ∀ m ∈ db.messages,
    ValidLayout m.length ((m.signals.map (restoreSignal T db)).map (·.core T))

theorem merge_fold {l acc : List Chars} (h : (acc ++ l).Nodup) :
    l.foldl (fun acc n => if n ∈ acc then acc else acc ++ [n]) acc = acc ++ l := by
  induction l generalizing acc with
  | nil => simp
  | cons a r ih =>
    rw [List.foldl_cons, if_neg, ih]
    · simp
    · simpa using h
    · intro ha
      rw [List.nodup_append] at h
      exact h.2.2 a ha a (by simp) rfl

theorem merge_senders {l : List Chars} (hnd : l.Nodup) (hv : vectorXXX ∉ l) :
    mergeSenders (l.head?.getD vectorXXX) (if 1 < l.length then l else []) = l := by
  unfold mergeSenders
  match l with
  | [] => rfl
  | [a] =>
    simp only [List.head?_cons, Option.getD_some, List.length_singleton, Nat.lt_irrefl, if_false, List.foldl_nil]
    rw [if_neg]
    simpa [eq_comm] using hv
  | a :: b :: r =>
    have h : (a :: b :: r).foldl (fun acc n => if n ∈ acc then acc else acc ++ [n]) [a] = a :: b :: r := by
      rw [List.foldl_cons, if_pos (by simp), merge_fold (by simpa using hnd)]
      rfl
    have h1 : (if 1 < (a :: b :: r).length then a :: b :: r else []) = a :: b :: r := if_pos (by simp)
    rw [h1]
    refine (if_neg ?_).trans h
    intro h2
    have := h.symm.trans h2
    simp at this

variable (L : FloatLaws T) (W : WritableDatabase T db)

theorem zip_mapM {α β γ δ : Type} {R : α → β → Prop} {Q : α → δ → Prop} {t : α → γ} {f : γ × β → Except Err δ}
    {l : List α} {k : List β} (h : List.Forall₂ R l k) (hf : ∀ a ∈ l, ∀ b, R a b → ∃ d, f (t a, b) = .ok d ∧ Q a d) :
    ∃ l', ((l.map t).zip k).mapM f = .ok l' ∧ List.Forall₂ Q l l' := by
  induction h with
  | nil => exact ⟨[], rfl, .nil⟩
  | cons h1 _ ih =>
    obtain ⟨d, hd, hq⟩ := hf _ (by simp) _ h1
    obtain ⟨l', hl, hq'⟩ := ih fun a ha => hf a (List.mem_cons_of_mem _ ha)
    refine ⟨d :: l', ?_, .cons hq hq'⟩
    rw [List.map_cons, List.zip_cons_cons, List.mapM_cons, hd, hl]
    rfl

theorem forall₂_perm {α β : Type} {R : α → β → Prop} {l : List α} {k k' : List β} (h : List.Forall₂ R l k)
    (hk : k'.Perm k) : ∃ l', l'.Perm l ∧ List.Forall₂ R l' k' := by
  obtain ⟨l', h1, h2⟩ := List.perm_comp_forall₂ hk (List.Forall₂.flip h)
  exact ⟨l', h2, List.Forall₂.flip h1⟩

include L W in
/-- The name a signal gets in a group. -/
theorem group_names (hsa : Sorts sortAttrs) {m : DMessage F} (hm : m ∈ db.messages) {n : Chars}
    (hn : n ∈ m.signals.map (·.name)) :
    longName T systemSignal
      ((dictGet? (gotAttrs T sortAttrs (syncDefinitions T db) db).signals (mid m, n)).getD []) n = restoreSigName T m n := by
  obtain ⟨s, hs, rfl⟩ := List.mem_map.1 hn
  have h1 := sig_attrs L W hsa hm hs
  have h2 : dictGet? (m.signals.map fun s => (s.name, s.attributes)) s.name = some s.attributes := by
    apply dictGet?_of_mem
    · rw [List.map_map]; exact names_nodup (W.messages m hm).muxed
    · exact List.mem_map.2 ⟨s, hs, rfl⟩
  unfold restoreSigName
  rw [h1, h2]
  unfold longName
  rw [(sig_loaded L W hm hs).1 systemSignal (by decide +kernel)]
  rfl

include L W in
theorem load_group (hsa : Sorts sortAttrs) {m : DMessage F} (hm : m ∈ db.messages) :
    dictGet? (gotContext T sortAttrs db).groups (mid m) = m.signalGroups.map fun gs => gs.map (restoreGroup T m) := by
  have := concat_get (ids_nodup W) (fun m : DMessage F => (m.signalGroups.getD []).map fun g =>
    (writtenGroup m g, readGroup T (gotAttrs T sortAttrs (syncDefinitions T db) db) m g)) (fun e => [e.2]) hm
  refine this.trans ?_
  have hg := (W.messages m hm).groups
  cases hgs : m.signalGroups with
  | none => rfl
  | some gs =>
    obtain ⟨hne, hall⟩ := hg gs hgs
    rw [if_neg (by simpa using hne)]
    simp only [Option.map_some, Option.getD_some, List.flatMap_map]
    congr 1
    rw [← List.map_eq_flatMap]
    apply List.map_congr_left
    intro g hgm
    unfold readGroup writtenGroup restoreGroup
    have hf : (g.signalNames.filter fun n => n ∈ m.signals.map (·.name)) = g.signalNames := by
      rw [List.filter_eq_self]
      intro n hn
      simpa using (hall g hgm).2 n hn
    rw [hf]
    congr 1
    exact List.map_congr_left fun n hn => group_names L W hsa hm ((hall g hgm).2 n hn)

include L W in
/-- A message is read as it was written, with its long names. -/
theorem load_message (hs : Sorts sort) (hsa : Sorts sortAttrs) {strict : Bool} (R : Restorable T db strict)
    {m : DMessage F} (hm : m ∈ db.messages) :
    ∃ m', loadMessage T strict (gotContext T sortAttrs db) (eMsg T sort m).tree = .ok (some m') ∧
      SameMessage T (restoreMessage T db m) m' := by
  have hw := W.messages m hm
  obtain ⟨ha, ⟨t, ht1, ht2⟩, ⟨f, hf1, hf2, hf3⟩, hst⟩ := msg_loaded L W hm
  have hattr : (dictGet? (gotContext T sortAttrs db).attributes.messages (mid m)).getD [] = _ := msg_attrs L W hm
  have hcom : dictGet? (gotContext T sortAttrs db).comments.messages (mid m) = m.comment :=
    last_get (key := mid) (ids_nodup W) (fun m => m.comment) hm
  have hsend : (dictGet? (gotContext T sortAttrs db).senders (mid m)).getD [] =
      if 1 < (m.senders.map (restoreNode T db)).length then m.senders.map (restoreNode T db) else [] := by
    refine (concat_getD (ids_nodup W) (fun m : DMessage F => if 1 < m.senders.length then [m.senders] else [])
      (fun l => l.map (nodeLongName T (gotAttrs T sortAttrs (syncDefinitions T db) db))) hm).trans ?_
    rw [List.length_map]
    split
    · simp only [List.flatMap_cons, List.flatMap_nil, List.append_nil]
      exact List.map_congr_left fun n _ => nodeLongName_eq L W n
    · rfl
  obtain ⟨fields, hfld, hmux⟩ := load_fields T (sort m.signals)
    ((dictGet? (gotContext T sortAttrs db).muxEntries (mid m)).getD [])
  have hsame : List.Forall₂ _ (sort m.signals) (loadMux (fieldsOf T (sort m.signals))
      ((dictGet? (gotContext T sortAttrs db).muxEntries (mid m)).getD [])) := mux_same W hs hm
  rw [← hmux] at hsame
  obtain ⟨signals, hsig, hall⟩ := zip_mapM (t := fun s => (eSig T s).tree)
    (f := fun e => loadSignal T (gotContext T sortAttrs db) (mid m) e.1 e.2)
    (Q := fun s s' => SameSignal T (restoreSignal T db s) s') hsame
    (fun s hss mux hmx => load_signal L W hsa hm ((hs _).mem_iff.1 hss) hmx)
  have hid : loadFrameId (mid m) = (m.frameId, m.isExtendedFrame) := C26_frame_id_round_trip _ _ hw.id
  have hall' : List.Forall₂ (SameSignal T) ((sort m.signals).map (restoreSignal T db)) signals := by
    rw [List.forall₂_map_left_iff]; exact hall
  have hcreate : ∀ name, ∃ x, Message.create m.frameId name m.length (signals.map (·.core T)) 0xff
      m.isExtendedFrame strict = .ok x := by
    intro name
    apply create_ids (sigs := (m.signals.map (restoreSignal T db)).map (·.core T))
      (l := ((sort m.signals).map (restoreSignal T db)).map (·.core T))
    · exact ((hs _).map _).map _
    · rw [List.forall₂_map_left_iff, List.forall₂_map_right_iff]
      exact hall'.imp fun a b h => SameSignal.core_ids h
    · have := R.names m hm
      have e : (((m.signals.map (restoreSignal T db)).map (·.core T)).map (·.name)) =
          ((m.signals.map (restoreSignal T db)).map (·.name)).map String.ofList := by
        rw [List.map_map, List.map_map (f := fun x : DSignal F => x.name)]; rfl
      rw [e]
      exact this.map fun a b h => String.ofList_injective h
    · intro s hs'
      rw [List.map_map] at hs'
      obtain ⟨x, hx, rfl⟩ := List.mem_map.1 hs'
      exact R.lengths m hm x hx
    · obtain ⟨h1, h2⟩ := hw.id
      refine ⟨?_, h2⟩
      have : (0 : Int) < 2 ^ (if m.isExtendedFrame = true then 29 else 11) := by positivity
      omega
    · exact fun h => R.layout h m hm
  unfold loadMessage eMsg
  have htrees : ((sort m.signals).map (eSig T)).map SigE.tree = (sort m.signals).map fun s => (eSig T s).tree := by
    rw [List.map_map]; rfl
  rd
  rw [if_neg hw.kept, frameIdText_eq, readInt_intText, htrees]
  simp only [ok_bind2, hattr]
  have hf1' : loadFrameFormat T (gotContext T sortAttrs db).definitions _ = .ok f := hf1
  have ht1' : loadCycleTime T (gotContext T sortAttrs db).definitions _ = .ok t := ht1
  have hst' : loadSendType T (gotContext T sortAttrs db).definitions _ = .ok m.sendType := hst
  rw [hf1']
  simp only [ok_bind2]
  rw [hfld]
  simp only [ok_bind2]
  rw [hsig]
  simp only [ok_bind2, readIntBase0_decimal]
  rw [hst', ht1']
  simp only [ok_bind2, hid, Int.toNat_natCast]
  obtain ⟨x, hx⟩ := hcreate (String.ofList (longName T systemMessage
    (loadedAttrs T (syncDefinitions T db) (msgAttrs T (syncDefinitions T db) m)) m.name))
  rw [hx]
  simp only [ok_bind2]
  refine ⟨_, rfl, ?_⟩
  constructor
  case frameId => rfl
  case isExtendedFrame => rfl
  case name =>
    show longName T systemMessage _ m.name = longName T systemMessage _ m.name
    unfold longName
    rw [ha systemMessage (by decide +kernel)]
  case length => rfl
  case senders =>
    show mergeSenders (nodeLongName T _ (m.senders.head?.getD vectorXXX)) _ = m.senders.map (restoreNode T db)
    have hh : nodeLongName T (gotContext T sortAttrs db).attributes (m.senders.head?.getD vectorXXX) =
        (m.senders.map (restoreNode T db)).head?.getD vectorXXX := by
      have := nodeLongName_eq (sortAttrs := sortAttrs) L W (m.senders.head?.getD vectorXXX)
      refine this.trans ?_
      cases m.senders with
      | nil => exact R.vector
      | cons a r => rfl
    rw [hh, hsend]
    exact merge_senders (R.senders m hm).1 (R.senders m hm).2
  case sendType => rfl
  case cycleTime => exact ht2
  case comment => exact hcom
  case protocol => exact hf2
  case busName => exact hw.bus.symm
  case isFd => exact hf3
  case signalGroups => exact load_group L W hsa hm
  case attributes =>
    intro k hk
    refine ha k ?_
    simp only [List.mem_cons, List.not_mem_nil, or_false, not_or] at hk ⊢
    exact ⟨hk.1, hk.2.1⟩
  case signals =>
    obtain ⟨l, hl1, hl2⟩ := forall₂_perm hall' (sortedBy_perm (fun s : DSignal F => startBit (s.core T)) signals)
    exact ⟨l, hl1.trans ((hs _).map _), hl2⟩
  case sorted => exact sortedBy_pairwise _ _

end Cantools.Dbc
