import Verif.Lemmas.SymText

/-
The contents of a written SYM file.
-/

namespace Cantools.Sym
open Cantools Cantools.Dbc Spec

variable {F : Type}

/-! ### Messages of the same name -/

abbrev Group (F : Type) := DMessage F × List (DMessage F)

def Group.all (g : Group F) : List (DMessage F) := g.1 :: g.2

def sortedMessages (l : List (DMessage F)) : List (DMessage F) := pySorted (fun a b => decide (a.name ≤ b.name)) l

def groupsOf (l : List (DMessage F)) : List (Group F) := groupByName (sortedMessages l)

theorem sortedMessages_pairwise (l : List (DMessage F)) :
    (sortedMessages l).Pairwise fun a b => @LE.le _ List.instLE a.name b.name := by
  have := pySorted_pairwise (le := fun a b : DMessage F => decide (a.name ≤ b.name))
    (fun a b => by simpa using List.le_total a.name b.name)
    (fun a b c h1 h2 => by simpa using List.le_trans (of_decide_eq_true h1) (of_decide_eq_true h2)) l
  exact this.imp fun h => of_decide_eq_true h

theorem groupByName_flat (l : List (DMessage F)) : (groupByName l).flatMap Group.all = l := by
  induction l with
  | nil => rfl
  | cons m r ih =>
    rw [groupByName]
    split
    · rename_i h
      rw [h] at ih
      simp only [List.flatMap_nil] at ih
      simp [Group.all, ← ih]
    · rename_i m' l' g h
      rw [h] at ih
      simp only [List.flatMap_cons, Group.all] at ih
      split <;> simp [Group.all, ← ih]

theorem groupByName_names (l : List (DMessage F)) : ∀ g ∈ groupByName l, ∀ x ∈ g.2, x.name = g.1.name := by
  induction l with
  | nil => intro g hg; cases hg
  | cons m r ih =>
    rw [groupByName]
    split
    · intro g hg x hx
      simp only [List.mem_singleton] at hg
      subst hg
      cases hx
    · rename_i m' l' g h
      rw [h] at ih
      split
      · rename_i hn
        intro y hy x hx
        rcases List.mem_cons.1 hy with rfl | hy
        · rcases List.mem_cons.1 hx with rfl | hx
          · exact hn
          · exact (ih (m', l') (by simp) x hx).trans hn
        · exact ih y (List.mem_cons_of_mem _ hy) x hx
      · intro y hy x hx
        rcases List.mem_cons.1 hy with rfl | hy
        · cases hx
        · exact ih y hy x hx

theorem mem_all_name {l : List (DMessage F)} {g : Group F} (hg : g ∈ groupByName l) {x : DMessage F}
    (hx : x ∈ g.all) : x.name = g.1.name := by
  rcases List.mem_cons.1 hx with rfl | hx
  · rfl
  · exact groupByName_names l g hg x hx

theorem groupByName_distinct {l : List (DMessage F)}
    (hl : l.Pairwise fun a b => @LE.le _ List.instLE a.name b.name) :
    (groupByName l).Pairwise fun a b => a.1.name ≠ b.1.name := by
  induction l with
  | nil => exact .nil
  | cons m r ih =>
    rw [List.pairwise_cons] at hl
    have ih := ih hl.2
    have hmem : ∀ g ∈ groupByName r, g.1 ∈ r := by
      intro g hg
      rw [← groupByName_flat r]
      exact List.mem_flatMap.2 ⟨g, hg, by simp [Group.all]⟩
    have hle := hl.2
    rw [groupByName]
    split
    · exact List.pairwise_singleton ..
    · rename_i m' l' g h
      rw [h] at ih hmem
      rw [List.pairwise_cons] at ih
      split
      · rename_i hn
        rw [List.pairwise_cons]
        exact ⟨fun x hx => hn ▸ ih.1 x hx, ih.2⟩
      · rename_i hn
        rw [List.pairwise_cons, List.pairwise_cons]
        refine ⟨?_, ih⟩
        intro x hx
        rcases List.mem_cons.1 hx with rfl | hx
        · exact fun e => hn e.symm
        · intro e
          have hx' := hmem x (List.mem_cons_of_mem _ hx)
          have hm' := hmem (m', l') (by simp)
          -- `m'` comes before `x`
          have h1 : @LE.le _ List.instLE m'.name x.1.name := by
            have hf := groupByName_flat r
            rw [h, List.flatMap_cons] at hf
            have hx2 : x.1 ∈ g.flatMap Group.all := List.mem_flatMap.2 ⟨x, hx, by simp [Group.all]⟩
            rw [← hf] at hle
            simp only [Group.all, List.cons_append, List.pairwise_cons] at hle
            exact hle.1 _ (List.mem_append_right _ hx2)
          have h2 := hl.1 m' hm'
          rw [e] at h2
          exact hn ((List.le_antisymm h1 h2).trans e.symm)

theorem filter_groups {gs : List (Group F)} (hn : ∀ g ∈ gs, ∀ x ∈ g.all, x.name = g.1.name)
    (hd : gs.Pairwise fun a b => a.1.name ≠ b.1.name) {g : Group F} (hg : g ∈ gs) :
    (gs.flatMap Group.all).filter (fun x => decide (x.name = g.1.name)) = g.all := by
  induction gs with
  | nil => cases hg
  | cons y gs ih =>
    rw [List.pairwise_cons] at hd
    rw [List.flatMap_cons, List.filter_append]
    have hsame : ∀ z ∈ y :: gs, z.1.name = g.1.name → z.all.filter (fun x => decide (x.name = g.1.name)) = z.all := by
      intro z hz e
      rw [List.filter_eq_self]
      intro x hx
      simpa using (hn z hz x hx).trans e
    have hother : ∀ z ∈ y :: gs, z.1.name ≠ g.1.name → z.all.filter (fun x => decide (x.name = g.1.name)) = [] := by
      intro z hz e
      rw [List.filter_eq_nil_iff]
      intro x hx
      simpa using fun h => e ((hn z hz x hx).symm.trans h)
    rcases List.mem_cons.1 hg with rfl | hg
    · rw [hsame g (by simp) rfl]
      have : (gs.flatMap Group.all).filter (fun x => decide (x.name = g.1.name)) = [] := by
        rw [List.filter_eq_nil_iff]
        intro x hx
        obtain ⟨z, hz, hxz⟩ := List.mem_flatMap.1 hx
        simpa using fun h => hd.1 z hz (h.symm.trans (hn z (List.mem_cons_of_mem _ hz) x hxz))
      rw [this, List.append_nil]
    · rw [hother y (by simp) (hd.1 g hg), List.nil_append]
      exact ih (fun z hz => hn z (List.mem_cons_of_mem _ hz)) hd.2 hg

section
variable {l : List (DMessage F)}

theorem groupsOf_flat : ((groupsOf l).flatMap Group.all).Perm l := by
  unfold groupsOf
  rw [groupByName_flat]
  exact pySorted_perm _ l

theorem groupsOf_distinct : (groupsOf l).Pairwise fun a b => a.1.name ≠ b.1.name :=
  groupByName_distinct (sortedMessages_pairwise l)

theorem group_mem {g : Group F} (hg : g ∈ groupsOf l) {x : DMessage F} (hx : x ∈ g.all) : x ∈ l :=
  groupsOf_flat.mem_iff.1 (List.mem_flatMap.2 ⟨g, hg, hx⟩)

theorem group_perm {g : Group F} (hg : g ∈ groupsOf l) :
    g.all.Perm (l.filter fun x => decide (x.name = g.1.name)) := by
  rw [← filter_groups (fun g hg x hx => mem_all_name hg hx) groupsOf_distinct hg]
  exact groupsOf_flat.filter _

end

theorem minMessage_spec (m : DMessage F) (r : List (DMessage F)) :
    minMessage m r ∈ m :: r ∧ ∀ x ∈ m :: r, (minMessage m r).frameId ≤ x.frameId := by
  induction r generalizing m with
  | nil => simp [minMessage]
  | cons a r ih =>
    rw [minMessage]
    obtain ⟨h1, h2⟩ := ih (if a.frameId < m.frameId then a else m)
    constructor
    · rcases List.mem_cons.1 h1 with h | h
      · rw [h]; split <;> simp
      · exact List.mem_cons_of_mem _ (List.mem_cons_of_mem _ h)
    · intro x hx
      have h3 := h2 _ (List.mem_cons_self ..)
      rcases List.mem_cons.1 hx with rfl | hx
      · split at h3 <;> split <;> omega
      · rcases List.mem_cons.1 hx with rfl | hx
        · split at h3 <;> split <;> omega
        · exact h2 x (List.mem_cons_of_mem _ hx)

theorem maxFrameId_spec (i : Int) (r : List (DMessage F)) :
    maxFrameId i r ∈ i :: r.map (·.frameId) ∧ ∀ x ∈ i :: r.map (·.frameId), x ≤ maxFrameId i r := by
  induction r generalizing i with
  | nil => simp [maxFrameId]
  | cons a r ih =>
    rw [maxFrameId]
    obtain ⟨h1, h2⟩ := ih (if i < a.frameId then a.frameId else i)
    constructor
    · rcases List.mem_cons.1 h1 with h | h
      · rw [h]; split <;> simp
      · exact List.mem_cons_of_mem _ (List.mem_cons_of_mem _ h)
    · intro x hx
      have h3 := h2 _ (List.mem_cons_self ..)
      rcases List.mem_cons.1 hx with rfl | hx
      · split at h3 <;> split <;> omega
      · rw [List.map_cons] at hx
        rcases List.mem_cons.1 hx with rfl | hx
        · split at h3 <;> split <;> omega
        · exact h2 x (List.mem_cons_of_mem _ hx)

/-- The message that is written for a group. -/
def Group.lead (g : Group F) : DMessage F := minMessage g.1 g.2

/-- The last id of a group of several messages. -/
def Group.last (g : Group F) : Option Int := if g.2 = [] then none else some (maxFrameId g.1.frameId g.2)

/-- What is known about a group. -/
structure GoodGroup (T : FloatText F) (g : Group F) : Prop where
  lead : SymMessage T g.lead
  mem : g.lead ∈ g.all
  ids : (g.all.map (·.frameId)).Perm ((List.range g.all.length).map fun k : Nat => g.lead.frameId + (k : Int))
  last : g.last = if g.2 = [] then none else some (g.lead.frameId + (g.2.length : Int))
  plain : Plain g.lead ∨ g.last = none
  same : ∀ x ∈ g.all, x = { g.lead with frameId := x.frameId }

theorem goodGroup {T : FloatText F} {db : DDatabase F} (W : SymDatabase T db) {g : Group F}
    (hg : g ∈ groupsOf db.messages) : GoodGroup T g := by
  obtain ⟨h1, h2⟩ := minMessage_spec g.1 g.2
  obtain ⟨h3, h4⟩ := maxFrameId_spec g.1.frameId g.2
  have hmem : g.lead ∈ g.all := h1
  have hdb := group_mem hg hmem
  obtain ⟨first, count, hp⟩ := W.ranges g.lead hdb
  have hname : g.lead.name = g.1.name := mem_all_name hg hmem
  rw [hname] at hp
  have hids : (g.all.map (·.frameId)).Perm ((List.range count).map fun k : Nat => first + (k : Int)) :=
    ((group_perm hg).map _).trans hp
  have hcount : count = g.all.length := by simpa using hids.length_eq.symm
  have hcount' : count = g.2.length + 1 := hcount
  have hfirst : first = g.lead.frameId := by
    have a1 : first ∈ g.all.map (·.frameId) := hids.mem_iff.2 (List.mem_map.2 ⟨0, List.mem_range.2 (by omega), by simp⟩)
    obtain ⟨x, hx, hxe⟩ := List.mem_map.1 a1
    have a2 := h2 x hx
    have a3 : g.lead.frameId ∈ (List.range count).map fun k : Nat => first + (k : Int) :=
      hids.mem_iff.1 (List.mem_map_of_mem hmem)
    obtain ⟨k, -, hk⟩ := List.mem_map.1 a3
    have : g.lead.frameId ≤ first := hxe ▸ a2
    omega
  subst hfirst
  have hlast : maxFrameId g.1.frameId g.2 = g.lead.frameId + (g.2.length : Int) := by
    have e : g.1.frameId :: g.2.map (·.frameId) = g.all.map (·.frameId) := rfl
    rw [e] at h3 h4
    have a1 : g.lead.frameId + (g.2.length : Int) ∈ g.all.map (·.frameId) :=
      hids.mem_iff.2 (List.mem_map.2 ⟨g.2.length, List.mem_range.2 (by omega), rfl⟩)
    have a2 := h4 _ a1
    obtain ⟨k, hk, hke⟩ := List.mem_map.1 (hids.mem_iff.1 h3)
    have := List.mem_range.1 hk
    omega
  have hnd : (g.all.map (·.frameId)).Nodup := by
    rw [hids.nodup_iff]
    refine List.Nodup.map ?_ List.nodup_range
    intro a b h
    simpa using h
  refine ⟨W.messages _ hdb, hmem, ?_, ?_, ?_, ?_⟩
  · rw [← hcount]; exact hids
  · unfold Group.last
    rw [hlast]
  · unfold Group.last
    by_cases h : g.2 = []
    · right; rw [if_pos h]
    · left
      have : ∃ x ∈ g.all, x ≠ g.lead := by
        by_contra hc
        push Not at hc
        have e1 := hc g.1 (by simp [Group.all])
        obtain ⟨y, hy⟩ := List.exists_mem_of_ne_nil _ h
        have e2 := hc y (List.mem_cons_of_mem _ hy)
        rw [Group.all, List.map_cons, List.nodup_cons] at hnd
        apply hnd.1
        rw [e1, ← e2]
        exact List.mem_map_of_mem hy
      obtain ⟨x, hx, hne⟩ := this
      rcases W.names g.lead hdb x (group_mem hg hx) (hname.trans (mem_all_name hg hx).symm) with h | h
      · exact absurd h hne
      · exact h.1
  · intro x hx
    rcases W.names g.lead hdb x (group_mem hg hx) (hname.trans (mem_all_name hg hx).symm) with h | h
    · rw [h]
    · exact h.2

def groupBlocks (T : FloatText F) (g : Group F) : List Block := blocksOf T g.lead g.last

theorem dumpGroup_eq {T : FloatText F} {g : Group F} (G : GoodGroup T g) :
    ∃ texts, dumpGroup T g = .ok (g.lead.senders, texts) ∧ List.Forall₂ TextOf texts (groupBlocks T g) := by
  obtain ⟨texts, h1, h2⟩ := texts_group G.lead (last := g.last) G.plain
  refine ⟨texts, ?_, h2⟩
  unfold dumpGroup
  dsimp only
  have hl : (if g.2 = [] then .ok none
      else if maxFrameId g.1.frameId g.2 - (minMessage g.1 g.2).frameId + 1 ≠ ((g.2.length + 1 : Nat) : Int) then
        .error .valueError else .ok (some (maxFrameId g.1.frameId g.2)) : Except Err (Option Int)) = .ok g.last := by
    have h3 := G.last
    unfold Group.last at h3 ⊢
    by_cases h : g.2 = []
    · rw [if_pos h, if_pos h]
    · rw [if_neg h, if_neg h] at h3
      rw [if_neg h, if_neg h, if_neg]
      have e : (minMessage g.1 g.2).frameId = g.lead.frameId := rfl
      have := Option.some.inj h3
      rw [e]
      push_cast
      omega
  exact (bind_of_ok hl).trans h1

/-! ### The contents -/

/-- The signals in the order of the file, the first one of every name. -/
def firstSignals (sort : List (DSignal F) → List (DSignal F)) (db : DDatabase F) : List (DSignal F) :=
  firstByName [] (db.messages.flatMap fun m => sort m.signals)

def sectionBlocks (T : FloatText F) (db : DDatabase F) (p : List Chars → Bool) : List Block :=
  ((groupsOf db.messages).filter fun g => p g.lead.senders).flatMap (groupBlocks T)

def contentOf (T : FloatText F) (sort : List (DSignal F) → List (DSignal F)) (db : DDatabase F) : Content :=
  { enums := (firstSignals id db).filterMap enumLineOf
    signals := (firstSignals sort db).map (sigLineOf T)
    send := sectionBlocks T db fun l => decide (l = [ecu])
    receive := sectionBlocks T db fun l => decide (l = [peripherals])
    sendReceive := sectionBlocks T db fun l => !decide (l = [ecu]) && !decide (l = [peripherals]) }

theorem join_forall {α : Type} {g : α → Chars} {ts : List Chars} {l : List α}
    (h : List.Forall₂ (fun t a => t ++ ['\n'] = g a) ts l) (hne : ts ≠ []) :
    joinC ['\n'] ts ++ ['\n'] = l.flatMap g := by
  induction h with
  | nil => exact absurd rfl hne
  | @cons t a ts l h1 h2 ih =>
    cases h2 with
    | nil => simp [joinC, h1]
    | @cons t' b ts l h3 h4 =>
      have := ih (by simp)
      simp only [joinC, List.flatMap_cons] at this ⊢
      rw [← h1, ← this]
      simp

theorem text_section {header : String} {h' : String} (hh : header.toList = h'.toList ++ ['\n']) {ts : List Chars}
    {bs : List Block} (h : List.Forall₂ TextOf ts bs) :
    sectionText header ts = textOf (sectionPieces h' blockPieces bs) := by
  unfold sectionPieces
  cases h with
  | nil => rfl
  | @cons t b ts bs h1 h2 =>
    have := join_forall (g := fun b => textOf (blockPieces b)) (.cons h1 h2) (by simp)
    simp only [sectionText, List.isEmpty_cons]
    rw [this, hh, if_neg (by simp), textOf_append, textOf_flatMap]
    simp [textOf_cons, textOf_nil, Piece.text]

theorem text_spaced {α : Type} {header : Chars} {h' : String} (hh : header = h'.toList ++ ['\n']) {f : α → List Piece}
    {ts : List Chars} {l : List α} (h : List.Forall₂ (fun t a => t ++ ['\n'] = textOf (f a)) ts l) :
    (match (generalizing := false) ts with | [] => [] | ts => header ++ joinC ['\n'] ts) ++ "\n\n".toList = textOf (spacedPieces h' f l) := by
  unfold spacedPieces
  cases h with
  | nil => rfl
  | @cons t b ts bs h1 h2 =>
    have := join_forall (g := fun a => textOf (f a)) (.cons h1 h2) (by simp)
    simp only [List.isEmpty_cons]
    rw [if_neg (by simp), textOf_append, textOf_append, textOf_flatMap, ← this, hh]
    simp [textOf_cons, textOf_nil, Piece.text]

theorem forall_filterMap {α : Type} {f : α → Option Chars} {β : Type} {g : α → Option β} {h : β → Chars} {l : List α}
    (hfg : ∀ a, (f a).map (· ++ ['\n']) = (g a).map h) :
    List.Forall₂ (fun t b => t ++ ['\n'] = h b) (l.filterMap f) (l.filterMap g) := by
  induction l with
  | nil => exact .nil
  | cons a l ih =>
    have := hfg a
    rw [List.filterMap_cons, List.filterMap_cons]
    cases hf : f a <;> cases hg : g a <;> rw [hf, hg] at this <;> simp at this
    · exact ih
    · exact .cons this ih

theorem forall_sections {T : FloatText F} {p : List Chars → Bool} {gs : List (Group F)}
    {rs : List (List Chars × List Chars)}
    (h : List.Forall₂ (fun g r => r.1 = g.lead.senders ∧ List.Forall₂ TextOf r.2 (groupBlocks T g)) gs rs) :
    List.Forall₂ TextOf ((rs.filter fun r => p r.1).flatMap (·.2))
      ((gs.filter fun g => p g.lead.senders).flatMap (groupBlocks T)) := by
  induction h with
  | nil => exact .nil
  | @cons g r gs rs h1 _ ih =>
    rw [List.filter_cons, List.filter_cons, h1.1]
    split
    · rw [List.flatMap_cons, List.flatMap_cons]
      exact List.rel_append h1.2 ih
    · exact ih

theorem mapM_forall {α β : Type} {R : α → β → Prop} {f : α → Except Err β} {l : List α}
    (h : ∀ a ∈ l, ∃ b, f a = .ok b ∧ R a b) : ∃ r, l.mapM f = .ok r ∧ List.Forall₂ R l r := by
  induction l with
  | nil => exact ⟨[], rfl, .nil⟩
  | cons a l ih =>
    obtain ⟨b, h1, h2⟩ := h a (by simp)
    obtain ⟨r, h3, h4⟩ := ih fun x hx => h x (List.mem_cons_of_mem _ hx)
    refine ⟨b :: r, ?_, .cons h2 h4⟩
    rw [List.mapM_cons]
    exact (bind_of_ok h1).trans ((bind_of_ok h3).trans rfl)

/-- The text of a database is that of its contents. -/
theorem text_content {T : FloatText F} {sort : List (DSignal F) → List (DSignal F)} {db : DDatabase F}
    (W : SymDatabase T db) : dumpString T sort db = .ok (textOf (contentOf T sort db).pieces) := by
  obtain ⟨rs, h1, h2⟩ := mapM_forall (f := dumpGroup T) (l := groupsOf db.messages)
    (R := fun g r => r.1 = g.lead.senders ∧ List.Forall₂ TextOf r.2 (groupBlocks T g)) (by
      intro g hg
      obtain ⟨texts, h1, h2⟩ := dumpGroup_eq (goodGroup W hg)
      exact ⟨_, h1, rfl, h2⟩)
  have h3 : dumpMessages T db = .ok (textOf (sectionPieces "{SEND}" blockPieces (contentOf T sort db).send) ++
      (textOf (sectionPieces "{RECEIVE}" blockPieces (contentOf T sort db).receive) ++
        textOf (sectionPieces "{SENDRECEIVE}" blockPieces (contentOf T sort db).sendReceive))) := by
    unfold dumpMessages
    refine (bind_of_ok h1).trans ?_
    dsimp only
    rw [text_section (h' := "{SEND}") rfl (forall_sections (p := fun l => decide (l = [ecu])) h2),
      text_section (h' := "{RECEIVE}") rfl (forall_sections (p := fun l => decide (l = [peripherals])) h2),
      text_section (h' := "{SENDRECEIVE}") rfl
        (forall_sections (p := fun l => !decide (l = [ecu]) && !decide (l = [peripherals])) h2)]
    rfl
  have h4 : dumpChoices db ++ "\n\n".toList = textOf (spacedPieces "{ENUMS}" enumPieces (contentOf T sort db).enums) :=
    text_spaced (header := "{ENUMS}\n".toList) (h' := "{ENUMS}") rfl (forall_filterMap text_enum)
  have h5 : dumpSignals T sort db ++ "\n\n".toList =
      textOf (spacedPieces "{SIGNALS}" sigPieces (contentOf T sort db).signals) := by
    refine text_spaced (header := "{SIGNALS}\n".toList) (h' := "{SIGNALS}") rfl ?_
    unfold contentOf
    rw [List.forall₂_map_left_iff, List.forall₂_map_right_iff]
    exact List.forall₂_same.2 fun s _ => text_sig T s
  unfold dumpString
  refine (bind_of_ok h3).trans ?_
  unfold Content.pieces
  simp only [textOf_append]
  rw [← h4, ← h5]
  have h6 : textOf headPieces = "FormatVersion=6.0 // Do not edit this line!\nTitle=\"SYM Database\"\n\n".toList := by
    decide +kernel
  rw [h6]
  simp only [List.append_assoc]
  rfl

end Cantools.Sym
