import Verif.Lemmas.FilesDbc
import Verif.Lemmas.SymKept
import Verif.Lemmas.KcdXmlLoad

/-
The characters of a SYM file, and its senders.
-/

namespace Cantools.Files
open Cantools Spec Dbc

variable {F : Type} {P : Char → Prop}

/-! ### Characters -/

section
variable (B : Base P) {T : FloatText F} (L : FloatLaws T)

include B in
theorem fine_lit {t : Chars} (h : ∀ c ∈ t, c.toNat < 0x80 ∧ c ≠ '\r') : Fine P t := fine_ascii B h

theorem hexChar_ascii : ∀ n : Fin 16, (Kcd.hexChar n.val).toNat < 0x80 ∧ Kcd.hexChar n.val ≠ '\r' := by decide +kernel

include B in
theorem fine_hexadecimal (n : Nat) : Fine P (Kcd.hexadecimal n) := by
  induction n using Nat.strong_induction_on with
  | _ n ih =>
    rw [Kcd.hexadecimal]
    split
    · rename_i h
      refine fine_lit B ?_
      intro c hc
      simp only [List.mem_cons, List.not_mem_nil, or_false] at hc
      subst hc
      exact hexChar_ascii ⟨n, h⟩
    · refine fine_append (ih _ (by omega)) (fine_lit B ?_)
      intro c hc
      simp only [List.mem_cons, List.not_mem_nil, or_false] at hc
      subst hc
      exact hexChar_ascii ⟨n % 16, Nat.mod_lt _ (by decide)⟩

theorem fine_replicate {c : Char} (h : P c) (n : Nat) : Fine P (List.replicate n c) := fun d hd => by
  rw [List.eq_of_mem_replicate hd]; exact h

include B in
theorem fine_hexText (w : Nat) (i : Int) : Fine P (Sym.hexText w i) := by
  have h0 : P '0' := B.ascii _ (by decide) (by decide)
  have hm : P '-' := B.ascii _ (by decide) (by decide)
  unfold Sym.hexText
  split
  · exact fine_cons hm (fine_append (fine_replicate h0 _) (fine_hexadecimal B _))
  · exact fine_append (fine_replicate h0 _) (fine_hexadecimal B _)

theorem fine_joinC {sep : Chars} (hs : Fine P sep) {l : List Chars} (h : ∀ t ∈ l, Fine P t) : Fine P (joinC sep l) := by
  induction l with
  | nil => exact fine_nil
  | cons x r ih =>
    cases r with
    | nil => exact h x (by simp)
    | cons y r =>
      rw [joinC]
      exact fine_append (h x (by simp)) (fine_append hs (ih fun t ht => h t (List.mem_cons_of_mem _ ht)))

include B in
theorem fine_int (i : Int) : Fine P (intText i) := fine_number B (isNumber_intText i)

include B in
theorem fine_decimal (n : Nat) : Fine P (decimal n) := fine_number B (isNumber_decimal n)

macro "lit" : tactic => `(tactic| exact fine_lit (by assumption) (by decide +kernel))

/-- The texts of a signal in a SYM file. -/
def SymFine (P : Char → Prop) (s : DSignal F) : Prop := ∀ t ∈ s.name :: signalTexts s, Fine P t

theorem symFine_name {s : DSignal F} (h : SymFine P s) : Fine P (Sym.signalName s) := fun c hc =>
  h s.name (by simp) c (List.mem_of_mem_take hc)

include B in
theorem symFine_enum {s : DSignal F} (h : SymFine P s) : Fine P (Sym.enumName s) := by
  refine fine_append ?_ (by lit)
  intro c hc
  obtain ⟨d, hd, rfl⟩ := List.mem_map.1 (List.mem_of_mem_take hc)
  split
  · exact B.ascii _ (by decide) (by decide)
  · exact symFine_name h d hd

include B in
theorem fine_choiceTexts {cs : List (Int × Chars)} (h : ∀ c ∈ cs, Fine P c.2) : ∀ k, Fine P (Sym.choiceTexts k cs) := by
  induction cs with
  | nil => exact fun _ => fine_nil
  | cons c r ih =>
    intro k
    rw [Sym.choiceTexts]
    refine fine_append ?_ (fine_append (fine_int B _) (fine_cons (B.ascii _ (by decide) (by decide))
      (fine_cons (B.ascii _ (by decide) (by decide)) (fine_append (h c (by simp)) (fine_cons (B.ascii _ (by decide) (by decide))
        (ih (fun d hd => h d (List.mem_cons_of_mem _ hd)) _))))))
    split
    · lit
    · split
      · lit
      · exact fine_nil

include B in
theorem fine_dumpChoice {s : DSignal F} (h : SymFine P s) {t : Chars} (ht : Sym.dumpChoice s = some t) : Fine P t := by
  unfold Sym.dumpChoice at ht
  split at ht
  · cases ht
  · cases ht
  · rename_i cs _ hcs
    simp only [Option.some.injEq] at ht
    rw [← ht]
    refine fine_append (by lit) (fine_append (symFine_enum B h) (fine_cons (B.ascii _ (by decide) (by decide))
      (fine_append (fine_choiceTexts B ?_ _) (by lit))))
    intro c hc
    refine h c.2 (List.mem_cons_of_mem _ ?_)
    simp only [signalTexts, hcs, Option.getD_some, List.mem_append]
    exact .inr (.inr (List.mem_map_of_mem hc))

include B L in
theorem fine_num (n : Num F) : Fine P (n.text T) := fine_number B (isNumber_num L n)

include B L in
theorem fine_dumpSignal {s : DSignal F} (h : SymFine P s) (hspn : ∀ v, s.spn = some v → ∃ n, v = .num n) :
    Fine P (Sym.dumpSignal T s) := by
  unfold Sym.dumpSignal
  refine fine_append (by lit) (fine_append (symFine_name h) (fine_append (by lit) (fine_append ?_ (fine_cons
    (B.ascii _ (by decide) (by decide)) (fine_append (fine_decimal B _) (fine_append ?_ (fine_append ?_ (fine_append ?_
    (fine_append ?_ (fine_append ?_ (fine_append ?_ (fine_append ?_ (fine_append ?_ ?_)))))))))))))
  · unfold Sym.signalType
    split
    · split <;> lit
    · split
      · lit
      · split <;> lit
  · split
    · lit
    · exact fine_nil
  · split
    · exact fine_nil
    · exact fine_nil
    · rename_i u _ hu
      exact fine_append (by lit) (fine_append (h u (by simp [signalTexts, hu])) (by lit))
  · split
    · exact fine_append (by lit) (fine_num B L _)
    · exact fine_nil
  · split
    · exact fine_append (by lit) (fine_num B L _)
    · exact fine_nil
  · split
    · exact fine_nil
    · exact fine_append (by lit) (fine_num B L _)
  · split
    · exact fine_nil
    · exact fine_append (by lit) (fine_num B L _)
  · split
    · exact fine_nil
    · rename_i v hv
      obtain ⟨n, rfl⟩ := hspn v hv
      split
      · exact fine_append (by lit) (fine_num B L n)
      · exact fine_nil
  · split
    · exact fine_nil
    · exact fine_nil
    · exact fine_append (by lit) (symFine_enum B h)
  · split
    · exact fine_nil
    · exact fine_nil
    · rename_i c _ hc
      exact fine_append (by lit) (h c (by simp [signalTexts, hc]))

include B in
theorem fine_dumpMux {id : Int} {s : DSignal F} (h : SymFine P s) {t : Chars} (ht : Sym.dumpMux id s = .ok t) :
    Fine P t := by
  unfold Sym.dumpMux at ht
  split at ht
  · cases ht
  · simp only [Except.ok.injEq] at ht
    rw [← ht]
    refine fine_append (by lit) (fine_append (h _ (by simp)) (fine_append (by lit) (fine_append (fine_int B _) (fine_cons
      (B.ascii _ (by decide) (by decide)) (fine_append (fine_decimal B _) (fine_cons (B.ascii _ (by decide) (by decide))
      (fine_append (fine_hexText B _ _) (fine_cons (B.ascii _ (by decide) (by decide)) (fine_cons
      (B.ascii _ (by decide) (by decide)) (fine_append ?_ (by lit)))))))))))
    split
    · lit
    · exact fine_nil

/-- The texts of a message in a SYM file. -/
structure SymFineMessage (P : Char → Prop) (m : DMessage F) : Prop where
  name : Fine P m.name
  comment : ∀ c, m.comment = some c → Fine P c
  signals : ∀ s ∈ m.signals, SymFine P s

include B L in
theorem fine_dumpMessage {m : DMessage F} (h : SymFineMessage P m) {signals : List (DSignal F)}
    (hs : ∀ s ∈ signals, SymFine P s) {first last : Option Int} {mux : Option (Int × DSignal F)}
    (hm : ∀ x, mux = some x → SymFine P x.2) {t : Chars} (ht : Sym.dumpMessage T m signals first last mux = .ok t) :
    Fine P t := by
  unfold Sym.dumpMessage at ht
  obtain ⟨mt, hmt, ht⟩ := bind_ok_iff.1 ht
  have hmt' : Fine P mt := by
    cases hx : mux with
    | none => rw [hx] at hmt; cases hmt; exact fine_nil
    | some x => rw [hx] at hmt; exact fine_dumpMux B (hm x hx) hmt
  cases ht
  have nl : P '\n' := B.ascii _ (by decide) (by decide)
  have hid : ∀ i, Fine P (Sym.idText m i) := fun i => fine_append (fine_hexText B _ _) (by lit)
  refine fine_append (by lit) (fine_append h.name (fine_append (by lit) (fine_append ?_ (fine_append ?_ (fine_append ?_
    (fine_append ?_ (fine_append ?_ (fine_append (by lit) (fine_append (fine_decimal B _) (fine_cons nl (fine_append ?_
    (fine_append hmt' ?_))))))))))))
  · split
    · exact fine_nil
    · exact fine_append (by lit) (hid _)
  · split
    · exact fine_nil
    · exact fine_cons (B.ascii _ (by decide) (by decide)) (hid _)
  · split
    · rename_i c _ hc
      exact fine_append (by lit) (h.comment _ hc)
    · exact fine_nil
  · split
    · exact fine_nil
    · lit
  · split
    · lit
    · exact fine_nil
  · split
    · exact fine_nil
    · split
      · exact fine_append (by lit) (fine_append (fine_num B L _) (by lit))
      · exact fine_nil
  · intro c hc
    obtain ⟨s, hss, hc⟩ := List.mem_flatMap.1 hc
    exact fine_append (by lit) (fine_append (symFine_name (hs s hss)) (fine_append (by lit) (fine_append (fine_int B _)
      (by lit)))) c hc

theorem signalNamed_mem {m : DMessage F} {n : String} {s : DSignal F} (h : Sym.signalNamed m n = .ok s) : s ∈ m.signals := by
  unfold Sym.signalNamed at h
  split at h
  · rename_i s' hs
    cases h
    exact List.mem_reverse.1 (List.mem_of_find?_eq_some hs)
  · cases h

include B L in
theorem fine_dumpBranches {m : DMessage F} (h : SymFineMessage P m) {plain : List String} {selector : String}
    {last : Option Int} : ∀ {first : Option Int} {bs : TreeBranches} {l : List Chars},
    Sym.dumpBranches T m plain selector last first bs = .ok l → ∀ t ∈ l, Fine P t
  | _, .nil, l, hl => by
    cases hl; intro t ht; cases ht
  | first, .cons id tree rest, l, hl => by
    unfold Sym.dumpBranches at hl
    obtain ⟨names, h1, hl⟩ := bind_ok_iff.1 hl
    obtain ⟨signals, h2, hl⟩ := bind_ok_iff.1 hl
    obtain ⟨others, h3, hl⟩ := bind_ok_iff.1 hl
    obtain ⟨s, h4, hl⟩ := bind_ok_iff.1 hl
    obtain ⟨text, h5, hl⟩ := bind_ok_iff.1 hl
    obtain ⟨more, h6, hl⟩ := bind_ok_iff.1 hl
    cases hl
    intro t ht
    rcases List.mem_cons.1 ht with rfl | ht
    · refine fine_dumpMessage B L h ?_ ?_ h5
      · intro x hx
        rcases List.mem_append.1 hx with hx | hx
        · obtain ⟨n, -, hn⟩ := Kcd.mapM_mem h2 x hx
          exact h.signals x (signalNamed_mem hn)
        · obtain ⟨n, -, hn⟩ := Kcd.mapM_mem h3 x hx
          exact h.signals x (signalNamed_mem hn)
      · rintro x ⟨⟩
        exact h.signals s (signalNamed_mem h4)
    · exact fine_dumpBranches h h6 t ht

include B L in
theorem fine_dumpMuxes {m : DMessage F} (h : SymFineMessage P m) {plain : List String} {first : Int} {last : Option Int} :
    ∀ {tree : SigTree} {l : List Chars}, Sym.dumpMuxes T m plain first last tree = .ok l → ∀ t ∈ l, Fine P t
  | .nil, l, hl => by cases hl; intro t ht; cases ht
  | .leaf _ r, l, hl => by
    unfold Sym.dumpMuxes at hl
    exact fine_dumpMuxes h hl
  | .mux name branches r, l, hl => by
    unfold Sym.dumpMuxes at hl
    obtain ⟨texts, h1, hl⟩ := bind_ok_iff.1 hl
    obtain ⟨more, h2, hl⟩ := bind_ok_iff.1 hl
    cases hl
    intro t ht
    rcases List.mem_append.1 ht with ht | ht
    · exact fine_dumpBranches B L h h1 t ht
    · exact fine_dumpMuxes h h2 t ht

include B L in
theorem fine_dumpGroup {g : DMessage F × List (DMessage F)} (h : ∀ m ∈ g.1 :: g.2, SymFineMessage P m)
    {r : List Chars × List Chars} (hr : Sym.dumpGroup T g = .ok r) : ∀ t ∈ r.2, Fine P t := by
  have hm := h _ (Sym.minMessage_spec g.1 g.2).1
  unfold Sym.dumpGroup at hr
  obtain ⟨last, -, hr⟩ := bind_ok_iff.1 hr
  obtain ⟨tree, -, hr⟩ := bind_ok_iff.1 hr
  obtain ⟨texts, ht, hr⟩ := bind_ok_iff.1 hr
  cases hr
  split at ht
  · exact fine_dumpMuxes B L hm ht
  · intro t htt
    cases hd : Sym.dumpMessage T (Sym.minMessage g.1 g.2) (Sym.minMessage g.1 g.2).signals
        (some (Sym.minMessage g.1 g.2).frameId) last none with
    | error e => rw [hd] at ht; cases ht
    | ok x =>
      rw [hd] at ht
      cases ht
      simp only [List.mem_cons, List.not_mem_nil, or_false] at htt
      subst htt
      exact fine_dumpMessage B L hm hm.signals (by simp) hd

theorem fine_section {header : String} (hh : Fine P header.toList) (nl : P '\n') {l : List Chars}
    (h : ∀ t ∈ l, Fine P t) : Fine P (Sym.sectionText header l) := by
  unfold Sym.sectionText
  split
  · exact fine_nil
  · exact fine_append hh (fine_append (fine_joinC (fine_cons nl fine_nil) h) (fine_cons nl fine_nil))

theorem firstByName_mem {l : List (DSignal F)} : ∀ {g : List Chars}, ∀ s ∈ Sym.firstByName g l, s ∈ l := by
  induction l with
  | nil => intro g s hs; cases hs
  | cons a r ih =>
    intro g s hs
    rw [Sym.firstByName] at hs
    split at hs
    · exact List.mem_cons_of_mem _ (ih s hs)
    · rcases List.mem_cons.1 hs with rfl | hs
      · simp
      · exact List.mem_cons_of_mem _ (ih s hs)

include B L in
/-- The characters of a SYM file. -/
theorem fine_symText {db : DDatabase F} (h : ∀ t ∈ symTexts db, Fine P t)
    (hspn : ∀ m ∈ db.messages, ∀ s ∈ m.signals, ∀ v, s.spn = some v → ∃ n, v = .num n)
    {sort : List (DSignal F) → List (DSignal F)} (hsort : ∀ l, (sort l).Perm l) {text : Chars}
    (ht : Sym.dumpString T sort db = .ok text) : Fine P text := by
  have hm : ∀ m ∈ db.messages, SymFineMessage P m := by
    intro m hm
    have sub : ∀ t, t ∈ m.name :: (m.comment.toList ++ m.signals.flatMap fun s => s.name :: signalTexts s) → Fine P t :=
      fun t ht => h t (List.mem_flatMap.2 ⟨m, hm, ht⟩)
    refine ⟨sub _ (by simp), fun c hc => sub _ (by simp [hc]), fun s hs t ht => sub t ?_⟩
    exact List.mem_cons_of_mem _ (List.mem_append_right _ (List.mem_flatMap.2 ⟨s, hs, ht⟩))
  have nl : P '\n' := B.ascii _ (by decide) (by decide)
  unfold Sym.dumpString at ht
  obtain ⟨messages, h1, ht⟩ := bind_ok_iff.1 ht
  cases ht
  refine fine_append (by lit) (fine_append ?_ (fine_append (by lit) (fine_append ?_ (fine_append (by lit) ?_))))
  · unfold Sym.dumpChoices
    split
    · exact fine_nil
    · refine fine_append (by lit) (fine_joinC (by lit) ?_)
      intro t ht
      obtain ⟨s, hs, hc⟩ := List.mem_filterMap.1 ht
      obtain ⟨m, hmm, hss⟩ := List.mem_flatMap.1 (firstByName_mem s hs)
      exact fine_dumpChoice B ((hm m hmm).signals s hss) hc
  · unfold Sym.dumpSignals
    split
    · exact fine_nil
    · refine fine_append (by lit) (fine_joinC (by lit) ?_)
      intro t ht
      obtain ⟨s, hs, rfl⟩ := List.mem_map.1 ht
      obtain ⟨m, hmm, hss⟩ := List.mem_flatMap.1 (firstByName_mem s hs)
      have hss := (hsort _).mem_iff.1 hss
      exact fine_dumpSignal B L ((hm m hmm).signals s hss) (hspn m hmm s hss)
  · unfold Sym.dumpMessages at h1
    obtain ⟨groups, h2, h1⟩ := bind_ok_iff.1 h1
    cases h1
    have hg : ∀ x ∈ groups, ∀ t ∈ x.2, Fine P t := by
      intro x hx
      obtain ⟨g, hg, hd⟩ := Kcd.mapM_mem h2 x hx
      refine fine_dumpGroup B L ?_ hd
      intro m hmm
      apply hm
      have : m ∈ (Sym.groupByName (pySorted (fun a b : DMessage F => decide (a.name ≤ b.name)) db.messages)).flatMap Sym.Group.all :=
        List.mem_flatMap.2 ⟨g, hg, hmm⟩
      rw [Sym.groupByName_flat] at this
      exact (pySorted_perm _ _).mem_iff.1 this
    have sec : ∀ p : List Chars × List Chars → Bool, ∀ t ∈ (groups.filter p).flatMap (·.2), Fine P t := by
      intro p t ht
      obtain ⟨x, hx, ht⟩ := List.mem_flatMap.1 ht
      exact hg x (List.mem_filter.1 hx).1 t ht
    exact fine_append (fine_section (by lit) nl (sec _)) (fine_append (fine_section (by lit) nl (sec _))
      (fine_section (by lit) nl (sec _)))

end

/-! ### Senders -/

theorem ins_map {α β : Type} (f : α → β) (le : β → β → Bool) (a : α) (l : List α) :
    pySorted.ins le (f a) (l.map f) = (pySorted.ins (fun a b => le (f a) (f b)) a l).map f := by
  induction l with
  | nil => rfl
  | cons b r ih =>
    simp only [List.map_cons, pySorted.ins]
    split
    · rfl
    · rw [ih]; rfl

theorem pySorted_map {α β : Type} (f : α → β) (le : β → β → Bool) (l : List α) :
    pySorted le (l.map f) = (pySorted (fun a b => le (f a) (f b)) l).map f := by
  induction l with
  | nil => rfl
  | cons a r ih => rw [List.map_cons, pySorted, ih, ins_map, pySorted]

/-- A group with other senders. -/
def symGroup (g : DMessage F × List (DMessage F)) : DMessage F × List (DMessage F) :=
  (symSenders g.1, g.2.map symSenders)

theorem groupByName_symSenders (l : List (DMessage F)) :
    Sym.groupByName (l.map symSenders) = (Sym.groupByName l).map symGroup := by
  induction l with
  | nil => rfl
  | cons m r ih =>
    rw [List.map_cons, Sym.groupByName, ih, Sym.groupByName]
    cases Sym.groupByName r with
    | nil => rfl
    | cons g gs =>
      obtain ⟨m', l'⟩ := g
      simp only [List.map_cons, symGroup]
      by_cases h : m'.name = m.name
      · rw [if_pos (show (symSenders m').name = (symSenders m).name from h), if_pos h]
        rfl
      · rw [if_neg (show (symSenders m').name ≠ (symSenders m).name from h), if_neg h]
        rfl

theorem minMessage_symSenders (m : DMessage F) (l : List (DMessage F)) :
    Sym.minMessage (symSenders m) (l.map symSenders) = symSenders (Sym.minMessage m l) := by
  induction l generalizing m with
  | nil => rfl
  | cons a r ih =>
    rw [List.map_cons, Sym.minMessage, Sym.minMessage, ← ih]
    congr 1
    by_cases h : a.frameId < m.frameId
    · rw [if_pos h, if_pos (show (symSenders a).frameId < (symSenders m).frameId from h)]
    · rw [if_neg h, if_neg (show ¬ (symSenders a).frameId < (symSenders m).frameId from h)]

theorem maxFrameId_symSenders (i : Int) (l : List (DMessage F)) :
    Sym.maxFrameId i (l.map symSenders) = Sym.maxFrameId i l := by
  induction l generalizing i with
  | nil => rfl
  | cons a r ih => rw [List.map_cons, Sym.maxFrameId, Sym.maxFrameId, ih]; rfl

theorem dumpBranches_symSenders {T : FloatText F} (m : DMessage F) (plain : List String) (selector : String)
    (last : Option Int) : ∀ (first : Option Int) (bs : TreeBranches),
    Sym.dumpBranches T (symSenders m) plain selector last first bs = Sym.dumpBranches T m plain selector last first bs
  | _, .nil => rfl
  | _, .cons _ _ rest => by
    rw [Sym.dumpBranches, Sym.dumpBranches, dumpBranches_symSenders m plain selector last none rest]
    rfl

theorem dumpMuxes_symSenders {T : FloatText F} (m : DMessage F) (plain : List String) (first : Int)
    (last : Option Int) : ∀ tree : SigTree,
    Sym.dumpMuxes T (symSenders m) plain first last tree = Sym.dumpMuxes T m plain first last tree
  | .nil => rfl
  | .leaf _ r => by rw [Sym.dumpMuxes, Sym.dumpMuxes, dumpMuxes_symSenders m plain first last r]
  | .mux _ _ r => by
    rw [Sym.dumpMuxes, Sym.dumpMuxes, dumpMuxes_symSenders m plain first last r, dumpBranches_symSenders]

/-- The senders as a SYM file has them. -/
def ofSenders (l : List Chars) : List Chars :=
  if l = [Sym.ecu] ∨ l = [Sym.peripherals] then l else [Sym.ecu, Sym.peripherals]

theorem dumpGroup_symGroup {T : FloatText F} (g : DMessage F × List (DMessage F)) :
    Sym.dumpGroup T (symGroup g) = (Sym.dumpGroup T g).map fun r => (ofSenders r.1, r.2) := by
  unfold Sym.dumpGroup
  simp only [symGroup, minMessage_symSenders, maxFrameId_symSenders, List.map_eq_nil_iff, List.length_map,
    dumpMuxes_symSenders]
  show (do
    let last ← (if g.2 = [] then .ok none
      else
        if Sym.maxFrameId g.1.frameId g.2 - (Sym.minMessage g.1 g.2).frameId + 1 ≠ (g.2.length + 1 : Nat) then .error .valueError
        else .ok (some (Sym.maxFrameId g.1.frameId g.2)) : Except Err (Option Int))
    let tree ← Sym.signalTree T (Sym.minMessage g.1 g.2)
    let texts ← (if Sym.hasMux tree then Sym.dumpMuxes T (Sym.minMessage g.1 g.2) (Sym.plainNames tree)
        (Sym.minMessage g.1 g.2).frameId last tree
      else (Sym.dumpMessage T (Sym.minMessage g.1 g.2) (Sym.minMessage g.1 g.2).signals
        (some (Sym.minMessage g.1 g.2).frameId) last none).map ([·]) : Except Err (List Chars))
    return (ofSenders (Sym.minMessage g.1 g.2).senders, texts)) = _
  generalize (if g.2 = [] then .ok none
      else
        if Sym.maxFrameId g.1.frameId g.2 - (Sym.minMessage g.1 g.2).frameId + 1 ≠ (g.2.length + 1 : Nat) then .error .valueError
        else .ok (some (Sym.maxFrameId g.1.frameId g.2)) : Except Err (Option Int)) = x
  cases x with
  | error e => rfl
  | ok last =>
    cases hx : Sym.signalTree T (Sym.minMessage g.1 g.2) with
    | error e => rfl
    | ok tree =>
      simp only [bind, Except.bind, pure, Except.pure]
      generalize (if Sym.hasMux tree = true then Sym.dumpMuxes T (Sym.minMessage g.1 g.2) (Sym.plainNames tree)
        (Sym.minMessage g.1 g.2).frameId last tree
      else (Sym.dumpMessage T (Sym.minMessage g.1 g.2) (Sym.minMessage g.1 g.2).signals
        (some (Sym.minMessage g.1 g.2).frameId) last none).map ([·]) : Except Err (List Chars)) = y
      cases y <;> rfl

theorem mapM_map_ok {α β γ : Type} (f : α → Except Err β) (k : β → γ) (l : List α) :
    (l.mapM fun a => (f a).map k) = (l.mapM f).map (List.map k) := by
  induction l with
  | nil => rfl
  | cons a r ih =>
    rw [List.mapM_cons, List.mapM_cons, ih]
    cases f a with
    | error e => rfl
    | ok b => cases r.mapM f <;> rfl

theorem ofSenders_ecu (l : List Chars) : decide (ofSenders l = [Sym.ecu]) = decide (l = [Sym.ecu]) := by
  unfold ofSenders
  split
  · rfl
  · rename_i h
    rw [not_or] at h
    simp only [h.1, decide_false]
    decide +kernel

theorem ofSenders_peripherals (l : List Chars) :
    decide (ofSenders l = [Sym.peripherals]) = decide (l = [Sym.peripherals]) := by
  unfold ofSenders
  split
  · rfl
  · rename_i h
    rw [not_or] at h
    simp only [h.2, decide_false]
    decide +kernel

theorem filter_senders (p q : List Chars → Bool) (h : ∀ l, p (ofSenders l) = q l) (l : List (List Chars × List Chars)) :
    ((l.map fun r => (ofSenders r.1, r.2)).filter fun g => p g.1).flatMap (·.2) =
      (l.filter fun g => q g.1).flatMap (·.2) := by
  induction l with
  | nil => rfl
  | cons a r ih =>
    simp only [List.map_cons, List.filter_cons, h]
    cases q a.1 <;> simp [ih]

/-- What is written of the senders of messages. -/
theorem dumpString_asSym {T : FloatText F} (sort : List (DSignal F) → List (DSignal F)) (db : DDatabase F) :
    Sym.dumpString T sort (asSym db) = Sym.dumpString T sort db := by
  have h1 : Sym.dumpMessages T (asSym db) = Sym.dumpMessages T db := by
    unfold Sym.dumpMessages asSym
    simp only [pySorted_map]
    rw [groupByName_symSenders, List.mapM_map]
    rw [show (Sym.dumpGroup T ∘ symGroup) = fun g => (Sym.dumpGroup T g).map fun r => (ofSenders r.1, r.2) from
      funext fun g => dumpGroup_symGroup g]
    rw [mapM_map_ok]
    show _ = (do
      let groups ← (Sym.groupByName (pySorted (fun a b : DMessage F => decide (a.name ≤ b.name)) db.messages)).mapM (Sym.dumpGroup T)
      _ : Except Err Chars)
    show (do
      let groups ← ((Sym.groupByName (pySorted (fun a b : DMessage F => decide (a.name ≤ b.name)) db.messages)).mapM (Sym.dumpGroup T)).map _
      _ : Except Err Chars) = _
    cases (Sym.groupByName (pySorted (fun a b : DMessage F => decide (a.name ≤ b.name)) db.messages)).mapM (Sym.dumpGroup T) with
    | error e => rfl
    | ok groups =>
      simp only [Except.map, bind, Except.bind, pure, Except.pure]
      have e1 := filter_senders (fun l => decide (l = [Sym.ecu])) (fun l => decide (l = [Sym.ecu])) ofSenders_ecu groups
      have e2 := filter_senders (fun l => decide (l = [Sym.peripherals])) (fun l => decide (l = [Sym.peripherals]))
        ofSenders_peripherals groups
      have e3 := filter_senders (fun l => !decide (l = [Sym.ecu]) && !decide (l = [Sym.peripherals]))
        (fun l => !decide (l = [Sym.ecu]) && !decide (l = [Sym.peripherals]))
        (fun l => by rw [ofSenders_ecu, ofSenders_peripherals]) groups
      simp only at e1 e2 e3
      rw [e1, e2, e3]
  unfold Sym.dumpString
  rw [h1]
  have h2 : Sym.dumpChoices (asSym db) = Sym.dumpChoices db := by
    unfold Sym.dumpChoices asSym
    simp only [List.flatMap_map]
    rfl
  have h3 : Sym.dumpSignals T sort (asSym db) = Sym.dumpSignals T sort db := by
    unfold Sym.dumpSignals asSym
    simp only [List.flatMap_map]
    rfl
  rw [h2, h3]

end Cantools.Files
