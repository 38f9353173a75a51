import Verif.Lemmas.DumpCommand
import Verif.Lemmas.DumpNames
import Verif.Props.J1939
import Verif.Props.Listing

/-
C68: what the `dump` command prints about a CAN database.
-/

namespace Cantools
open Dbc DumpCommand Spec Spec.Dumping
open Listing (Line LSignal LMessage NamedValue hexText line signalTree)
open Dump (rstrip layoutLines)
open Spec.Picture (ShowsBits VisibleEnd)

variable {F : Type} {T : FloatText F}

namespace DumpCommand

theorem core_names (s : LSignal F) : (s.core T).name = String.ofList s.name := rfl

theorem coreMessage_some {m : LMessage F} (hn : (m.signals.map (·.name)).Nodup) :
    ∃ c, coreMessage T m = .ok c ∧ c.length = m.length ∧ c.signals = m.signals.map (·.core T) := by
  have hn' : ((m.signals.map (·.core T)).map (·.name)).Nodup := by
    rw [List.map_map]
    have : (m.signals.map ((·.name) ∘ (·.core T))) = (m.signals.map (·.name)).map String.ofList := by
      rw [List.map_map]; rfl
    rw [this]
    exact hn.map fun a b e => String.ofList_injective e
  obtain ⟨codec, hc⟩ := Option.isSome_iff_exists.1
    (createCodec_isSome hn' (fuel := m.signals.length + 1) (π := []) .nil (by simp))
  have hc' : createCodec (m.signals.map (·.core T)) (m.signals.length + 1) none none = some codec := hc
  refine ⟨_, by rw [coreMessage, hc'], rfl, rfl⟩

theorem layout_some {m : LMessage F} (hn : (m.signals.map (·.name)).Nodup)
    (hv : ∀ s ∈ m.signals, s.name ≠ [] ∧ ∀ c ∈ s.name, c.isWhitespace = false) (hl : ∀ s ∈ m.signals, 0 < s.length) :
    ∃ c layout count left row, coreMessage T m = .ok c ∧ layoutLines c true = .ok layout ∧
      ShowsBits layout m.length (m.signals.map (·.core T)) count left row := by
  obtain ⟨c, h1, h2, h3⟩ := coreMessage_some (T := T) hn
  have hl' : ∀ s ∈ c.signals, 0 < s.length := by
    rw [h3]
    intro s hs
    obtain ⟨x, hx, rfl⟩ := List.mem_map.1 hs
    exact hl x hx
  have hv' : ∀ s ∈ c.signals, VisibleEnd s.name := by
    rw [h3]
    intro s hs
    obtain ⟨x, hx, rfl⟩ := List.mem_map.1 hs
    have e : (x.core T).name.toList = x.name := String.toList_ofList
    obtain ⟨a, b⟩ := hv x hx
    refine ⟨x.name.dropLast, x.name.getLast a, ?_, b _ (List.getLast_mem a)⟩
    rw [e, List.dropLast_append_getLast]
  obtain ⟨lines, row, a, b, -⟩ := Dump.layout_with_names hl' hv'
  rw [h2, h3] at b
  exact ⟨c, lines, _, _, row, h1, a, b⟩

theorem tree_some {m : LMessage F} (hn : (m.signals.map (·.name)).Nodup) : ∃ t, signalTree T m.signals = .ok t := by
  obtain ⟨c, h, -⟩ := coreMessage_some (T := T) hn
  unfold coreMessage at h
  unfold signalTree
  cases hc : createCodec (m.signals.map (·.core T)) (m.signals.length + 1) none none with
  | none => rw [hc] at h; cases h
  | some codec => exact ⟨_, rfl⟩

theorem j1939_some {f : FrameId} (h : FrameId.InRange f) :
    j1939Lines (FrameId.number f) = .ok
      [line "      Priority:       " (decimal f.priority),
       line "      PGN:            " (hexPadded 5 (Pgn.number (groupOf f))),
       line "      Source:         " (hexPadded 2 f.sourceAddress),
       line "      Destination:    " (if f.pduFormat < 240 then hexPadded 2 f.pduSpecific else "All".toList),
       line "      Format:         " (if f.pduFormat < 240 then "PDU 1".toList else "PDU 2".toList)] := by
  obtain ⟨g, g1, g2, g3⟩ := C22_frame_id_unpack _ (frameId_number_lt h)
  have := frameId_number_inj g2 h g3
  subst this
  have hp := C22_pgn_pack (groupOf g)
    ⟨h.reserved, h.dataPage, h.pduFormat, by dsimp only [groupOf]; split; omega; exact h.pduSpecific⟩ (fun x => if_pos x)
  unfold j1939Lines
  rw [g1]
  by_cases hf : g.pduFormat < 240
  · have hs : (groupOf g).pduSpecific = 0 := if_pos hf
    rw [hs] at hp
    have hp' : pgnPack g.reserved g.dataPage g.pduFormat 0 = .ok (Pgn.number (groupOf g)) := hp
    simp only [bind, Except.bind, pure, Except.pure, hf, decide_true, if_true, hp']
  · have hs : (groupOf g).pduSpecific = g.pduSpecific := if_neg hf
    rw [hs] at hp
    have hp' : pgnPack g.reserved g.dataPage g.pduFormat g.pduSpecific = .ok (Pgn.number (groupOf g)) := hp
    simp only [bind, Except.bind, pure, Except.pure, hf, decide_false, if_false, Bool.false_eq_true, hp']

theorem formatAnd_some {l : List Chars} (h : l ≠ []) : ∃ t, formatAnd l = .ok t := by
  match l, h with
  | [a], _ => exact ⟨_, rfl⟩
  | a :: b :: l, _ => exact ⟨_, formatAnd_many⟩

theorem noted_ne (l : List Chars) : noted l ≠ [] := by
  unfold noted
  split
  · simp
  · assumption

theorem pageLines_some {p : Page F} (h : Dumpable p) : ∃ lines, pageLines T p = .ok lines := by
  obtain ⟨senders, hs⟩ := formatAnd_some (noted_ne p.message.senders)
  have hj : ∃ x, (if p.j1939 then j1939Lines p.message.frameId else .ok [] : Except Err (List Line)) = .ok x := by
    by_cases hj : p.j1939 = true
    · rw [if_pos hj]
      obtain ⟨a, b⟩ := h.j1939 hj
      obtain ⟨f, -, f2, f3⟩ := C22_frame_id_unpack p.message.frameId.toNat (by omega)
      have := j1939_some f2
      rw [f3, Int.toNat_of_nonneg a] at this
      exact ⟨_, this⟩
    · rw [if_neg hj]; exact ⟨_, rfl⟩
  obtain ⟨protocol, hj⟩ := hj
  have hh : ∃ x, headLines T (prefixOf p.parent) p.j1939 (!p.children.isEmpty) p.message = .ok x := by
    unfold headLines
    rw [hj, hs]
    exact ⟨_, rfl⟩
  obtain ⟨head, hh⟩ := hh
  have hb : ∃ x, (if p.children.isEmpty then pictureLines T p.message
      else .ok (childLines p.message.name p.children) : Except Err (List Line)) = .ok x := by
    split
    · obtain ⟨c, layout, _, _, _, h1, h2, -⟩ := layout_some (T := T) h.names h.visible h.lengths
      obtain ⟨t, h3⟩ := tree_some (T := T) h.names
      unfold pictureLines
      rw [h1]
      show ∃ x, (layoutLines c true >>= _) = _
      rw [h2, h3]
      exact ⟨_, rfl⟩
    · exact ⟨_, rfl⟩
  obtain ⟨body, hb⟩ := hb
  refine ⟨head ++ (body ++ [rule]), ?_⟩
  unfold pageLines messageLines
  rw [hh]
  show (_ >>= _) = _
  rw [hb]
  rfl

theorem mapM_some {α β : Type} {f : α → Except Err β} {l : List α} (h : ∀ a ∈ l, ∃ b, f a = .ok b) :
    ∃ r, l.mapM f = .ok r := by
  induction l with
  | nil => exact ⟨[], rfl⟩
  | cons a l ih =>
    obtain ⟨b, hb⟩ := h a List.mem_cons_self
    obtain ⟨r, hr⟩ := ih fun x hx => h x (List.mem_cons_of_mem _ hx)
    refine ⟨b :: r, ?_⟩
    rw [List.mapM_cons, hb, hr]
    rfl

theorem entryLines_some {d : Dumped F} (h : ∀ p ∈ pages d, Dumpable p) : ∃ lines, entryLines T d = .ok lines := by
  obtain ⟨own, h1⟩ := pageLines_some (T := T) (h _ List.mem_cons_self)
  obtain ⟨rest, h2⟩ : ∃ r, d.contained.mapM (messageLines T (d.message.name ++ " :: ".toList) false []) = .ok r :=
    mapM_some fun c hc => pageLines_some (T := T) (h _ (List.mem_cons_of_mem _ (List.mem_map_of_mem hc)))
  refine ⟨own ++ rest.flatten, ?_⟩
  have h1' : messageLines T [] d.j1939 (d.contained.map (·.name)) d.message = .ok own := h1
  unfold entryLines
  rw [h1', h2]
  rfl

theorem page_count {p : Page F} {l : List Line} (h : pageLines T p = .ok l) : l.count rule = 1 := by
  obtain ⟨head, body, h1, h2, rfl⟩ := messageLines_ok h
  rw [List.count_append, List.count_eq_zero_of_not_mem (rule_not_mem h1 h2), List.count_singleton_self]

theorem find_last {db : List (Dumped F)} {name : Chars} {d : Dumped F} (h : LastNamed db name d) :
    messageNamed db name = .ok d := by
  obtain ⟨before, after, rfl, hd, ha⟩ := h
  have : (before ++ d :: after).reverse.find? (fun d => decide (d.message.name = name)) = some d := by
    rw [List.reverse_append, List.reverse_cons, List.append_assoc, List.find?_append]
    have hn : after.reverse.find? (fun d => decide (d.message.name = name)) = none := by
      rw [List.find?_eq_none]
      intro x hx
      simpa using ha x (by simpa using hx)
    rw [hn, Option.none_or]
    show ([d] ++ before.reverse).find? _ = _
    rw [List.singleton_append, List.find?_cons_of_pos (by simpa using hd)]
  rw [messageNamed, this]

theorem dataLines_eq {a b : Data} {x y : List Line} (h : dataLines a ++ x = dataLines b ++ y) :
    (b.name, b.start, b.length) = (a.name, a.start, a.length) ∧ x = y := by
  unfold dataLines at h
  simp only [List.cons_append, List.nil_append, List.cons.injEq, true_and] at h
  obtain ⟨h1, h2, h3, h4⟩ := h
  rw [String.toList_injective (List.append_cancel_left h1), Listing.decimal_inj (List.append_cancel_left h2),
    Listing.decimal_inj (List.append_cancel_left h3)]
  exact ⟨rfl, h4⟩

theorem datas_eq {a b : List Data} {x y : List Line} (h : a.flatMap dataLines ++ [] :: rule :: x = b.flatMap dataLines ++ [] :: rule :: y) :
    b.map (fun d => (d.name, d.start, d.length)) = a.map (fun d => (d.name, d.start, d.length)) ∧ x = y := by
  induction a generalizing b with
  | nil =>
    cases b with
    | nil => exact ⟨rfl, (List.cons.inj (List.cons.inj h).2).2⟩
    | cons d b => exact absurd (List.cons.inj h).1 (by unfold line; simp)
  | cons c a ih =>
    cases b with
    | nil => exact absurd (List.cons.inj h).1 (by unfold line; simp)
    | cons d b =>
      rw [List.flatMap_cons, List.flatMap_cons, List.append_assoc, List.append_assoc] at h
      obtain ⟨h1, h2⟩ := dataLines_eq h
      obtain ⟨h3, h4⟩ := ih h2
      rw [List.map_cons, List.map_cons, h1, h3]
      exact ⟨rfl, h4⟩

theorem dids_eq {a b : List Did} (h : a.flatMap didLines = b.flatMap didLines) : List.Forall₂ SameDid a b := by
  induction a generalizing b with
  | nil =>
    cases b with
    | nil => exact .nil
    | cons d b => cases h
  | cons c a ih =>
    cases b with
    | nil => cases h
    | cons d b =>
      rw [List.flatMap_cons, List.flatMap_cons] at h
      simp only [didLines, List.cons_append, List.nil_append, List.append_assoc, List.cons.injEq, true_and] at h
      obtain ⟨h1, h2, h3⟩ := h
      obtain ⟨h4, h5⟩ := datas_eq h3
      exact .cons ⟨String.toList_injective (List.append_cancel_left h1).symm,
        (Listing.decimal_inj (List.append_cancel_right (List.append_cancel_left h2))).symm, h4⟩ (ih h5)

end DumpCommand

/-- C68: every database that can be loaded can be dumped. -/
theorem C68_dumps {db : List (Dumped F)} (h : ∀ d ∈ db, ∀ p ∈ pages d, Dumpable p) :
    ∃ lines, doDump T db none = .ok lines := by
  obtain ⟨r, hr⟩ := mapM_some (f := entryLines T) (l := db) fun d hd => entryLines_some (h d hd)
  exact ⟨title ++ r.flatten, by show (_ >>= _) = _; rw [hr]; rfl⟩

/-- C68: what is printed is one page for each message, and each message contained in it, and each page ends with a rule. -/
theorem C68_pages {db : List (Dumped F)} {lines : List Line} (h : doDump T db none = .ok lines) :
    lines.count rule = 1 + (db.flatMap pages).length := by
  obtain ⟨ls, h1, rfl⟩ := dumpMessages_ok h
  have ht : title.count rule = 1 := by decide +kernel
  rw [List.count_append, ht]
  congr 1
  clear h
  generalize db.flatMap pages = ps at h1
  induction h1 with
  | nil => rfl
  | cons a _ ih => rw [List.flatten_cons, List.count_append, page_count a, ih, List.length_cons, Nat.add_comm]

/-- C68: what is printed tells the messages: their names, identifiers, lengths, cycle times, senders and contained
messages, and the layout, signal tree and named values of each, in order. -/
theorem C68_tells (L : FloatLaws T) {db db' : List (Dumped F)} (fine : Fine db) (fine' : Fine db') {lines : List Line}
    (h : doDump T db none = .ok lines) (h' : doDump T db' none = .ok lines) :
    List.Forall₂ (SamePage T) (db.flatMap pages) (db'.flatMap pages) := by
  obtain ⟨a, h1, rfl⟩ := dumpMessages_ok h
  obtain ⟨b, h2, e⟩ := dumpMessages_ok h'
  have e' := pages_eq h1 h2 (List.append_cancel_left e)
  subst e'
  have f1 : ∀ p ∈ db.flatMap pages, FinePage p := fun p hp => by
    obtain ⟨d, hd, hp⟩ := List.mem_flatMap.1 hp
    exact fine d hd p hp
  have f2 : ∀ p ∈ db'.flatMap pages, FinePage p := fun p hp => by
    obtain ⟨d, hd, hp⟩ := List.mem_flatMap.1 hp
    exact fine' d hd p hp
  clear h h' e
  generalize db.flatMap pages = ps at h1 f1
  generalize db'.flatMap pages = qs at h2 f2
  induction h1 generalizing qs with
  | nil => cases h2; exact .nil
  | cons x _ ih =>
    cases h2 with
    | cons y h2 =>
      exact .cons (samePage L (f1 _ List.mem_cons_self) (f2 _ List.mem_cons_self) x y)
        (ih (fun p hp => f1 p (List.mem_cons_of_mem _ hp)) _ h2 (fun p hp => f2 p (List.mem_cons_of_mem _ hp)))

/-- C68: with the name of a message, the last message of that name is dumped, and no other one. -/
theorem C68_named {db : List (Dumped F)} {name : Chars} {d : Dumped F} (h : LastNamed db name d) :
    doDump T db (some name) = doDump T [d] none := by
  show (_ >>= _) = _
  rw [find_last h]
  rfl

/-- C68: a name that no message has is an error. -/
theorem C68_unknown {db : List (Dumped F)} {name : Chars} (h : ∀ d ∈ db, d.message.name ≠ name) :
    doDump T db (some name) = .error .keyError := by
  have : db.reverse.find? (fun d => decide (d.message.name = name)) = none := by
    rw [List.find?_eq_none]
    intro x hx
    simpa using h x (by simpa using hx)
  show (messageNamed db name >>= _) = _
  rw [messageNamed, this]
  rfl

/-- C68: the page of a message shows a picture of its signals (C44). -/
theorem C68_layout {d : Dumped F} (hd : ∀ p ∈ pages d, Dumpable p) (hc : d.contained = []) :
    ∃ lines layout count left row, doDump T [d] none = .ok lines ∧
      ShowsBits layout d.message.length (d.message.signals.map (·.core T)) count left row ∧
      ∀ l ∈ layout, l ≠ [] → "    ".toList ++ l ∈ lines := by
  have h := hd _ List.mem_cons_self
  obtain ⟨c, layout, count, left, row, h1, h2, h3⟩ := layout_some (T := T) h.names h.visible h.lengths
  obtain ⟨lines, hl⟩ := C68_dumps (T := T) (db := [d]) (by simpa using hd)
  refine ⟨lines, layout, count, left, row, hl, h3, ?_⟩
  intro l hm hne
  obtain ⟨ls, g1, rfl⟩ := dumpMessages_ok hl
  refine List.mem_append_right _ ?_
  have hp : ([d].flatMap pages) = pages d := by simp
  rw [hp, pages, hc] at g1
  cases g1 with
  | cons g1 g2 =>
    cases g2
    obtain ⟨head, body, -, b2, rfl⟩ := messageLines_ok g1
    obtain ⟨c', layout', tree, b3, b4, -, rfl⟩ := pictureLines_ok b2
    have : c' = c := Except.ok.inj (b3.symm.trans h1)
    subst this
    have : layout' = layout := Except.ok.inj (b4.symm.trans h2)
    subst this
    obtain ⟨i, hi, rfl⟩ := List.mem_iff_getElem.1 hm
    have e1 : layout'.getD i [] = layout'[i] := by rw [List.getD_eq_getElem _ _ hi]
    have e2 : rstrip layout'[i] = layout'[i] := by rw [← e1, layout_stripped b4]
    have hm' : layout'[i] ∈ splitJoined layout' := by
      rw [← e1, ← splitJoined_getD]
      by_cases hi' : i < (splitJoined layout').length
      · rw [List.getD_eq_getElem _ _ hi']
        exact List.getElem_mem _
      · have := splitJoined_getD layout' i
        rw [List.getD_eq_default _ _ (by omega), e1] at this
        exact absurd this.symm hne
    have hsh : "    ".toList ++ layout'[i] = shown layout'[i] := by rw [shown_eq, e2, if_neg hne]
    rw [hsh]
    simp only [List.flatten_cons, List.flatten_nil, List.mem_append, List.mem_cons]
    exact .inl (.inl (.inr (.inr (.inl (.inr (.inl (List.mem_map_of_mem hm')))))))

/-- C68: the page of a J1939 message shows the priority, parameter group number, source and destination in its identifier. -/
theorem C68_j1939 {d : Dumped F} (hj : d.j1939 = true) {f : FrameId} (hf : FrameId.InRange f)
    (hid : d.message.frameId = FrameId.number f) {lines : List Line} (h : doDump T [d] none = .ok lines) :
    line "      Priority:       " (decimal f.priority) ∈ lines ∧
    line "      PGN:            " (hexPadded 5 (Pgn.number (groupOf f))) ∈ lines ∧
    line "      Source:         " (hexPadded 2 f.sourceAddress) ∈ lines ∧
    line "      Destination:    " (if f.pduFormat < 240 then hexPadded 2 f.pduSpecific else "All".toList) ∈ lines := by
  obtain ⟨ls, g1, rfl⟩ := dumpMessages_ok h
  have hp : ([d].flatMap pages) = pages d := by simp
  rw [hp, pages] at g1
  cases g1 with
  | cons g1 g2 =>
    obtain ⟨head, body, b1, -, rfl⟩ := messageLines_ok g1
    obtain ⟨protocol, senders, b3, -, rfl⟩ := headLines_ok b1
    dsimp only at b3
    rw [hj, if_pos rfl, hid, j1939_some hf] at b3
    cases b3
    simp only [List.mem_append, List.flatten_cons, List.mem_cons]
    simp

/-- C68: dumping adds the sender `-` to messages without senders, which does not change what is dumped afterwards. -/
theorem C68_again (db : List (Dumped F)) (name : Option Chars) :
    doDump T (db.map afterwards) name = doDump T db name := by
  have nn : ∀ l, noted (noted l) = noted l := by
    intro l
    unfold noted
    split
    · rfl
    · rfl
  have one : ∀ (x : Chars) (j : Bool) (c : List Chars) (m : LMessage F),
      messageLines T x j c { m with senders := noted m.senders } = messageLines T x j c m := by
    intro x j c m
    unfold DumpCommand.messageLines DumpCommand.headLines
    simp only [nn]
    rfl
  have entry : ∀ d : Dumped F, entryLines T (afterwards d) = entryLines T d := by
    intro d
    unfold entryLines afterwards
    rw [one, List.mapM_map]
    have : (DumpCommand.messageLines T (d.message.name ++ " :: ".toList) false [] ∘ fun c : LMessage F =>
        { c with senders := noted c.senders }) = DumpCommand.messageLines T (d.message.name ++ " :: ".toList) false [] :=
      funext fun c => one _ _ _ c
    dsimp only
    rw [this, List.map_map]
    rfl
  have all : ∀ l : List (Dumped F), DumpCommand.dumpMessages T (l.map afterwards) = DumpCommand.dumpMessages T l := by
    intro l
    unfold DumpCommand.dumpMessages
    rw [List.mapM_map]
    simp only [Function.comp_def, entry]
  cases name with
  | none => exact all db
  | some n =>
    have : messageNamed (db.map afterwards) n = (messageNamed db n).map afterwards := by
      unfold messageNamed
      rw [← List.map_reverse, List.find?_map]
      have : ((fun d : Dumped F => decide (d.message.name = n)) ∘ afterwards) = fun d => decide (d.message.name = n) := rfl
      rw [this]
      cases db.reverse.find? fun d => decide (d.message.name = n) <;> rfl
    show (messageNamed (db.map afterwards) n >>= _) = (messageNamed db n >>= _)
    rw [this]
    cases messageNamed db n with
    | error e => rfl
    | ok d => exact all [d]

/-- C68: what is printed about a diagnostics database tells its DIDs: name, length, and the name and place of each data. -/
theorem C68_dids {dids dids' : List Did} (h : dumpDids dids = dumpDids dids') : List.Forall₂ SameDid dids dids' :=
  dids_eq (List.append_cancel_left h)

/-! ### Examples -/

namespace DumpCommandExample

def speed : LSignal Int := { name := "Speed".toList, start := 0, length := 12 }
def state : LSignal Int :=
  { name := "State".toList, start := 12, length := 2,
    choices := some [(1, { name := "On".toList }), (0, { name := "Off".toList })] }

/-- A J1939 message with two senders, and a container with one message in it. -/
def db : List (Dumped Int) :=
  [{ message := { frameId := 0x18fef100, name := "Ccvs".toList, length := 2, signals := [speed, state],
                  senders := ["Engine".toList, "Brake".toList], cycleTime := some (.int 100), isExtendedFrame := true }
     j1939 := true },
   { message := { frameId := 0x123, name := "Box".toList, length := 8 }
     contained := [{ frameId := 0, name := "Part".toList, length := 1, headerId := some 0xa1 }] }]

/-- What is needed to tell the messages, and to print them. -/
example : Fine db := by
  intro d hd p hp
  simp only [db, List.mem_cons, List.not_mem_nil, or_false] at hd
  rcases hd with rfl | rfl
  · simp only [pages, List.map_nil, List.mem_singleton] at hp
    subst hp
    exact ⟨by decide, (by intro n h; cases h), by decide +kernel, (by intro h e; cases e), by decide +kernel⟩
  · simp only [pages, List.map_cons, List.map_nil, List.mem_cons, List.not_mem_nil, or_false] at hp
    rcases hp with rfl | rfl
    · exact ⟨by decide, (by intro n h; cases h), (by intro t h; cases h), (by intro h e; cases e), (by intro s h; cases h)⟩
    · exact ⟨by decide, (by intro n h; cases h; decide), (by intro t h; cases h), (by intro h e; cases e; decide),
        (by intro s h; cases h)⟩

example : ∀ d ∈ db, ∀ p ∈ pages d, Dumpable p := by
  intro d hd p hp
  simp only [db, List.mem_cons, List.not_mem_nil, or_false] at hd
  rcases hd with rfl | rfl
  · simp only [pages, List.map_nil, List.mem_singleton] at hp
    subst hp
    exact ⟨by decide +kernel, by decide +kernel, by decide +kernel, by decide +kernel⟩
  · simp only [pages, List.map_cons, List.map_nil, List.mem_cons, List.not_mem_nil, or_false] at hp
    rcases hp with rfl | rfl
    · exact ⟨by decide, (by intro s h; cases h), (by intro s h; cases h), by intro h; cases h⟩
    · exact ⟨by decide, (by intro s h; cases h), (by intro s h; cases h), by intro h; cases h⟩

/-- The parameter group number 0xfef1 of the identifier 0x18fef100. -/
example : FrameId.InRange ⟨6, 0, 0, 0xfe, 0xf1, 0⟩ ∧ FrameId.number ⟨6, 0, 0, 0xfe, 0xf1, 0⟩ = 0x18fef100 ∧
    hexPadded 5 (Pgn.number (groupOf ⟨6, 0, 0, 0xfe, 0xf1, 0⟩)) = "0x0fef1".toList := by
  refine ⟨⟨?_, ?_, ?_, ?_, ?_, ?_⟩, ?_, ?_⟩ <;> decide +kernel

/-- The last message with the name. -/
example : LastNamed db "Box".toList db[1] := ⟨[db[0]], [], rfl, rfl, (by intro x h; cases h)⟩

/-- What is said about the messages themselves, with the sender that is added. -/
example : (DumpCommand.dumpMessages halves (db.drop 1)).toOption.map (·.take 10) = some
    ["================================= Messages =================================".toList, [], rule, [],
     "  Name:           Box".toList, "  Id:             0x123".toList, "  Maximum length: 8 bytes".toList,
     "  Cycle time:     - ms".toList, "  Senders:        -".toList, "  Possibly contained children:".toList] := by
  decide +kernel

/-- A DID with two datas. -/
example : dumpDids [{ name := "Vin", length := 17, datas := [{ name := "A", start := 0, length := 8 },
      { name := "B", start := 8, length := 128 }] }] =
    ["=================================== Dids ===================================".toList, [], rule, [],
     "  Name:       Vin".toList, "  Length:     17 bytes".toList, "  Layout:".toList, [],
     "    Name:      A".toList, "    Start bit: 0".toList, "    Length:    8".toList, [],
     "    Name:      B".toList, "    Start bit: 8".toList, "    Length:    128".toList, [], [], rule] := by
  decide +kernel

end DumpCommandExample

end Cantools
