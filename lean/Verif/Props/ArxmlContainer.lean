import Verif.Lemmas.ArxmlContainer
import Verif.Props.ArxmlFile
import Verif.Props.Container

/-
C61: the containers of ARXML files.
-/

namespace Cantools
open Kcd (Xml)
open ArxmlRef (Pos Refs at? createDicts)
open ArxmlScale (FloatRead)
open ArxmlFile
open Spec Spec.SystemFile

section
variable {F : FloatRead} {root : Xml} {trigs : List (String × Pos)} {ds : List FrameContent} {fuel : Nat}
  {strict : Bool} {ms : List Loader.Loaded} {big : Bool}

/-- What is known about the messages of a database. -/
theorem database_made {sort : SortSignals} (h : Describes F root trigs ds) (hd : ∀ d ∈ ds, d.depth ≤ fuel) (ho : HeadersSay root big)
    (hl : loadDatabase F root fuel strict sort = .ok ms) :
    List.Forall₂ (fun d l => ∃ l' o, l = Loader.setOrder big l' ∧ FramePdus d o ∧ Made strict sort d o l') ds ms := by
  rw [database_eq h ho] at hl
  obtain ⟨ms', hl', e⟩ := bind_ok_iff.1 hl
  obtain rfl := Except.ok.inj e
  obtain ⟨os, h1, h2⟩ := load_eq h hd strict sort
  rw [h2] at hl'
  obtain ⟨fs, h3, h4⟩ := bind_ok_iff.1 hl'
  refine List.forall₂_map_right_iff.2 ((makes_ok h1 h3 h4).imp ?_)
  rintro d l ⟨o, ho, hm⟩
  exact ⟨l, o, rfl, ho, hm⟩

/-- C61: the messages of a document with containers are the frames that it describes, and the headers in the containers
have the byte order that its systems specify. -/
theorem C61_messages_partial (h : Describes F root trigs ds) (hd : ∀ d ∈ ds, d.depth ≤ fuel) (ho : HeadersSay root big)
    (hl : loadDatabase F root fuel strict .default = .ok ms) :
    List.Forall₂ MessageIs ds ms ∧ ∀ l ∈ ms, l.contained ≠ [] → l.container.headerBig = big := by
  rw [database_eq h ho] at hl
  obtain ⟨ms', hl', e⟩ := bind_ok_iff.1 hl
  obtain rfl := Except.ok.inj e
  refine ⟨List.forall₂_map_right_iff.2 ((C54_messages_partial h hd hl').imp fun d l hm => ?_), fun l hm hc => ?_⟩
  · unfold Loader.setOrder
    split
    · exact hm
    · exact ⟨hm.bus, hm.isFd, hm.frameId, hm.isExtended, hm.name, hm.length, hm.pattern, hm.empty, hm.signals, hm.secoc, hm.e2e,
        hm.contained⟩
  · obtain ⟨l', -, rfl⟩ := List.mem_map.1 hm
    rw [(setOrder_contained big l').1] at hc
    unfold Loader.setOrder
    rw [if_neg (by simpa using hc)]
    rfl

/-- C61: loading the file fails only as for the messages (`C54_errors_partial`). -/
theorem C61_errors {e : Err} (h : Describes F root trigs ds) (ho : HeadersSay root big)
    (hl : loadDatabase F root fuel strict .default = .error e) : load F root fuel strict .default = .error e := by
  rw [database_eq h ho] at hl
  rcases bind_error hl with hl | ⟨_, -, hl⟩
  · exact hl
  · cases hl

/-- C61: a contained message is decoded according to the tree of PDUs that the document describes (see C50).

Missing: what is missing for C50. -/
theorem C61_part_partial {fo : FloatOps} (h : Describes F root trigs ds) (hd : ∀ d ∈ ds, d.depth ≤ fuel) (ho : HeadersSay root big)
    (hl : loadDatabase F root fuel strict .default = .ok ms) {k i : Nat} {d : FrameContent} {l : Loader.Loaded}
    (hk : ds[k]? = some d) (hm : ms[k]? = some l) {p : PartContent} (hp : d.contained[i]? = some p) (htidy : p.pdu.Tidy)
    {x : Contained} (hx : l.container.contained[i]? = some x) (hnd : (x.msg.signals.map (·.name)).Nodup)
    (hnames : ∀ q ∈ x.msg.signals, q.isMultiplexer = true → ((table q).map (·.2.toStr)).Nodup)
    {data : Bytes} (hlen : data.length = p.length)
    {chosen : Signal → Int → Bool} (hch : ∀ field code, chosen field code = true ↔ ReadsAs field data code) :
    x.headerId = some p.headerId ∧ x.msg.name = p.name ∧ ∃ pdu, PduIs p.pdu pdu ∧
      ((∃ r, decode fo x.msg data true true false false = .ok r ∧ (r.map (·.1)).Nodup ∧
        ∀ n v, dictGet? r n = some v ↔ ∃ s ∈ frameSignalsIn d.name p.name chosen pdu p.trailer, s.name = n ∧
          ∃ raw, RawIn fo s data raw ∧ v = shown s true true raw) ∨
      (decode fo x.msg data true true false false = .error .decodeError ∧
        ∃ q ∈ frameSignalsIn d.name p.name chosen pdu p.trailer, q.isMultiplexer = true ∧
          ∃ code, ReadsAs (selectorField q.start q.length q.byteOrder) data code ∧
            code ∉ (table q).map (·.1))) := by
  obtain ⟨l', o, rfl, -, hmade⟩ := forall₂_at (database_made h hd ho hl) hk hm
  have hx : (l'.contained.map fun p => ({ headerId := some p.headerId, msg := p.message } : Contained))[i]? = some x := by
    rw [← (setOrder_contained big l').1]
    exact hx
  rw [List.getElem?_map] at hx
  obtain ⟨q, hq, rfl⟩ := Option.map_eq_some_iff.1 hx
  obtain ⟨u, hu, hpm⟩ := forall₂_at hmade.contained hp hq
  obtain ⟨sigs, hs, hc⟩ := hpm.created
  obtain ⟨-, -, c', -, -, e⟩ := create_ok_iff.1 hc
  have hperm : q.message.signals.Perm sigs := by rw [e]; exact default_perm sigs
  exact ⟨congrArg some hpm.headerId, by rw [e], u, hu,
    C50_frame_partial hs (clean_of_tidy p.pdu hu htidy).1 ((hperm.map _).nodup_iff.1 hnd)
      (fun q hq => hnames q (hperm.mem_iff.2 hq)) hc hlen hch⟩

/-- The contained messages can be told apart if those of the document can. -/
theorem unambiguous_of {d : FrameContent} {l : Loader.Loaded}
    (h : List.Forall₂ (fun (p : PartContent) (q : Loader.Part) => q.headerId = p.headerId ∧ q.message.name = p.name) d.contained l.contained)
    (hids : (d.contained.map (·.headerId)).Nodup) (hnames : (d.contained.map (·.name)).Nodup) : Unambiguous l.container := by
  have e1 : l.contained.map (·.headerId) = d.contained.map (·.headerId) := by
    generalize d.contained = a, l.contained = b at h
    induction h with
    | nil => rfl
    | cons h _ ih => rw [List.map_cons, List.map_cons, ih, h.1]
  have e2 : l.contained.map (·.message.name) = d.contained.map (·.name) := by
    generalize d.contained = a, l.contained = b at h
    induction h with
    | nil => rfl
    | cons h _ ih => rw [List.map_cons, List.map_cons, ih, h.2]
  rw [← e1] at hids
  rw [← e2] at hnames
  refine ⟨List.pairwise_map.2 ?_, List.pairwise_map.2 ?_⟩
  · exact (List.pairwise_map.1 hids).imp fun h e => h (Option.some.inj e)
  · exact List.pairwise_map.1 hnames

/-- The entries of a container, with the messages they refer to. -/
theorem consists_of {c : Container} {rest : Bytes} (hrest : rest.length < 4) : ∀ (es : List (Nat × Bytes)),
    (∀ e ∈ es, e.1 < 2 ^ 24 ∧ e.2.length < 256) →
    ∃ rs, Consists c false (entriesBytes true es ++ rest) rs ∧
      List.Forall₂ (fun (e : Nat × Bytes) (r : Ref × Bytes) => IsRef c e.1 r.1 ∧ r.2 = e.2) es rs
  | [], _ => ⟨[], .done hrest, .nil⟩
  | (id, b) :: es, h => by
    obtain ⟨rs, h1, h2⟩ := consists_of hrest es fun e he => h e (List.mem_cons_of_mem _ he)
    obtain ⟨a1, a2⟩ := h (id, b) List.mem_cons_self
    have hr : ∃ r, IsRef c id r := by
      by_cases hc : ∃ m ∈ c.contained, m.headerId = some id
      · obtain ⟨m, hm⟩ := hc
        exact ⟨.inl m, hm⟩
      · exact ⟨.inr id, rfl, fun m hm e => hc ⟨m, hm, e⟩⟩
    obtain ⟨r, hr⟩ := hr
    refine ⟨(r, b) :: rs, ?_, .cons ⟨hr, rfl⟩ h2⟩
    have := Consists.entry (truncated := false) a1 a2 hr h1
    simpa [entriesBytes] using this

/-- A message does not accept other numbers of bytes. -/
theorem decode_wrong_length {fo : FloatOps} {m : Message} {data : Bytes} (h : data.length ≠ m.length) (dc sc : Bool) :
    decode fo m data dc sc false false = .error .decodeError := by
  obtain ⟨-, h1, h2⟩ := adjustData_spec data m.length false false
  refine decodeNode_wrong_size ?_
  rcases Nat.lt_or_gt_of_ne h with h | h
  · exact h1 h
  · exact h2 h

/-- C61: what is decoded from a container frame.  Its bytes are a sequence of entries, each a header with a 24 bit id (most
significant byte first), the number of bytes and the bytes, and less than a header after that.  For each entry
the contained message with this id is shown with the values of its signals, or with the bytes if their number is wrong;
for other ids the bytes are shown.

Missing: contained messages with alternatives (see `C61_part_partial`), PDUs that do not begin at the beginning of the frame,
little endian headers (`C61_little_endian_fails`). -/
theorem C61_decode_partial {fo : FloatOps} (h : Describes F root trigs ds) (hd : ∀ d ∈ ds, d.depth ≤ fuel) (ho : HeadersSay root big)
    (hl : loadDatabase F root fuel strict .default = .ok ms) {k : Nat} {trig : String × Pos} {d : FrameContent} {l : Loader.Loaded}
    (_ht : trigs[k]? = some trig) (hk : ds[k]? = some d) (hm : ms[k]? = some l) (_hc : d.contained ≠ []) (hbig : big = true)
    (hids : (d.contained.map (·.headerId)).Nodup) (hnames : (d.contained.map (·.name)).Nodup)
    (hplain : ∀ p ∈ d.contained, ∃ ss, p.pdu.signals? = some ss ∧
      (ss.map (·.name) ++ (trailerIn p.name p.trailer).map (·.name)).Nodup)
    {o : Nat} (_ho : PduAtByte F root trig.2 o) (hz : o = 0) {data : Bytes} (hlen : data.length ≤ d.length)
    {es : List (Nat × Bytes)} (hes : ∀ e ∈ es, e.1 < 2 ^ 24 ∧ e.2.length < 256) {rest : Bytes} (hrest : rest.length < 4)
    (hdata : data.drop o = entriesBytes big es ++ rest) :
    ∃ r, decodeContainer fo l.container data true true false false = .ok r ∧
      List.Forall₂ (EntryShows fo d.contained) es r := by
  subst hz
  subst hbig
  rw [List.drop_zero] at hdata
  subst hdata
  obtain ⟨l', o, rfl, -, hmade⟩ := forall₂_at (database_made h hd ho hl) hk hm
  obtain ⟨sigs, -, hcr⟩ := hmade.created
  obtain ⟨-, -, c', -, -, e⟩ := create_ok_iff.1 hcr
  obtain ⟨e1, e2⟩ := setOrder_contained true l'
  generalize Loader.setOrder true l' = l at e1 e2
  have hparts := hmade.contained
  rw [← e1] at hparts
  have hnames' : ∀ {p : PartContent} {u : Arxml.Pdu} {q : Loader.Part}, PartMade .default d.name p u q → q.message.name = p.name ∧ q.message.length = p.length := by
    intro p u q hq
    obtain ⟨sigs, -, hc⟩ := hq.created
    obtain ⟨-, -, c', -, -, e⟩ := create_ok_iff.1 hc
    exact ⟨by rw [e], by rw [e]⟩
  have hu : Unambiguous l.container := unambiguous_of (hparts.imp fun p q ⟨u, _, hq⟩ => ⟨hq.headerId, (hnames' hq).1⟩) hids hnames
  obtain ⟨rs, hrs, hf⟩ := consists_of (c := l.container) hrest es hes
  have hunpack : unpackContainer l.container (entriesBytes true es ++ rest) false = .ok rs := by
    refine (C18_unpack_iff _ hu _ _ _).2 ⟨?_, hrs⟩
    show _ ≤ l.message.length
    rw [e2, e]
    exact hlen
  have hentry : ∀ e r, IsRef l.container e.1 r.1 ∧ r.2 = e.2 →
      ∃ x, decodeEntry fo true true false false r = .ok x ∧ EntryShows fo d.contained e x := by
    rintro ⟨id, b⟩ ⟨r, b'⟩ ⟨hr, rfl⟩
    cases r with
    | inr n =>
      obtain ⟨rfl, hr⟩ := hr
      refine ⟨_, rfl, .unknown fun p hp e => ?_⟩
      obtain ⟨i, hi⟩ := List.mem_iff_getElem?.1 hp
      have hlen' := hparts.length_eq
      have hi' : i < l.contained.length := hlen' ▸ (List.getElem?_eq_some_iff.1 hi).1
      have hq := List.getElem?_eq_getElem hi'
      obtain ⟨u, -, hpm⟩ := forall₂_at hparts hi hq
      exact hr _ (List.mem_map_of_mem (List.getElem_mem hi')) (congrArg some (hpm.headerId.trans e))
    | inl m =>
      obtain ⟨hmem, hid⟩ := hr
      obtain ⟨q, hq, rfl⟩ := List.mem_map.1 hmem
      obtain ⟨p, hp, u, hpdu, hpm⟩ := forall₂_mem_right hparts hq
      obtain ⟨n1, n2⟩ := hnames' hpm
      have hid : q.headerId = id := Option.some.inj hid
      obtain rfl : p.headerId = id := hpm.headerId ▸ hid
      unfold decodeEntry
      dsimp only
      by_cases hb : b'.length = p.length
      · obtain ⟨ss, hss, hnd⟩ := hplain p hp
        obtain ⟨sigs, hs, hc⟩ := hpm.created
        obtain ⟨-, r, h1, h2, h3, h4, h5⟩ := message_shows (fo := fo) hpdu hs hc hss hnd hb
        rw [h1]
        exact ⟨_, rfl, .part hp ⟨congrArg some hid, n1⟩ hb hss ⟨h2, h3, h4, h5⟩⟩
      · rw [decode_wrong_length (n2.symm ▸ hb)]
        exact ⟨_, rfl, .length hp ⟨congrArg some hid, n1⟩ hb⟩
  have hall : ∃ xs, rs.mapM (decodeEntry fo true true false false) = .ok xs ∧ List.Forall₂ (EntryShows fo d.contained) es xs := by
    clear hrs hunpack hlen hes
    induction hf with
    | nil => exact ⟨[], rfl, .nil⟩
    | cons h1 _ ih =>
      obtain ⟨xs, k1, k2⟩ := ih
      obtain ⟨x, k3, k4⟩ := hentry _ _ h1
      exact ⟨x :: xs, ArxmlRef.mapM_forall₂.2 (.cons k3 (ArxmlRef.mapM_forall₂.1 k1)), .cons k4 k2⟩
  obtain ⟨xs, k1, k2⟩ := hall
  exact ⟨xs, (Cdd.bind_of_ok hunpack).trans k1, k2⟩

/-- C61: with big endian headers, what was encoded for a container of the document is unpacked to the same
entries, if it is not longer than the frame. -/
theorem C61_round_trip_partial {fo : FloatOps} (h : Describes F root trigs ds) (hd : ∀ d ∈ ds, d.depth ≤ fuel) (ho : HeadersSay root big)
    (hbig : big = true) (hl : loadDatabase F root fuel strict .default = .ok ms) {k : Nat} {d : FrameContent} {l : Loader.Loaded}
    (hk : ds[k]? = some d) (hm : ms[k]? = some l) (hc : d.contained ≠ [])
    (hids : (d.contained.map (·.headerId)).Nodup) (hnames : (d.contained.map (·.name)).Nodup)
    {scaling padding check : Bool} {input : List (Header × Payload)} {data : Bytes}
    (he : encodeContainer fo l.container input scaling padding check = .ok data) (hlen : data.length ≤ d.length) :
    ∃ es, unpackContainer l.container data false = .ok es ∧
      List.Forall₂ (fun i e => Refers l.container i.1 e.1 ∧ Carried fo scaling padding e.1 i.2 e.2) input es := by
  obtain ⟨hall, hb⟩ := C61_messages_partial h hd ho hl
  have hmi := forall₂_at hall hk hm
  have hparts := hmi.contained
  have hne : l.contained ≠ [] := by
    intro e
    rw [e] at hparts
    cases hcd : d.contained with
    | nil => exact hc hcd
    | cons => rw [hcd] at hparts; cases hparts
  refine C17_container_round_trip_partial fo _ (unambiguous_of (hparts.imp fun p q hq => ⟨hq.headerId, hq.name⟩) hids hnames)
    ((hb l (List.mem_of_getElem? hm) hne).trans hbig) he ?_ false
  show _ ≤ l.message.length
  rw [hmi.length]
  exact hlen

end

end Cantools
