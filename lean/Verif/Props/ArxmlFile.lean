import Verif.Lemmas.ArxmlFile
import Verif.Props.Arxml

/-
C54: the frames of ARXML files.
-/

namespace Cantools
open Kcd (Xml)
open ArxmlRef (Pos Refs at? createDicts)
open ArxmlScale (FloatRead)
open ArxmlFile
open Spec Spec.SystemFile

section
variable {F : FloatRead} {root : Xml} {trigs : List (String × Pos)} {ds : List FrameContent} {fuel : Nat}
  {strict : Bool} {ms : List Loader.Loaded}

/-- C54: a signal has the name, the place, the type, the scales, the unit and the special values that
the document describes.

Missing: the encodings `1C` and `SM` (`C54_encoding_fails`), and the names of system signals
(`C54_system_name_unused`). -/
theorem C54_signal_partial {r : Refs} (hreg : Regular root) (hr : createDicts root = .ok r) (hns : NoStray root)
    {m i : Pos} {sys : Option Pos} {d : SignalContent} (h : SignalSays F root m i sys d) :
    ∃ s, (Loader.mk root r F).loadSignal m =
        .ok (some { signal := s, unit := d.unit, rawInitial := d.initial.map fun v : Int => (v : Rat)
                    rawInvalid := d.invalid.map fun v : Int => (v : Rat) }) ∧
      SignalIs d s :=
  loadSignal_ok hreg hr hns h

/-- C54: a signal with a base type that has no encoding is not loaded. -/
theorem C54_encoding_needed {r : Refs} (hreg : Regular root) (hr : createDicts root = .ok r) (hns : NoStray root)
    {m i b : Pos} (hi : At root m [ref "I-SIGNAL"] (some i)) (hb : At root i baseType (some b))
    (he : At root b [ref "BASE-TYPE-ENCODING"] none) (info : Loader.SignalInfo) :
    (Loader.mk root r F).loadSignal m ≠ .ok (some info) := by
  intro h
  unfold Loader.loadSignal at h
  rw [Cdd.bind_of_ok (unique_ok hreg hr hns (by decide +kernel) hi)] at h
  dsimp only at h
  obtain ⟨sys, -, h⟩ := bind_ok_iff.1 h
  split at h
  · cases h
  · obtain ⟨_, -, h⟩ := bind_ok_iff.1 h
    obtain ⟨_, -, h⟩ := bind_ok_iff.1 h
    obtain ⟨_, -, h⟩ := bind_ok_iff.1 h
    obtain ⟨_, -, h⟩ := bind_ok_iff.1 h
    obtain ⟨_, h', -⟩ := bind_ok_iff.1 h
    rw [type_error hreg hr hns hb he] at h'
    cases h'

/-- C54: the messages of a document are the frames it describes: one for each frame triggering, in
the order of the document, with its bus, identifier, name, length, signals, protection and contained messages. -/
theorem C54_messages_partial (h : Describes F root trigs ds) (hd : ∀ d ∈ ds, d.depth ≤ fuel)
    (hl : load F root fuel strict .default = .ok ms) : List.Forall₂ MessageIs ds ms := by
  obtain ⟨os, h1, h2⟩ := load_eq h hd strict .default
  rw [h2] at hl
  obtain ⟨fs, h3, h4⟩ := bind_ok_iff.1 hl
  refine (makes_ok h1 h3 h4).imp ?_
  rintro d l ⟨o, ⟨ho, -⟩, hm⟩
  obtain ⟨sigs, hs, hc⟩ := hm.created
  obtain ⟨-, -, c, -, -, e⟩ := create_ok_iff.1 hc
  have hperm := default_perm sigs
  refine ⟨hm.bus, hm.isFd, by rw [e], by rw [e], by rw [e], by rw [e], ?_, fun hn => ?_, fun c n hp ht => ?_, hm.secoc, hm.e2e,
    hm.contained.imp fun d' l ⟨u, hu, hm⟩ => part_is hu hm⟩
  · rw [e]
    have := hm.pattern
    dsimp only
    rw [UInt8.toNat_ofNat_of_lt' (by show _ < 256; omega)]
    omega
  · rw [hn] at ho
    generalize o.1 = o' at ho hs
    cases ho
    obtain rfl : sigs = [] := (Except.ok.inj hs).symm
    rw [e]
    exact List.perm_nil.1 hperm
  · rw [hp] at ho
    generalize o.1 = o' at ho hs
    cases ho with
    | some hpdu =>
      exact ⟨_, hpdu, e ▸ made_signals hpdu ht hs⟩

/-- C54: loading fails only if one of the frames cannot be a message: its multiplexed PDUs are
contradictory (C50), its pattern for unused bits is not a byte, or the message is rejected; the same for a
contained message. -/
theorem C54_errors_partial {e : Err} (h : Describes F root trigs ds) (hd : ∀ d ∈ ds, d.depth ≤ fuel)
    (hl : load F root fuel strict .default = .error e) :
    ∃ d ∈ ds, (∃ c n pdu, d.pdu = some (c, n) ∧ PduIs c pdu ∧ Arxml.loadFrameSignals d.name d.name pdu d.trailer = .error e) ∨
      (e = .valueError ∧ ¬ (0 ≤ d.patternNumber ∧ d.patternNumber < 256)) ∨
      (∃ sigs, (d.pdu = none ∧ sigs = [] ∨ ∃ c n pdu, d.pdu = some (c, n) ∧ PduIs c pdu ∧
          Arxml.loadFrameSignals d.name d.name pdu d.trailer = .ok sigs) ∧
        Message.create d.frameId d.name d.length sigs (UInt8.ofNat d.patternNumber.toNat) d.isExtended strict .default =
          .error e) ∨
      ∃ p ∈ d.contained, PartFails d.name p e := by
  obtain ⟨os, h1, h2⟩ := load_eq h hd strict .default
  rw [h2] at hl
  exact load_error h1 hl

/-- C54: the value the user sees for a signal, given the number in its bits. -/
theorem C54_value {fo : FloatOps} {d : SignalContent} {s : Signal} (h : SignalIs d s) {data : Bytes} {raw : Rat}
    (hraw : RawIn fo s data raw) : Shows d raw (shown s true true raw) :=
  shows_of_is h hraw

/-- C54: a frame is decoded according to the tree of PDUs that the document describes (see C50), which
begins at byte `o` of the frame.

Missing: PDUs that do not begin at the beginning of the frame (`C54_offset_ignored`), and what is
missing for C50. -/
theorem C54_decode_partial {fo : FloatOps} (h : Describes F root trigs ds) (hd : ∀ d ∈ ds, d.depth ≤ fuel)
    (hl : load F root fuel true .default = .ok ms) {k : Nat} {trig : String × Pos} {d : FrameContent} {l : Loader.Loaded}
    (_ht : trigs[k]? = some trig) (hk : ds[k]? = some d) (hm : ms[k]? = some l) {c : PduContent} {n : Int}
    (hp : d.pdu = some (c, n)) (_hc : d.contained = []) (htidy : c.Tidy) (hnd : (l.message.signals.map (·.name)).Nodup)
    (hnames : ∀ q ∈ l.message.signals, q.isMultiplexer = true → ((table q).map (·.2.toStr)).Nodup)
    {o : Nat} (_ho : PduAtByte F root trig.2 o) (hz : o = 0) {data : Bytes} (hlen : data.length = d.length)
    {chosen : Signal → Int → Bool} (hch : ∀ field code, chosen field code = true ↔ ReadsAs field (data.drop o) code) :
    ∃ pdu, PduIs c pdu ∧
      ((∃ r, decode fo l.message data true true false false = .ok r ∧ (r.map (·.1)).Nodup ∧
        ∀ n v, dictGet? r n = some v ↔ ∃ s ∈ frameSignalsIn d.name d.name chosen pdu d.trailer, s.name = n ∧
          ∃ raw, RawIn fo s (data.drop o) raw ∧ v = shown s true true raw) ∨
      (decode fo l.message data true true false false = .error .decodeError ∧
        ∃ q ∈ frameSignalsIn d.name d.name chosen pdu d.trailer, q.isMultiplexer = true ∧
          ∃ code, ReadsAs (selectorField q.start q.length q.byteOrder) (data.drop o) code ∧
            code ∉ (table q).map (·.1))) := by
  subst hz
  rw [List.drop_zero] at *
  obtain ⟨os, h1, h2⟩ := load_eq h hd true .default
  rw [h2] at hl
  obtain ⟨fs, h3, h4⟩ := bind_ok_iff.1 hl
  obtain ⟨o, ⟨ho, -⟩, hmade⟩ := forall₂_at (makes_ok h1 h3 h4) hk hm
  obtain ⟨sigs, hs, hc⟩ := hmade.created
  obtain ⟨-, -, c', -, -, e⟩ := create_ok_iff.1 hc
  have hperm : l.message.signals.Perm sigs := by rw [e]; exact default_perm sigs
  rw [hp] at ho
  generalize o.1 = o' at ho hs
  cases ho with
  | some hpdu =>
    exact ⟨_, hpdu, C50_frame_partial hs (clean_of_tidy c hpdu htidy).1 ((hperm.map _).nodup_iff.1 hnd)
      (fun q hq => hnames q (hperm.mem_iff.2 hq)) hc hlen hch⟩

/-- What is decoded from a message without alternatives. -/
theorem message_shows {fo : FloatOps} {frame name nm : String} {c : PduContent} {u : Arxml.Pdu} {t : Option Arxml.Trailer}
    {ss : List SignalContent} {sigs : List Signal} {fid : Int} {len : Nat} {pat : UInt8} {ext : Bool} {m : Message}
    (hu : PduIs c u) (hs : Arxml.loadFrameSignals frame name u t = .ok sigs)
    (hc : Message.create fid nm len sigs pat ext true .default = .ok m) (hss : c.signals? = some ss)
    (hnd : (ss.map (·.name) ++ (trailerIn name t).map (·.name)).Nodup) {data : Bytes} (hlen : data.length = len) :
    (sigs.map (·.name)).Nodup ∧
    ∃ r, decode fo m data true true false false = .ok r ∧ (r.map (·.1)).Nodup ∧
      (∀ n, n ∈ r.map (·.1) ↔ n ∈ ss.map (·.name) ++ (trailerIn name t).map (·.name)) ∧
      (∀ s ∈ ss, ∃ raw v, RawIn fo (fieldOf s) data raw ∧ dictGet? r s.name = some v ∧ Shows s raw v) ∧
      ∀ s ∈ trailerIn name t, ∃ i : Int, ReadsAs s data i ∧ dictGet? r s.name = some (.num i) := by
  classical
  obtain ⟨-, hlong, c', -, -, e⟩ := create_ok_iff.1 hc
  have htidy : c.Tidy := tidy_of_plain c hss
  have hsig : m.signals.Perm sigs := by rw [e]; exact default_perm sigs
  have hperm := made_signals hu htidy hs
  rw [show SortSignals.default.apply sigs = m.signals by rw [e]] at hperm
  have hs' := signals_of_plain (frame := frame) (chosen := fun _ _ => true) (i := 1) c hu hss
  have hn : (m.signals.map (·.name)).Perm (ss.map (·.name) ++ (trailerIn name t).map (·.name)) := by
    rw [← shape_of_is hs', ← List.map_append]
    have := hperm.map (·.name)
    rwa [List.map_map] at this
  have hno : ∀ q ∈ m.signals, q.isMultiplexer = false := by
    intro q hq
    have hq' := hperm.mem_iff.1 (List.mem_map_of_mem hq)
    rcases List.mem_append.1 hq' with hq' | hq'
    · obtain ⟨sd, -, hsd⟩ := exists_of_is hs' hq'
      exact hsd.plain.1
    · exact (Arxml.trailer_plain _ hq').1
  have hnd' : (sigs.map (·.name)).Nodup := ((hsig.map _).symm.trans hn).nodup_iff.2 hnd
  refine ⟨hnd', ?_⟩
  have hdec := C50_frame_partial (fo := fo) (dc := true) (sc := true) (tr := false) (ex := false) hs
    (clean_of_tidy c hu htidy).1 hnd'
    (fun q hq hqm => by rw [hno q (hsig.mem_iff.2 hq)] at hqm; cases hqm) hc hlen
    (chosen := fun field code => decide (ReadsAs field data code)) (fun _ _ => decide_eq_true_iff)
  generalize hch : (fun field code => decide (ReadsAs field data code)) = chosen at hdec
  have hsg := signals_of_plain (frame := frame) (chosen := chosen) (i := 1) c hu hss
  rcases hdec with ⟨r, h1, h2, h3⟩ | ⟨-, q, hq, hqm, -⟩
  · have hval : ∀ s ∈ ss, ∃ raw v, RawIn fo (fieldOf s) data raw ∧ dictGet? r s.name = some v ∧ Shows s raw v := by
      intro s hs
      obtain ⟨t, ht, hst⟩ := of_is_left hsg hs
      have hpos : 0 < t.length := by
        obtain ⟨t', ht', hst'⟩ := of_is_left hs' hs
        obtain ⟨q, hq, rfl⟩ := List.mem_map.1 (hperm.mem_iff.2 (List.mem_append_left _ ht'))
        rw [hst.length, ← hst'.length]
        exact hlong q (by rw [e] at hq; exact hq)
      have hraw := unpack_rawIn (fo := fo) hpos data
      exact ⟨_, _, (rawIn_of_is hst).1 hraw, (h3 _ _).2 ⟨t, List.mem_append_left _ ht, hst.name, _, hraw, rfl⟩, shows_of_is hst hraw⟩
    have htr : ∀ s ∈ trailerIn name t, ∃ i : Int, ReadsAs s data i ∧ dictGet? r s.name = some (.num i) := by
      intro s hs
      obtain ⟨i, h4, h5⟩ := trailer_shown (fo := fo) hs data
      exact ⟨i, h4, (h3 _ _).2 ⟨s, List.mem_append_right _ hs, rfl, i, h5.1, h5.2.symm⟩⟩
    refine ⟨r, h1, h2, fun n => ⟨fun hn => ?_, fun hn => ?_⟩, hval, htr⟩
    · cases hv : dictGet? r n with
      | none => exact absurd hn ((dictGet?_eq_none_iff r n).1 hv)
      | some v =>
        obtain ⟨t, ht, e, -⟩ := (h3 n v).1 hv
        rcases List.mem_append.1 ht with ht | ht
        · obtain ⟨s, hs, hst⟩ := exists_of_is hsg ht
          exact List.mem_append_left _ (List.mem_map.2 ⟨s, hs, hst.name ▸ e⟩)
        · exact List.mem_append_right _ (List.mem_map.2 ⟨t, ht, e⟩)
    · rcases List.mem_append.1 hn with hn | hn
      · obtain ⟨s, hs, rfl⟩ := List.mem_map.1 hn
        obtain ⟨raw, v, -, hv, -⟩ := hval s hs
        exact List.mem_map.2 ⟨_, dictGet?_mem hv, rfl⟩
      · obtain ⟨s, hs, rfl⟩ := List.mem_map.1 hn
        obtain ⟨i, -, hv⟩ := htr s hs
        exact List.mem_map.2 ⟨_, dictGet?_mem hv, rfl⟩
  · rcases List.mem_append.1 hq with hq | hq
    · obtain ⟨s, -, hst⟩ := exists_of_is hsg hq
      rw [hst.plain.1] at hqm
      cases hqm
    · rw [(Arxml.trailer_plain _ hq).1] at hqm
      cases hqm

/-- C54: a frame without alternatives has exactly the signals of its PDU, each of which shows the number
in its bits as its scales say, and those of the trailer if it is secured, which show the number in
their bits. -/
theorem C54_decode_plain_partial {fo : FloatOps} (h : Describes F root trigs ds) (hd : ∀ d ∈ ds, d.depth ≤ fuel)
    (hl : load F root fuel true .default = .ok ms) {k : Nat} {trig : String × Pos} {d : FrameContent} {l : Loader.Loaded}
    (_ht : trigs[k]? = some trig) (hk : ds[k]? = some d) (hm : ms[k]? = some l) {c : PduContent} {n : Int}
    (hp : d.pdu = some (c, n)) (_hc : d.contained = []) {ss : List SignalContent} (hss : c.signals? = some ss)
    (hnd : (ss.map (·.name) ++ (trailerIn d.name d.trailer).map (·.name)).Nodup)
    {o : Nat} (_ho : PduAtByte F root trig.2 o) (hz : o = 0) {data : Bytes} (hlen : data.length = d.length) :
    ∃ r, decode fo l.message data true true false false = .ok r ∧ (r.map (·.1)).Nodup ∧
      (∀ n, n ∈ r.map (·.1) ↔ n ∈ ss.map (·.name) ++ (trailerIn d.name d.trailer).map (·.name)) ∧
      (∀ s ∈ ss, ∃ raw v, RawIn fo (fieldOf s) (data.drop o) raw ∧ dictGet? r s.name = some v ∧ Shows s raw v) ∧
      ∀ s ∈ trailerIn d.name d.trailer, ∃ i : Int, ReadsAs s (data.drop o) i ∧ dictGet? r s.name = some (.num i) := by
  subst hz
  rw [List.drop_zero] at *
  obtain ⟨os, h1, h2⟩ := load_eq h hd true .default
  rw [h2] at hl
  obtain ⟨fs, h3, h4⟩ := bind_ok_iff.1 hl
  obtain ⟨o, ⟨ho, -⟩, hmade⟩ := forall₂_at (makes_ok h1 h3 h4) hk hm
  obtain ⟨sigs, hs, hc⟩ := hmade.created
  rw [hp] at ho
  generalize o.1 = o' at ho hs
  cases ho with
  | some hpdu => exact (message_shows hpdu hs hc hss hnd hlen).2

end

/-! A document and what is false is in `Verif/Props/ArxmlFileDoc.lean`. -/

end Cantools
