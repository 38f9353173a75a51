import Verif.Lemmas.Arxml
import Verif.Props.Decode
import Verif.Props.Example

/-
C50: frames with multiplexed PDUs of ARXML files.
-/

namespace Cantools
open Spec Arxml

section
variable {fo : FloatOps} {fid : Int} {name frame owner : String} {len : Nat} {sigs : List Signal} {pat : UInt8}
  {ext : Bool} {m : Message} {pdu : Pdu} {trailer : Option Trailer}

/-- C50: the decoded frame has exactly the signals of the tree of PDUs for the alternatives that the selector fields in
the payload choose, and those of the trailer if the frame is secured, each with the value shown for the number in its bits.  Decoding fails only with `DecodeError`, and
only if a selector that is there has a number without name.

Missing for the full claim: names of signals have to be distinct, which the numbering of selectors does not ensure
(`C50_wrong_alternative`), and copies of a selector field may not be selectors themselves (`C50_lost_signals`). -/
theorem C50_frame_partial (hl : loadFrameSignals frame owner pdu trailer = .ok sigs) (hc : CleanPdu frame pdu 1)
    (hnd : (sigs.map (·.name)).Nodup) (hnames : ∀ q ∈ sigs, q.isMultiplexer = true → ((table q).map (·.2.toStr)).Nodup)
    (hm : Message.create fid name len sigs pat ext true .default = .ok m)
    {data : Bytes} (hlen : data.length = len) {dc sc tr ex : Bool}
    {chosen : Signal → Int → Bool} (hch : ∀ field code, chosen field code = true ↔ ReadsAs field data code) :
    (∃ r, decode fo m data dc sc tr ex = .ok r ∧ (r.map (·.1)).Nodup ∧
      ∀ n v, dictGet? r n = some v ↔ ∃ s ∈ frameSignalsIn frame owner chosen pdu trailer, s.name = n ∧
        ∃ raw, RawIn fo s data raw ∧ v = shown s dc sc raw) ∨
    (decode fo m data dc sc tr ex = .error .decodeError ∧ ∃ q ∈ frameSignalsIn frame owner chosen pdu trailer, q.isMultiplexer = true ∧
      ∃ code, ReadsAs (selectorField q.start q.length q.byteOrder) data code ∧ code ∉ (table q).map (·.1)) := by
  unfold loadFrameSignals at hl
  obtain ⟨⟨j, L0⟩, hL, hl⟩ := bind_ok_iff.1 hl
  obtain ⟨T, hT, hl⟩ := bind_ok_iff.1 hl
  obtain rfl := trailerSignals_ok hT
  obtain ⟨L, rfl⟩ : ∃ L, L = sigs := ⟨_, rfl⟩
  have hLL : L0 ++ trailerIn owner trailer = L := Except.ok.inj hl
  obtain ⟨-, k1⟩ := loadPdu_contents pdu hc hL
  obtain ⟨k0, k2⟩ := loadPdu_present pdu hc hL
  have hkind : ∀ s ∈ L, TreeSignal frame (bareSignal s) := by
    intro s hs
    rw [← hLL] at hs
    rcases List.mem_append.1 hs with hs | hs
    · exact signalsIn_kind pdu hc _ (k1 ▸ List.mem_map_of_mem hs)
    · exact .inl (bare_of_plain (trailer_plain s hs) ▸ trailer_plain s hs)
  obtain ⟨ha, hml, -⟩ := accepted_of_create hnd hm
  have hpos : ∀ s ∈ L, 0 < s.length := fun s hs => ha.pos s ((ha.mem s).2 hs)
  obtain ⟨sel, hsel, hdec⟩ := C04_decode_reads_bits (fo := fo) hnd (fun s hs => (hkind s hs).built)
    (fun s hs => (hkind s hs).float) hm hlen (decodeChoices := dc) (scaling := sc) (truncated := tr) (excess := ex)
  have hfit : ∀ s, Present L sel s → Fits len s := fun s hs => hml ▸ (validLayout_congr ha.mem ha.valid).1 s ⟨_, hs⟩
  have hnum : ∀ q ∈ L, q.isMultiplexer = true → Present L sel q →
      ∃ i, sel q.name = some i ∧ ReadsAs (selectorField q.start q.length q.byteOrder) data i := by
    intro q hq hqm hqp
    obtain ⟨e1, e2, e3, e4⟩ := (hkind q hq).selector hqm
    obtain ⟨raw, hraw, hs⟩ := (hsel q hq).1 (hfit q hqp)
    unfold RawIn at hraw
    rw [if_neg (by rw [e1]; nofun)] at hraw
    obtain ⟨i, rfl, hi⟩ := hraw
    exact ⟨i, hs.trans (selector_shown e2 e3 (hnames q hq hqm) dc sc i), (e4 data i).1 hi⟩
  have hC : Chooses L sel chosen := by
    intro q hq hqm hqp code
    obtain ⟨i, hi, hr⟩ := hnum q hq hqm hqp
    rw [hi, hch, Option.some.injEq]
    exact ⟨fun e => e ▸ hr, fun h => readsAs_unique (s := selectorField q.start q.length q.byteOrder) (hpos q hq) hr h⟩
  have hd : DistinctSelectors L := List.Nodup.sublist (List.filter_sublist.map _) hnd
  have hs1 : L0.Sublist L := hLL ▸ List.sublist_append_left ..
  have hsigs : presentOf L sel L = frameSignalsIn frame owner chosen pdu trailer := by
    unfold frameSignalsIn
    rw [← k2 sel chosen (hd.sublist hs1) (hC.sub hs1.subset k0 hd), ← presentOf_sub hs1.subset k0 hd]
    conv_lhs => arg 3; rw [← hLL]
    rw [presentOf_append, presentOf_all (L := trailerIn owner trailer) fun s hs =>
      .root s (hLL ▸ List.mem_append_right _ hs) (trailer_plain s hs).2.1]
    congr 1
    exact (List.map_congr_left fun s hs => bare_of_plain (trailer_plain s hs)).trans (List.map_id _)
  have hmem : ∀ t, t ∈ frameSignalsIn frame owner chosen pdu trailer ↔ ∃ s, Present L sel s ∧ bareSignal s = t := by
    intro t
    rw [← hsigs]
    unfold presentOf
    rw [List.mem_map]
    constructor
    · rintro ⟨s, hs, e⟩
      exact ⟨s, by simpa using (List.mem_filter.1 hs).2, e⟩
    · rintro ⟨s, hs, e⟩
      exact ⟨s, List.mem_filter.2 ⟨Present.mem hs, by simpa using hs⟩, e⟩
  rcases hdec with ⟨r, hr, -, hk, hv⟩ | ⟨hr, hns⟩
  · refine .inl ⟨r, hr, hk, fun n v => (hv n v).trans ⟨?_, ?_⟩⟩
    · rintro ⟨s, hs, hn, h⟩
      exact ⟨bareSignal s, (hmem _).2 ⟨s, hs, rfl⟩, hn, h⟩
    · rintro ⟨t, ht, hn, h⟩
      obtain ⟨s, hs, rfl⟩ := (hmem t).1 ht
      exact ⟨s, hs, hn, h⟩
  · refine .inr ⟨hr, ?_⟩
    unfold Selectable at hns
    push Not at hns
    obtain ⟨q, hqp, hqm, -, hno⟩ := hns
    obtain ⟨i, hi, hread⟩ := hnum q (Present.mem hqp) hqm hqp
    exact ⟨bareSignal q, (hmem _).2 ⟨q, hqp, rfl⟩, hqm, i, hread, fun h => hno i hi (.inr h)⟩

end


namespace ArxmlExample
open Example (fo get)

def sig (n : String) (start len : Nat) (choices : Option Choices := none) : Signal :=
  { name := n, start := start, length := len, conversion := .factory 1 0 choices false }

/-- A frame with a selector in byte 0.  Value 1 is for a speed; value 2 for a nested multiplexed PDU, with a selector in
the low nibble of byte 1; a static part has a counter. -/
def pdu : Pdu :=
  .secured (.multiplexed [] 0 8 .little
    (.cons 1 true (.plain [sig "Copy1" 0 8 (some [(1, .str "moving")]), sig "Speed" 8 16])
      (.cons 2 false (.secured (.multiplexed [sig "Copy2" 0 8 (some [(2, .str "parked")])] 8 4 .little
        (.cons 0 false (.plain [sig "Copy3" 8 4, sig "Door" 12 4])
          (.cons 5 true (.plain [sig "Copy4" 8 4, sig "Light" 16 8]) .nil)) .nil)) .nil))
    (.cons (.plain [sig "Counter" 24 8]) .nil))

/-- The frame is secured: four bits of the freshness value and twelve bits of the authenticator follow. -/
def trailer : Option Trailer := some ⟨4, some 4, some 12⟩

def sigs : List Signal := get (loadFrameSignals "F" "F" pdu trailer)

theorem loaded : loadFrameSignals "F" "F" pdu trailer = .ok sigs := by
  have h : (loadFrameSignals "F" "F" pdu trailer).toOption.isSome = true := by decide +kernel
  unfold sigs
  cases hc : loadFrameSignals "F" "F" pdu trailer with
  | ok m => rfl
  | error e => rw [hc] at h; cases h

theorem sig_plain (n : String) (start len : Nat) (c : Option Choices) : PlainSignal (sig n start len c) := by
  refine ⟨rfl, rfl, rfl, ⟨1, 0, c, false, rfl⟩, ?_⟩
  cases c <;> nofun

theorem clean : CleanPdu "F" pdu 1 := by
  simp only [pdu, CleanPdu, CleanAlts, CleanPdus, List.not_mem_nil, false_imp_iff, implies_true, List.forall_mem_cons,
    sig_plain, and_true, true_and]
  decide +kernel

def msg : Message := get (Message.create 0x123 "F" 6 sigs 0)

theorem created : Message.create 0x123 "F" 6 sigs 0 = .ok msg := by
  have h : (Message.create 0x123 "F" 6 sigs 0).toOption.isSome = true := by decide +kernel
  unfold msg
  cases hc : Message.create 0x123 "F" 6 sigs 0 with
  | ok m => rfl
  | error e => rw [hc] at h; cases h

open Classical in
/-- The hypotheses can be met, and for this frame decoding succeeds. -/
example : ∃ r, decode fo msg [2, 0x35, 0x77, 9, 0x5a, 0xbc] true true false false = .ok r ∧ (r.map (·.1)).Nodup ∧
    ∀ n v, dictGet? r n = some v ↔
      ∃ s ∈ frameSignalsIn "F" "F" (fun field code => decide (ReadsAs field [2, 0x35, 0x77, 9, 0x5a, 0xbc] code)) pdu trailer, s.name = n ∧
        ∃ raw, RawIn fo s [2, 0x35, 0x77, 9, 0x5a, 0xbc] raw ∧ v = shown s true true raw := by
  rcases C50_frame_partial (fo := fo) loaded clean (by decide +kernel) (by decide +kernel) created
    (data := [2, 0x35, 0x77, 9, 0x5a, 0xbc]) rfl (dc := true) (sc := true) (tr := false) (ex := false)
    (chosen := fun field code => decide (ReadsAs field [2, 0x35, 0x77, 9, 0x5a, 0xbc] code)) (fun _ _ => decide_eq_true_iff) with h | ⟨h, -⟩
  · exact h
  · have h' : (decode fo msg [2, 0x35, 0x77, 9, 0x5a, 0xbc] true true false false).toOption.isSome = true := by decide +kernel
    rw [h] at h'
    cases h'

/-- The values of this frame. -/
example : (decode fo msg [2, 0x35, 0x77, 9, 0x5a, 0xbc] true true false false).toOption =
    some [("F_selector1", .str "parked"), ("Counter", .num 9), ("F_Freshness", .num 5), ("F_Authenticator", .num 0xabc),
      ("F_selector2", .num 5), ("Light", .num 0x77)] := by
  decide +kernel

/-- Two nested multiplexed PDUs in different alternatives. -/
def twice : Pdu :=
  .multiplexed [] 0 8 .little
    (.cons 1 false (.multiplexed [sig "Copy1" 0 8] 8 8 .little (.cons 0 false (.plain [sig "Copy3" 8 8, sig "Door" 16 8]) .nil) .nil)
      (.cons 2 false (.multiplexed [sig "Copy2" 0 8] 8 8 .little (.cons 0 false (.plain [sig "Copy4" 8 8, sig "Light" 24 8]) .nil) .nil) .nil))
    .nil

def sel1 : Signal := selectorAt "F" 1 0 8 .little []

/-- The selector of a nested multiplexed PDU at the position of the outer one. -/
def inPlace : Pdu :=
  .multiplexed [] 0 8 .little
    (.cons 1 false (.multiplexed [] 0 8 .little (.cons 0 false (.plain [sig "Copy3" 0 8, sig "Door" 16 8]) .nil) .nil) .nil)
    .nil
end ArxmlExample

open ArxmlExample Example in
/-- The claim is false without distinct names: selectors at the same depth get the same name.  Here value 1 of the outer
selector chooses the alternative with the signal `Door`, but `Light` of the other alternative is decoded too. -/
theorem C50_wrong_alternative : ∃ sigs m r, loadFrameSignals "F" "F" twice none = .ok sigs ∧
    Message.create 0x123 "F" 4 sigs 0 = .ok m ∧ decode fo m [1, 0, 0x77, 9] true true false false = .ok r ∧
    dictGet? r "Light" = some (.num 9) ∧
    ∀ chosen : Signal → Int → Bool, (∀ field code, chosen field code = true ↔ ReadsAs field [1, 0, 0x77, 9] code) →
      ∀ s ∈ signalsIn "F" chosen twice 1, s.name ≠ "Light" := by
  have h : ((loadFrameSignals "F" "F" twice none).bind fun sigs => (Message.create 0x123 "F" 4 sigs 0).bind fun m =>
      (decode fo m [1, 0, 0x77, 9] true true false false).bind fun r => .ok (dictGet? r "Light")).toOption =
      some (some (.num 9)) := by decide +kernel
  cases h1 : loadFrameSignals "F" "F" twice none with
  | error e => rw [h1] at h; cases h
  | ok sigs =>
    rw [h1] at h
    cases h2 : Message.create 0x123 "F" 4 sigs 0 with
    | error e => simp only [Except.bind, h2] at h; cases h
    | ok m =>
      cases h3 : decode fo m [1, 0, 0x77, 9] true true false false with
      | error e => simp only [Except.bind, h2, h3] at h; cases h
      | ok r =>
        simp only [Except.bind, h2, h3] at h
        refine ⟨sigs, m, r, rfl, h2, h3, Option.some.inj h, fun chosen hch => ?_⟩
        have hno : chosen (selectorField 0 8 .little) 2 = false := by
          rw [Bool.eq_false_iff, ne_eq, hch]
          rintro ⟨-, h⟩
          have := h 0 (by decide)
          revert this
          decide +kernel
        simp only [twice, signalsIn, alternativeSignals, staticSignals, hno]
        generalize chosen (selectorField 0 8 .little) 1 = x
        generalize chosen (selectorField 8 8 .little) 0 = y
        cases x <;> cases y <;> decide +kernel

open ArxmlExample Example in
/-- A nested selector in place of the copy of the selector field is removed as if it were the copy, and with it the
signals below it: `Door` is decoded for no payload, although it is a signal of the tree. -/
theorem C50_lost_signals : ∃ sigs m, loadFrameSignals "F" "F" inPlace none = .ok sigs ∧ Message.create 0x123 "F" 4 sigs 0 = .ok m ∧
    (∃ s ∈ signalsIn "F" (fun _ _ => true) inPlace 1, s.name = "Door") ∧
    ∀ data r, data.length = 4 → decode fo m data true true false false = .ok r → dictGet? r "Door" = none := by
  have h : ((loadFrameSignals "F" "F" inPlace none).bind fun sigs => (Message.create 0x123 "F" 4 sigs 0).bind fun _ =>
      .ok sigs).toOption = some [sel1, { sig "Door" 16 8 with multiplexerSignal := some "F_selector2", multiplexerIds := some [0] }] := by
    decide +kernel
  cases h1 : loadFrameSignals "F" "F" inPlace none with
  | error e => rw [h1] at h; cases h
  | ok sigs =>
    rw [h1] at h
    cases h2 : Message.create 0x123 "F" 4 sigs 0 with
    | error e => simp only [Except.bind, h2] at h; cases h
    | ok m =>
      simp only [Except.bind, h2] at h
      have hs : sigs = _ := Option.some.inj h
      refine ⟨sigs, m, rfl, h2, ?_, fun data r hlen hr => ?_⟩
      · decide +kernel
      · obtain ⟨sel, -, hd⟩ := C04_decode_reads_bits (fo := fo) (by rw [hs]; decide +kernel)
          (by rw [hs]; rintro s hs; simp only [List.mem_cons, List.not_mem_nil, or_false] at hs
              rcases hs with rfl | rfl <;> exact ⟨1, 0, none, false, rfl⟩) (by rw [hs]; decide +kernel) h2 hlen
          (decodeChoices := true) (scaling := true) (truncated := false) (excess := false)
        rcases hd with ⟨r', hr', -, -, hv⟩ | ⟨he, -⟩
        · rw [hr] at hr'
          cases hr'
          rw [Option.eq_none_iff_forall_ne_some]
          intro v hv'
          obtain ⟨s, hp, hn, -⟩ := (hv _ v).1 hv'
          have hno : ∀ p, Present sigs sel p → p.name ≠ "F_selector2" := by
            intro p hp
            have := Present.mem hp
            rw [hs] at this
            revert p
            intro p _ hm
            simp only [List.mem_cons, List.not_mem_nil, or_false] at hm
            rcases hm with rfl | rfl <;> decide +kernel
          have hm := Present.mem hp
          rw [hs] at hm
          simp only [List.mem_cons, List.not_mem_nil, or_false] at hm
          rcases hm with rfl | rfl
          · revert hn; decide +kernel
          · cases hp with
            | root _ _ h => cases h
            | child _ p _ _ _ h _ hpp => exact hno p hpp (Option.some.inj h).symm
        · rw [hr] at he; cases he

end Cantools
