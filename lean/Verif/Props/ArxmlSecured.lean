import Verif.Props.SecOC
import Verif.Props.ArxmlFileDoc
import Verif.Spec.Secured

/-
Properties of secured messages: C60.
-/

namespace Cantools
open Spec

variable {fid : Int} {name : String} {len : Nat} {sigs : List Signal} {pat : UInt8} {ext : Bool} {m : Message} {fo : FloatOps}

/-- The place of bit `j` of a field of the wire. -/
theorem wireField_pos (n : String) (first len j : Nat) :
    bitPos (wireField n first len) j =
      8 * ((first + (len - 1 - j)) / 8) + (7 - (first + (len - 1 - j)) % 8) := by
  show bigPos _ _ = _
  dsimp only [wireField]
  generalize len - 1 - j = k
  induction k with
  | zero => rfl
  | succ k ih =>
    rw [bigPos, ih, nextBig]
    split <;> omega

theorem payloadBit_wire (data : Bytes) (i : Nat) : payloadBit data (8 * (i / 8) + (7 - i % 8)) = wireBit data i := by
  unfold payloadBit wireBit
  rw [show (8 * (i / 8) + (7 - i % 8)) / 8 = i / 8 by omega, show (8 * (i / 8) + (7 - i % 8)) % 8 = 7 - i % 8 by omega]

theorem wireBit_payload (data : Bytes) (p : Nat) : payloadBit data p = wireBit data (8 * (p / 8) + (7 - p % 8)) := by
  rw [← payloadBit_wire]
  congr 1
  omega

theorem wireField_occupies (n : String) (first len i : Nat) (h1 : first ≤ i) (h2 : i < first + len) :
    Occupies (wireField n first len) (8 * (i / 8) + (7 - i % 8)) := by
  refine ⟨len - 1 - (i - first), by show _ < len; omega, ?_⟩
  rw [wireField_pos, show first + (len - 1 - (len - 1 - (i - first))) = i by omega]

/-- C60: what is read from the field that begins at bit `first` of the wire is the number whose bits,
the most significant one first, are those of the wire. -/
theorem C60_field (n : String) (first len : Nat) (data : Bytes) (v : Nat) :
    ReadsAs (wireField n first len) data v ↔
      v < 2 ^ len ∧ ∀ i, i < len → v.testBit (len - 1 - i) = wireBit data (first + i) := by
  unfold ReadsAs InRange
  rw [if_neg (by show ¬ (false = true); decide)]
  show (0 ≤ (v : Int) ∧ (v : Int) < 2 ^ len) ∧ (∀ j, j < len → _) ↔ _
  have hb : ∀ j, intBit (v : Int) j = v.testBit j := by
    intro j
    unfold intBit
    rw [Nat.testBit_eq_decide_div_mod_eq]
    congr 1
    norm_cast
  constructor
  · rintro ⟨⟨-, h1⟩, h2⟩
    refine ⟨by exact_mod_cast h1, fun i hi => ?_⟩
    have := h2 (len - 1 - i) (by omega)
    rw [wireField_pos, payloadBit_wire, hb, show first + (len - 1 - (len - 1 - i)) = first + i by omega] at this
    exact this.symm
  · rintro ⟨h1, h2⟩
    refine ⟨⟨by omega, by exact_mod_cast h1⟩, fun j hj => ?_⟩
    rw [wireField_pos, payloadBit_wire, hb, ← h2 (len - 1 - j) (by omega)]
    congr 1
    omega

theorem leadingBits_exists (n : Nat) (b : Bytes) : ∃ v, LeadingBits n b v := by
  refine ⟨natOfBits ((List.range n).map (wireBit b)), ?_, fun i hi => ?_⟩
  · simpa using natOfBits_lt ((List.range n).map (wireBit b))
  · rw [natOfBits_testBit]
    simp [show n - 1 - i < n by omega, show n - 1 - (n - 1 - i) = i by omega, hi]

theorem shown_field (n : String) (first len : Nat) (dc sc : Bool) (r : Rat) : shown (wireField n first len) dc sc r = .num r := by
  unfold shown
  have h1 : table (wireField n first len) = [] := rfl
  have h2 : (wireField n first len).conversion.scale = 1 := rfl
  have h3 : (wireField n first len).conversion.offset = 0 := rfl
  rw [h1, h2, h3]
  have h4 : ∀ {α : Type} (k : Int), dictGet? ([] : List (Int × α)) k = none := fun _ => rfl
  rw [h4, ite_self]
  simp

theorem rawIn_field {n : String} {first len : Nat} {data : Bytes} {v : Nat} (h : ReadsAs (wireField n first len) data v) :
    RawIn fo (wireField n first len) data v := by
  unfold RawIn
  rw [if_neg (by show ¬ (false = true); decide)]
  exact ⟨v, by norm_cast, h⟩

/-- Signals that are in the same frame as the trailer have no bits in it. -/
theorem same_bits {nf na : String} {s : SecOCProps} {d d' : Bytes}
    (hv : ValidLayout len sigs) (hf : wireField nf (8 * s.payloadLength) s.freshnessTxBits ∈ sigs)
    (ha : wireField na (8 * s.payloadLength + s.freshnessTxBits) s.authTxBits ∈ sigs)
    (hd : ∀ i, i < 8 * s.payloadLength ∨ 8 * s.payloadLength + s.freshnessTxBits + s.authTxBits ≤ i → wireBit d i = wireBit d' i)
    {sel : String → Option Int} {q : Signal} (hq : Present sigs sel q)
    (h1 : q ≠ wireField nf (8 * s.payloadLength) s.freshnessTxBits)
    (h2 : q ≠ wireField na (8 * s.payloadLength + s.freshnessTxBits) s.authTxBits) (p : Nat) (hp : Occupies q p) :
    payloadBit d p = payloadBit d' p := by
  rw [wireBit_payload, wireBit_payload]
  have e : p = 8 * ((8 * (p / 8) + (7 - p % 8)) / 8) + (7 - (8 * (p / 8) + (7 - p % 8)) % 8) := by omega
  generalize 8 * (p / 8) + (7 - p % 8) = i at e ⊢
  by_cases c : i < 8 * s.payloadLength ∨ 8 * s.payloadLength + s.freshnessTxBits + s.authTxBits ≤ i
  · exact hd i c
  · exfalso
    by_cases c2 : i < 8 * s.payloadLength + s.freshnessTxBits
    · exact hv.2 sel q _ hq (.root _ hf rfl) h1 p hp (e ▸ wireField_occupies _ _ _ i (by omega) c2)
    · exact hv.2 sel q _ hq (.root _ ha rfl) h2 p hp (e ▸ wireField_occupies _ _ _ i (by omega) (by omega))

/-- The same signals are there. -/
theorem present_same {d d' : Bytes} {dc sc : Bool} {sel sel' : String → Option Int}
    (hv : ∀ s, Present sigs sel s → Fits len s) (hpos : ∀ s ∈ sigs, 0 < s.length)
    (hs : SelectorsIn fo sigs d dc sc len sel) (hs' : SelectorsIn fo sigs d' dc sc len sel')
    (hsame : ∀ q, Present sigs sel q → q.isMultiplexer = true → ∀ p, Occupies q p → payloadBit d p = payloadBit d' p) :
    (∀ q, Present sigs sel q → Present sigs sel' q) ∧
      ∀ q, Present sigs sel q → q.isMultiplexer = true → sel q.name = sel' q.name := by
  have hsel : ∀ q, Present sigs sel q → q.isMultiplexer = true → sel q.name = sel' q.name := by
    intro q hq hm
    have hmem := Present.mem hq
    obtain ⟨x, h1, h2⟩ := (hs q hmem).1 (hv q hq)
    obtain ⟨x', h1', h2'⟩ := (hs' q hmem).1 (hv q hq)
    rw [h2, h2', C04_raw_unique (hpos q hmem) (hsame q hq hm) h1 h1']
  refine ⟨fun q hq => ?_, hsel⟩
  induction hq with
  | root s hs hp => exact .root s hs hp
  | child s p i ids hs hp hmx hpar hseli hids hi ih =>
    exact .child s p i ids hs hp hmx ih (hsel p hpar hmx ▸ hseli) hids hi

/-- C60: what is decoded from a frame to which the authenticator was applied, for any message that has
signals for the freshness value and the authenticator behind the payload: the low bits of the freshness
value, the leading bits of the authenticator of the authenticated data, and for all other signals what
was in the frame before. -/
theorem C60_apply_decode (hnd : (sigs.map (·.name)).Nodup) (hb : ∀ s ∈ sigs, Built s.conversion)
    (hpt : ∀ s ∈ sigs, s.conversion.isFloat = true → s.conversion.choices = none)
    (hm : Message.create fid name len sigs pat ext true .default = .ok m)
    {s : SecOCProps} {nf na : String} (hf : wireField nf (8 * s.payloadLength) s.freshnessTxBits ∈ sigs)
    (ha : wireField na (8 * s.payloadLength + s.freshnessTxBits) s.authTxBits ∈ sigs)
    {data frame : Bytes} (hlen : data.length = len) {auth : Bytes → Int → Bytes} {f : Int}
    (happ : applyAuthenticator (some s) auth data f = .ok frame) {dc sc tr ex : Bool} :
    (∃ r r' d v, decode fo m data dc sc tr ex = .ok r ∧ decode fo m frame dc sc tr ex = .ok r' ∧
      dictGet? r' nf = some (.num ((f % 2 ^ s.freshnessTxBits : Int) : Rat)) ∧
      IsAuthData s data f.toNat d ∧ LeadingBits s.authTxBits (auth d f) v ∧ dictGet? r' na = some (.num v) ∧
      ∀ n, n ≠ nf → n ≠ na → dictGet? r' n = dictGet? r n) ∨
    (decode fo m data dc sc tr ex = .error .decodeError ∧ decode fo m frame dc sc tr ex = .error .decodeError) := by
  obtain ⟨hu, hl, d, hd, ht, ho⟩ := (C24_apply_iff s auth data f frame).1 happ
  obtain ⟨hacc, hml, -⟩ := accepted_of_create hnd hm
  have hpos : ∀ s ∈ sigs, 0 < s.length := fun s hs => hacc.pos s ((hacc.mem s).2 hs)
  have hv : ValidLayout len sigs := hml ▸ validLayout_congr hacc.mem hacc.valid
  obtain ⟨sel, hsel, hcase⟩ := C04_decode_reads_bits (fo := fo) hnd hb hpt hm hlen
    (decodeChoices := dc) (scaling := sc) (truncated := tr) (excess := ex)
  obtain ⟨sel', hsel', hcase'⟩ := C04_decode_reads_bits (fo := fo) hnd hb hpt hm (hl.trans hlen)
    (decodeChoices := dc) (scaling := sc) (truncated := tr) (excess := ex)
  have hne : ∀ q : Signal, q.isMultiplexer = true → q ≠ wireField nf (8 * s.payloadLength) s.freshnessTxBits ∧
      q ≠ wireField na (8 * s.payloadLength + s.freshnessTxBits) s.authTxBits := by
    intro q hq
    constructor <;> · rintro rfl; cases hq
  obtain ⟨hP, hS⟩ := present_same (fun s hs => hv.1 s ⟨_, hs⟩) hpos hsel hsel'
    (fun q hq hmx => same_bits hv hf ha (fun i hi => (ho i hi).symm) hq (hne q hmx).1 (hne q hmx).2)
  obtain ⟨hP', hS'⟩ := present_same (fun s hs => hv.1 s ⟨_, hs⟩) hpos hsel' hsel
    (fun q hq hmx => same_bits hv hf ha ho hq (hne q hmx).1 (hne q hmx).2)
  have hSel : Selectable sigs sel ↔ Selectable sigs sel' := by
    constructor
    · intro h p hp hmx hbr
      obtain ⟨i, h1, h2⟩ := h p (hP' p hp) hmx hbr
      exact ⟨i, hS' p hp hmx ▸ h1, h2⟩
    · intro h p hp hmx hbr
      obtain ⟨i, h1, h2⟩ := h p (hP p hp) hmx hbr
      exact ⟨i, hS p hp hmx ▸ h1, h2⟩
  rcases hcase with ⟨r, hr, hok, -, hg⟩ | ⟨hr, hok⟩
  · rcases hcase' with ⟨r', hr', -, -, hg'⟩ | ⟨-, hno⟩
    swap
    · exact absurd (hSel.1 hok) hno
    obtain ⟨v, hvl⟩ := leadingBits_exists s.authTxBits (auth d f)
    refine .inl ⟨r, r', d, v, hr, hr', ?_, hd, hvl, ?_, ?_⟩
    · refine (hg' _ _).2 ⟨_, .root _ hf rfl, rfl, _, rawIn_field (v := (f % 2 ^ s.freshnessTxBits).toNat) ?_, ?_⟩
      · refine (C60_field _ _ _ _ _).2 ⟨?_, fun i hi => ?_⟩
        · have := Int.emod_lt_of_pos f (show (0 : Int) < 2 ^ s.freshnessTxBits by positivity)
          have := Int.emod_nonneg f (show (2 : Int) ^ s.freshnessTxBits ≠ 0 by positivity)
          zify
          omega
        · rw [ht.freshness i hi]
          exact mod_two_pow_testBit f hu.nonneg _ _ (by omega)
      · have := Int.emod_nonneg f (show (2 : Int) ^ s.freshnessTxBits ≠ 0 by positivity)
        rw [shown_field, ← Int.cast_natCast, Int.toNat_of_nonneg this]
    · refine (hg' _ _).2 ⟨_, .root _ ha rfl, rfl, _, rawIn_field (v := v) ?_, (shown_field ..).symm⟩
      exact (C60_field _ _ _ _ _).2 ⟨hvl.1, fun i hi => by rw [hvl.2 i hi, ht.authenticator i hi]⟩
    · intro n hn1 hn2
      have hx : ∀ w, dictGet? r' n = some w ↔ dictGet? r n = some w := by
        intro w
        have hq : ∀ q : Signal, q.name = n → q ≠ wireField nf (8 * s.payloadLength) s.freshnessTxBits ∧
            q ≠ wireField na (8 * s.payloadLength + s.freshnessTxBits) s.authTxBits := by
          rintro q rfl
          constructor <;> rintro rfl
          · exact hn1 rfl
          · exact hn2 rfl
        rw [hg, hg']
        constructor
        · rintro ⟨q, h1, h2, raw, h3, h4⟩
          exact ⟨q, hP' q h1, h2, raw, rawIn_congr (same_bits hv hf ha ho h1 (hq q h2).1 (hq q h2).2) h3, h4⟩
        · rintro ⟨q, h1, h2, raw, h3, h4⟩
          exact ⟨q, hP q h1, h2, raw, rawIn_congr (same_bits hv hf ha (fun i hi => (ho i hi).symm) h1 (hq q h2).1 (hq q h2).2) h3, h4⟩
      exact Option.ext hx
  · rcases hcase' with ⟨-, -, hok', -, -⟩ | ⟨hr', -⟩
    · exact absurd (hSel.2 hok') hok
    · exact .inr ⟨hr, hr'⟩

section
open Kcd (Xml)
open ArxmlRef (Pos Refs at? createDicts)
open ArxmlScale (FloatRead)
open ArxmlFile
open Spec Spec.SystemFile
variable {F : FloatRead} {root : Xml} {trigs : List (String × Pos)} {ds : List FrameContent} {ms : List Loader.Loaded} {fuel : Nat}

/-- C60: the authenticator of a frame that is secured according to a system description.  The frame is
accepted by the verification, the signals that cantools adds show the transmitted parts of the freshness
value and of the authenticator, and the signals of the payload are unchanged.

Missing: what is missing for C50 and C54, and the `None` values of incomplete settings. -/
theorem C60_secured_partial (h : Describes F root trigs ds) (hd : ∀ d ∈ ds, d.depth ≤ fuel)
    (hl : load F root fuel true .default = .ok ms) {k : Nat} {d : FrameContent} {l : Loader.Loaded}
    (hk : ds[k]? = some d) (hm : ms[k]? = some l) {c : PduContent} {n : Int} (hp : d.pdu = some (c, n)) (htidy : c.Tidy)
    (hnd : (l.message.signals.map (·.name)).Nodup) {sec : Loader.SecOC} (hs : d.secoc = some sec) {s : SecOCProps}
    (hc : Complete sec s) {data frame : Bytes} (hlen : data.length = d.length) {auth : Bytes → Int → Bytes} {f : Int}
    (happ : applyAuthenticator (some s) auth data f = .ok frame) {dc sc tr ex : Bool} :
    l.secoc = some sec ∧ verifyAuthenticator (some s) auth frame f = .ok true ∧
    ((∃ r r' a v, decode fo l.message data dc sc tr ex = .ok r ∧ decode fo l.message frame dc sc tr ex = .ok r' ∧
        dictGet? r' (d.name ++ "_Freshness") = some (.num ((f % 2 ^ s.freshnessTxBits : Int) : Rat)) ∧
        IsAuthData s data f.toNat a ∧ LeadingBits s.authTxBits (auth a f) v ∧
        dictGet? r' (d.name ++ "_Authenticator") = some (.num v) ∧
        ∀ n, n ≠ d.name ++ "_Freshness" → n ≠ d.name ++ "_Authenticator" → dictGet? r' n = dictGet? r n) ∨
      (decode fo l.message data dc sc tr ex = .error .decodeError ∧
        decode fo l.message frame dc sc tr ex = .error .decodeError)) := by
  obtain ⟨os, h1, h2⟩ := load_eq h hd true .default
  rw [h2] at hl
  obtain ⟨fs, h3, h4⟩ := bind_ok_iff.1 hl
  obtain ⟨o, ⟨ho, -⟩, hmade⟩ := forall₂_at (makes_ok h1 h3 h4) hk hm
  obtain ⟨sigs, hsg, hcr⟩ := hmade.created
  obtain ⟨-, -, c', -, -, e⟩ := create_ok_iff.1 hcr
  have hperm : l.message.signals.Perm sigs := by rw [e]; exact default_perm sigs
  rw [hp] at ho
  generalize o.1 = o' at ho hsg
  refine ⟨hmade.secoc.trans hs, C24_applied_verifies s auth data f frame happ, ?_⟩
  have hu := ((C24_apply_iff s auth data f frame).1 happ).1
  cases ho with
  | some hpdu =>
    have hclean := (clean_of_tidy (frame := d.name) (i := 1) c hpdu htidy).1
    have hsg' := hsg
    simp only [frameSignals, Arxml.loadFrameSignals] at hsg
    obtain ⟨⟨j, L0⟩, hL, hsg⟩ := bind_ok_iff.1 hsg
    obtain ⟨T, hT, hsg⟩ := bind_ok_iff.1 hsg
    obtain rfl := Arxml.trailerSignals_ok hT
    obtain rfl : L0 ++ trailerIn d.name d.trailer = sigs := Except.ok.inj hsg
    obtain ⟨-, k1⟩ := Arxml.loadPdu_contents _ hclean hL
    have hkind : ∀ s ∈ L0 ++ trailerIn d.name d.trailer, Arxml.TreeSignal d.name (Arxml.bareSignal s) := by
      intro s hs
      rcases List.mem_append.1 hs with hs | hs
      · exact Arxml.signalsIn_kind _ hclean _ (k1 ▸ List.mem_map_of_mem hs)
      · exact .inl (Arxml.bare_of_plain (Arxml.trailer_plain s hs) ▸ Arxml.trailer_plain s hs)
    have htr : d.trailer = some ⟨s.payloadLength, some s.freshnessTxBits, some s.authTxBits⟩ := by
      unfold FrameContent.trailer
      rw [hs, ← hc.authTxBits, ← hc.freshnessTxBits, hc.payloadLength]
      rfl
    refine C60_apply_decode ((hperm.map _).nodup_iff.1 hnd) (fun s hs => (hkind s hs).built) (fun s hs => (hkind s hs).float)
      hcr ?_ ?_ hlen happ
    · rw [htr]
      exact List.mem_append_right _ (List.mem_filter.2 ⟨by simp, decide_eq_true hu.txBits⟩)
    · rw [htr]
      exact List.mem_append_right _ (List.mem_filter.2 ⟨by simp, decide_eq_true hu.authBits⟩)

/-- C60: a secured frame with an authenticator needs the number of transmitted bits of the freshness
value: otherwise the file cannot be loaded. -/
theorem C60_freshness_needed {strict : Bool} (h : Describes F root trigs ds) (hd : ∀ d ∈ ds, d.depth ≤ fuel)
    {d : FrameContent} (hk : d ∈ ds) {c : PduContent} {n : Int} (hp : d.pdu = some (c, n)) {sec : Loader.SecOC}
    (hs : d.secoc = some sec) (hf : sec.freshnessTxBits = none) {a : Nat} (ha : sec.authTxBits = some a) (hpos : 0 < a) :
    ∃ e, load F root fuel strict .default = .error e := by
  cases hl : load F root fuel strict .default with
  | error e => exact ⟨e, rfl⟩
  | ok ms =>
    exfalso
    obtain ⟨os, h1, h2⟩ := load_eq h hd strict .default
    rw [h2] at hl
    obtain ⟨fs, h3, h4⟩ := bind_ok_iff.1 hl
    obtain ⟨k, hk⟩ := List.mem_iff_getElem?.1 hk
    have hall := makes_ok h1 h3 h4
    obtain ⟨l, hm⟩ : ∃ l, ms[k]? = some l := by
      have := List.getElem?_eq_some_iff.1 hk
      obtain ⟨hlt, -⟩ := this
      exact ⟨ms[k]'(hall.length_eq ▸ hlt), List.getElem?_eq_getElem _⟩
    obtain ⟨o, ⟨ho, -⟩, hmade⟩ := forall₂_at hall hk hm
    obtain ⟨sigs, hsg, -⟩ := hmade.created
    rw [hp] at ho
    generalize o.1 = o' at ho hsg
    cases ho with
    | some hpdu =>
      simp only [frameSignals, Arxml.loadFrameSignals] at hsg
      obtain ⟨_, -, hsg⟩ := bind_ok_iff.1 hsg
      obtain ⟨T, hT, -⟩ := bind_ok_iff.1 hsg
      have htr : d.trailer = some ⟨sec.payloadLength, none, some a⟩ := by
        unfold FrameContent.trailer
        rw [hs, ← hf, ← ha]
        rfl
      rw [htr] at hT
      obtain ⟨x, hx, -⟩ := bind_ok_iff.1 hT
      simp [Arxml.authSignal, hpos] at hx

end

/-! The secured frame `F4` of the example of C54. -/

namespace ArxmlFile.Example

def props : SecOCProps := ⟨2, 19, 12, 8, 4⟩

theorem complete : Complete secoc props := ⟨rfl, rfl, rfl, rfl, rfl⟩

theorem applied : applyAuthenticator (some props) exAuth [7, 100, 0, 0] 0x35 = .ok [7, 100, 0x51, 0xf3] := by decide +kernel

example : ∃ l r v, msgs[3]? = some l ∧ decode Example.fo l.message [7, 100, 0x51, 0xf3] true true false false = .ok r ∧
    dictGet? r "F4_Freshness" = some (.num 5) ∧ dictGet? r "F4_Authenticator" = some (.num v) := by
  obtain ⟨l, hl⟩ := msg 3 (by decide)
  have hn : (msgs[3]?.map fun l => decide (l.message.signals.map (·.name)).Nodup) = some true := by decide +kernel
  rw [hl] at hn
  have ok : (msgs[3]?.map fun l => (decode Example.fo l.message [7, 100, 0, 0] true true false false).toOption.isSome) = some true := by
    decide +kernel
  rw [hl] at ok
  obtain ⟨-, -, h | h⟩ := C60_secured_partial (fo := Example.fo) doc_says shallow loaded (k := 3) rfl hl rfl
    (by simp [Spec.SystemFile.PduContent.Tidy]) (of_decide_eq_true (Option.some.inj hn)) rfl complete rfl applied
    (dc := true) (sc := true) (tr := false) (ex := false)
  · obtain ⟨r, r', a, v, -, h2, h3, -, -, h4, -⟩ := h
    exact ⟨l, r', v, hl, h2, h3, h4⟩
  · rw [Option.map_some, h.1] at ok
    cases ok

end ArxmlFile.Example

end Cantools
