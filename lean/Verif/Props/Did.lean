import Verif.Lemmas.Did
import Verif.Props.Example

/-
C25: diagnostic identifiers.
-/

namespace Cantools
open Spec

/-! ### The properties -/

/-- C25: whatever the layout of a DID, encoding gives exactly `length` bytes if it gives
anything. -/
theorem C25_encode_length {fo : FloatOps} {d : Did} {data : List (String × Value)} {scaling : Bool}
    {b : Bytes} (h : d.encode fo data scaling = .ok b) : b.length = d.length := by
  simp only [Did.encode, Except.bind_eq_ok, Except.pure_eq_ok] at h
  obtain ⟨e, he, bytes, hb, rfl⟩ := h
  have h1 := unhexlify_length hb
  have h2 := hexDigits_length (2 * d.length + 1) (e ||| (0x80 <<< (8 * d.length))) (by
    refine le_trans ?_ Nat.right_le_or
    rw [Nat.shiftLeft_eq, pow_succ, pow_mul, pow_mul]
    have : 0 < (2 ^ 8) ^ d.length := by positivity
    norm_num at *
    omega)
  rw [List.length_drop] at h1
  rw [List.length_take]
  omega

/-- C25: encoding a DID succeeds exactly if every field has a value with a representable raw
number. -/
theorem C25_encode_succeeds_iff {fo : FloatOps} {d : Did} (hl : DidLayout d)
    (hb : ∀ x ∈ d.datas, Built x.conversion) {data : List (String × Value)} {scaling : Bool} :
    (∃ b, d.encode fo data scaling = .ok b) ↔ ∀ x ∈ d.datas, ∃ v r,
      dictGet? data x.name = some v ∧ RawOf x.toSignal scaling v r ∧
        Representable fo x.toSignal r := by
  have hbs : ∀ s ∈ d.signals, Built s.conversion := by
    intro s hs; obtain ⟨x, hx, rfl⟩ := mem_signals.1 hs; exact hb x hx
  simp only [encode_eq hl]
  constructor
  · rintro ⟨b, he⟩ x hx
    have hm := mem_signals.2 ⟨x, hx, rfl⟩
    exact (encOk_iff (hb x hx)).1
      ((encodeRaw_ok hl.accepted hl.nodeOK.nodup hbs he).2.2.1 _ (present_did.2 hm)).1
  · intro h
    refine encodeRaw_exists hl.accepted hl.nodeOK.nodup hbs (selectable_did _) fun s hs => ?_
    obtain ⟨x, hx, rfl⟩ := mem_signals.1 (present_did.1 hs)
    exact (encOk_iff (hb x hx)).2 (h x hx)

/-- C25: in an encoded DID every field carries the raw number of its value at its documented bit
positions, and all other bits are 0. -/
theorem C25_encode_bit_exact {fo : FloatOps} {d : Did} (hl : DidLayout d)
    (hb : ∀ x ∈ d.datas, Built x.conversion) {data : List (String × Value)} {scaling : Bool}
    {b : Bytes} (he : d.encode fo data scaling = .ok b) :
    (∀ x ∈ d.datas, ∃ v r, dictGet? data x.name = some v ∧ RawOf x.toSignal scaling v r ∧
      Carries fo x.toSignal b r) ∧
    ∀ p, p < 8 * d.length → (∀ x ∈ d.datas, ¬ Occupies x.toSignal p) → payloadBit b p = false := by
  have hbs : ∀ s ∈ d.signals, Built s.conversion := by
    intro s hs; obtain ⟨x, hx, rfl⟩ := mem_signals.1 hs; exact hb x hx
  rw [encode_eq hl] at he
  obtain ⟨h1, h2, h3, h4⟩ := encodeRaw_ok hl.accepted hl.nodeOK.nodup hbs he
  constructor
  · intro x hx
    exact (h3 _ (present_did.2 (mem_signals.2 ⟨x, hx, rfl⟩))).2
  · intro p hp hfree
    rw [h4 p hp fun s hs => ?_]; rfl
    obtain ⟨x, hx, rfl⟩ := mem_signals.1 (present_did.1 hs)
    exact hfree x hx

/-- C25: decoding an encoded DID (possibly followed by more bytes) returns exactly its fields, each
as the value shown for the raw number that was encoded; for all options. -/
theorem C25_round_trip {fo : FloatOps} {d : Did} (hl : DidLayout d)
    (hb : ∀ x ∈ d.datas, Built x.conversion)
    (hpt : ∀ x ∈ d.datas, x.conversion.isFloat = true → x.conversion.choices = none)
    {data : List (String × Value)} {scaling : Bool} {b : Bytes}
    (he : d.encode fo data scaling = .ok b) (more : Bytes)
    {decodeChoices scaling' truncated excess : Bool} :
    ∃ r, d.decode fo (b ++ more) decodeChoices scaling' truncated excess = .ok r ∧
      (r.map (·.1)).Nodup ∧
      ∀ n v', dictGet? r n = some v' ↔ ∃ x ∈ d.datas, ∃ v raw raw', x.name = n ∧
        dictGet? data n = some v ∧ RawOf x.toSignal scaling v raw ∧
        Stored fo x.toSignal raw raw' ∧ v' = shown x.toSignal decodeChoices scaling' raw' := by
  have hbs : ∀ s ∈ d.signals, Built s.conversion := by
    intro s hs; obtain ⟨x, hx, rfl⟩ := mem_signals.1 hs; exact hb x hx
  have hps : ∀ s ∈ d.signals, PlainTable s := by
    intro s hs; obtain ⟨x, hx, rfl⟩ := mem_signals.1 hs; exact hpt x hx
  have hlen := C25_encode_length he
  rw [decode_eq, List.take_left' hlen]
  rw [encode_eq hl] at he
  obtain ⟨r, h1, h2, h3⟩ := hl.accepted.round_trip (dc := decodeChoices) (sc' := scaling')
    (tr := truncated) (ex := excess) hl.nodeOK.nodup hbs hps he (by
      intro p v raw raw' hp hm
      obtain ⟨x, _, rfl⟩ := mem_signals.1 (present_did.1 hp)
      cases hm)
  refine ⟨r, h1, h2, fun n v' => ?_⟩
  rw [h3]
  constructor
  · rintro ⟨s, v, raw, raw', hs, h⟩
    obtain ⟨x, hx, rfl⟩ := mem_signals.1 (present_did.1 hs)
    exact ⟨x, hx, v, raw, raw', h⟩
  · rintro ⟨x, hx, v, raw, raw', h⟩
    exact ⟨_, v, raw, raw', present_did.2 (mem_signals.2 ⟨x, hx, rfl⟩), h⟩

/-- C25 for raw integers: what was encoded is what is decoded. -/
theorem C25_raw_round_trip {fo : FloatOps} {d : Did} (hl : DidLayout d)
    (hb : ∀ x ∈ d.datas, Built x.conversion) (hfl : ∀ x ∈ d.datas, x.conversion.isFloat = false)
    {data : List (String × Value)} (hint : ∀ n v, dictGet? data n = some v → ∃ i : Int, v = .num i)
    {b : Bytes} (he : d.encode fo data false = .ok b) (more : Bytes) {truncated excess : Bool} :
    ∃ r, d.decode fo (b ++ more) false false truncated excess = .ok r ∧ (r.map (·.1)).Nodup ∧
      ∀ n v, dictGet? r n = some v ↔ dictGet? data n = some v ∧ ∃ x ∈ d.datas, x.name = n := by
  obtain ⟨r, h1, h2, h3⟩ := C25_round_trip hl hb (fun x hx h => by rw [hfl x hx] at h; cases h) he more
    (decodeChoices := false) (scaling' := false) (truncated := truncated) (excess := excess)
  have hshown : ∀ (s : Signal) (r : Rat), shown s false false r = .num r := by
    intro s r; unfold shown; simp
  have hraw : ∀ (x : Data) (i : Int) (r r' : Rat), x ∈ d.datas → RawOf x.toSignal false (.num i) r →
      Stored fo x.toSignal r r' → r' = i := by
    intro x i r r' hx hr hst
    obtain ⟨_, y, hy, h⟩ := hr
    have hf : x.toSignal.conversion.isFloat = false := hfl x hx
    rw [hf] at h
    obtain ⟨j, hj, hne⟩ := h
    simp only [Bool.false_eq_true, if_false] at hy
    rw [hy] at hne
    have := pyRound_iff.2 hne
    rw [pyRound_int] at this
    unfold Stored at hst
    rw [hf] at hst
    simp only [Bool.false_eq_true, if_false] at hst
    rw [hst, hj, ← this]
  refine ⟨r, h1, h2, fun n v => ?_⟩
  rw [h3]
  constructor
  · rintro ⟨x, hx, v0, raw, raw', hn, hv, hr, hst, rfl⟩
    obtain ⟨i, rfl⟩ := hint n v0 hv
    rw [hshown, hraw x i raw raw' hx hr hst]
    exact ⟨hv, x, hx, hn⟩
  · rintro ⟨hv, x, hx, hn⟩
    obtain ⟨v0, r0, hv0, hr0, hc⟩ := (C25_encode_bit_exact hl hb he).1 x hx
    rw [hn, hv] at hv0
    cases hv0
    obtain ⟨i, rfl⟩ := hint n v hv
    have hst : Stored fo x.toSignal r0 r0 := by
      unfold Stored
      have hf : x.toSignal.conversion.isFloat = false := hfl x hx
      rw [hf]; simp
    refine ⟨x, hx, _, r0, r0, hn, hv, hr0, hst, ?_⟩
    rw [hshown, hraw x i r0 r0 hx hr0 hst]

/-- C25: decoding any payload that is long enough gives exactly the fields of the DID, each with the
value shown for the number written in its bits. -/
theorem C25_decode_reads_bits {fo : FloatOps} {d : Did} (hl : DidLayout d)
    (hb : ∀ x ∈ d.datas, Built x.conversion)
    (hpt : ∀ x ∈ d.datas, x.conversion.isFloat = true → x.conversion.choices = none)
    {data : Bytes} (hlen : d.length ≤ data.length)
    {decodeChoices scaling truncated excess : Bool} :
    ∃ r, d.decode fo data decodeChoices scaling truncated excess = .ok r ∧ (r.map (·.1)).Nodup ∧
      ∀ n v, dictGet? r n = some v ↔ ∃ x ∈ d.datas, x.name = n ∧
        ∃ raw, RawIn fo x.toSignal data raw ∧ v = shown x.toSignal decodeChoices scaling raw := by
  have hbs : ∀ s ∈ d.signals, Built s.conversion := by
    intro s hs; obtain ⟨x, hx, rfl⟩ := mem_signals.1 hs; exact hb x hx
  have hps : ∀ s ∈ d.signals, PlainTable s := by
    intro s hs; obtain ⟨x, hx, rfl⟩ := mem_signals.1 hs; exact hpt x hx
  have ha := hl.accepted
  have hlen' : (data.take d.length).length = d.length := by rw [List.length_take]; omega
  have hbit : ∀ x ∈ d.datas, ∀ p, Occupies x.toSignal p →
      payloadBit data p = payloadBit (data.take d.length) p := by
    intro x hx p hp
    have := hl.fits x hx p hp
    unfold payloadBit
    congr 2
    rw [List.getD_eq_getElem?_getD, List.getD_eq_getElem?_getD, List.getElem?_take_of_lt (by omega)]
  rw [decode_eq]
  obtain ⟨sel, hsel⟩ := selectorsIn_exists (fo := fo) hl.nodeOK.nodup hl.nodeOK.pos (data.take d.length)
    decodeChoices scaling d.length
  have had := (adjustData_spec (data.take d.length) d.asMessage.length truncated excess).1 hlen'
  have hrec : receivedBytes (data.take d.length).length d.asMessage.length truncated = d.length := by
    unfold receivedBytes
    rw [if_neg]
    · rfl
    · rw [hlen']; exact fun h => absurd h.1 (lt_irrefl _)
  obtain ⟨d1, d2⟩ := ha.decode_ok (fo := fo) hbs hps had (by rw [hrec]; exact hsel)
  obtain ⟨r, hr⟩ := d2 (fun p hp hm => by
    obtain ⟨x, _, rfl⟩ := mem_signals.1 (present_did.1 hp)
    cases hm)
  obtain ⟨k1, _, k3⟩ := d1 r hr
  refine ⟨r, hr, k1, fun n v => ?_⟩
  rw [k3, hrec]
  constructor
  · rintro ⟨s, h1, h2, _, raw, h3, h4⟩
    obtain ⟨x, hx, rfl⟩ := mem_signals.1 (present_did.1 h1)
    exact ⟨x, hx, h2, raw, rawIn_congr (fun p hp => (hbit x hx p hp).symm) h3, h4⟩
  · rintro ⟨x, hx, h2, raw, h3, h4⟩
    exact ⟨_, present_did.2 (mem_signals.2 ⟨x, hx, rfl⟩), h2, hl.fits x hx, raw,
      rawIn_congr (hbit x hx) h3, h4⟩

/-- C25: with `allow_truncated=False` fewer bytes than the length of the DID are rejected. -/
theorem C25_too_short {fo : FloatOps} (d : Did) {data : Bytes} (h : data.length < d.length)
    (decodeChoices scaling excess : Bool) :
    d.decode fo data decodeChoices scaling false excess = .error .decodeError := by
  unfold Did.decode decodeData
  rw [List.take_of_length_le (by omega), (adjustData_spec _ _ _ _).2.1 h]
  rfl

/-! ### CDD layouts -/

/-- C25: the start bit computed for a field of `n` bits at bit offset `o` describes exactly the bits
`o, …, o + n - 1` if and only if the field is little endian, lies within a byte, or is made of whole
bytes. -/
theorem C25_cdd_field_iff (f : CddField) (hn : 0 < f.bitLength) (o : Nat) :
    (∀ p, Occupies (loadDataElement f o).toSignal p ↔ o ≤ p ∧ p < o + f.bitLength) ↔
      Addressable o f.bitLength f.byteOrder := by
  unfold Addressable
  cases hbo : f.byteOrder with
  | little =>
    simp only [true_or, iff_true]
    intro p
    rw [occupies_little (by simpa [loadDataElement, Data.toSignal] using hbo)]
    simp [loadDataElement, Data.toSignal, hbo, cddOffsetToDbcStartBit]
  | big =>
    have hb : (loadDataElement f o).toSignal.byteOrder = .big := by
      simpa [loadDataElement, Data.toSignal] using hbo
    simp only [occupies_big hb, startBit_big hb]
    simp only [loadDataElement, Data.toSignal, hbo, cddOffsetToDbcStartBit, reduceCtorEq, false_or]
    generalize f.bitLength = n at hn
    unfold net
    constructor
    · intro h
      by_contra hc
      have h1 := h o
      have h2 := h (8 * (o / 8))
      have h3 := h (o + n - 1)
      have h4 := h (8 * ((o + n - 1) / 8))
      omega
    · intro h p
      omega

/-- C25: a CDD layout covers `ceil(bits / 8)` bytes. -/
theorem C25_cdd_length (id : Int) (nm : String) (fields : List CddField) :
    let bits := (fields.map (·.bitLength)).sum
    bits ≤ 8 * (loadDidElement id nm fields).length ∧
    8 * (loadDidElement id nm fields).length < bits + 8 := by
  simp only [loadDidElement, loadDatas_snd]; omega

/-- C25 (partial): a CDD layout is a usable layout — no overlaps, everything inside the
`ceil(bits / 8)` bytes — and its fields occupy exactly the consecutive bits of the file.  Missing:
big endian fields that cross a byte boundary without being made of whole bytes, for which the claim
fails (`C25_cdd_overlap`). -/
theorem C25_cdd_layout_partial {id : Int} {nm : String} {fields : List CddField}
    (hnd : (fields.map (·.name)).Nodup) (hpos : ∀ f ∈ fields, 0 < f.bitLength)
    (hadr : ∀ i f, fields[i]? = some f → Addressable (fieldOffset fields i) f.bitLength f.byteOrder) :
    DidLayout (loadDidElement id nm fields) ∧
    ∀ i f, fields[i]? = some f → ∃ x ∈ (loadDidElement id nm fields).datas, x.name = f.name ∧
      ∀ p, Occupies x.toSignal p ↔
        fieldOffset fields i ≤ p ∧ p < fieldOffset fields i + f.bitLength := by
  have hocc : ∀ i f, fields[i]? = some f → ∀ p,
      Occupies (loadDataElement f (fieldOffset fields i)).toSignal p ↔
        fieldOffset fields i ≤ p ∧ p < fieldOffset fields i + f.bitLength := fun i f hf =>
    (C25_cdd_field_iff f (hpos f (List.mem_of_getElem? hf)) _).2 (hadr i f hf)
  have hnames : ∀ (fs : List CddField) (o : Nat), (loadDatas o fs).1.map (·.name) =
      fs.map (·.name) := by
    intro fs
    induction fs with
    | nil => intro o; rfl
    | cons f r ih => intro o; simp [loadDatas, ih, loadDataElement]
  refine ⟨⟨?_, ?_, ?_, ?_, ?_⟩, ?_⟩
  · simp only [loadDidElement, hnames]; exact hnd
  · intro x hx
    obtain ⟨i, f, hf, rfl⟩ := loadDid_mem hx
    exact hpos f (List.mem_of_getElem? hf)
  · intro x hx p hp
    obtain ⟨i, f, hf, rfl⟩ := loadDid_mem hx
    have h1 := (hocc i f hf p).1 hp
    have h2 := (fieldOffset_le fields i f hf).1
    have h3 := (C25_cdd_length id nm fields).1
    omega
  · intro x hx y hy hxy p hpx hpy
    obtain ⟨i, f, hf, rfl⟩ := loadDid_mem hx
    obtain ⟨j, g, hg, rfl⟩ := loadDid_mem hy
    have h1 := (hocc i f hf p).1 hpx
    have h2 := (hocc j g hg p).1 hpy
    rcases Nat.lt_trichotomy i j with h | h | h
    · have := fieldOffset_mono fields (Nat.succ_le_of_lt h)
      rw [Nat.succ_eq_add_one, (fieldOffset_le fields i f hf).2] at this
      omega
    · subst h; rw [hf] at hg; cases hg; exact hxy rfl
    · have := fieldOffset_mono fields (Nat.succ_le_of_lt h)
      rw [Nat.succ_eq_add_one, (fieldOffset_le fields j g hg).2] at this
      omega
  · have hgen : ∀ (fs : List CddField) (o : Nat),
        (∀ x ∈ (loadDatas o fs).1, x.byteOrder = .little → o ≤ x.start) ∧
        (((loadDatas o fs).1.filter fun x => x.byteOrder = .little).Pairwise
          fun x y => x.start ≤ y.start) := by
      intro fs
      induction fs with
      | nil => intro o; exact ⟨by simp [loadDatas], by simp [loadDatas]⟩
      | cons f r ih =>
        intro o
        obtain ⟨h1, h2⟩ := ih (o + f.bitLength)
        have hst : (loadDataElement f o).byteOrder = .little → (loadDataElement f o).start = o := by
          intro h
          have h : f.byteOrder = .little := h
          simp [loadDataElement, h, cddOffsetToDbcStartBit]
        constructor
        · intro x hx hl
          simp only [loadDatas, List.mem_cons] at hx
          rcases hx with rfl | hx
          · rw [hst hl]
          · have := h1 x hx hl; omega
        · simp only [loadDatas, List.filter_cons]
          split
          · rename_i hl
            refine List.pairwise_cons.2 ⟨?_, h2⟩
            intro y hy
            simp only [List.mem_filter, decide_eq_true_eq] at hy
            rw [hst (by simpa using hl)]
            have := h1 y hy.1 hy.2; omega
          · exact h2
    exact (hgen fields 0).2
  · intro i f hf
    refine ⟨loadDataElement f (fieldOffset fields i), ?_, rfl, hocc i f hf⟩
    apply List.mem_iff_getElem?.2
    exact ⟨i, by simp [loadDidElement, loadDatas_get, hf]⟩

/-! ### The hypotheses can be met; claims that fail -/

section
open Example

def exField (n : String) (k : Nat) (o : ByteOrder) : CddField :=
  { name := n, bitLength := k, byteOrder := o, conversion := .factory 1 0 none false }

/-- A 4 bit field, a 12 bit little endian field, a 16 bit big endian field and a 3 bit field. -/
def exFields : List CddField :=
  [exField "A" 4 .big, exField "B" 12 .little, exField "C" 16 .big, exField "D" 3 .big]

def exDid : Did := loadDidElement 0xf00d "Ex" exFields

theorem exFields_addressable : ∀ i f, exFields[i]? = some f →
    Addressable (fieldOffset exFields i) f.bitLength f.byteOrder := by
  intro i f hf
  match i, hf with
  | 0, hf => cases hf; right; left; decide
  | 1, hf => cases hf; left; rfl
  | 2, hf => cases hf; right; right; decide
  | 3, hf => cases hf; right; left; decide
  | n + 4, hf => simp [exFields] at hf

example : DidLayout exDid :=
  (C25_cdd_layout_partial (by decide +kernel) (by decide +kernel) exFields_addressable).1

example : exDid.encode fo [("A", .num 1), ("B", .num 0xabc), ("C", .num 0x1234), ("D", .num 5)] true =
    .ok [0xc1, 0xab, 0x12, 0x34, 0x05] := by decide +kernel

example : exDid.decode fo [0xc1, 0xab, 0x12, 0x34, 0x05, 0x77] true true false true =
    .ok [("A", .num 1), ("B", .num 0xabc), ("C", .num 0x1234), ("D", .num 5)] := by decide +kernel

example : exDid.decode fo [0xc1, 0xab, 0x12, 0x34] true true false true = .error .decodeError :=
  C25_too_short exDid (by decide) true true true

example : ∃ r, exDid.decode fo [0xc1, 0xab, 0x12, 0x34, 0x05, 0x77] true true false true = .ok r ∧
    (r.map (·.1)).Nodup ∧ ∀ n v, dictGet? r n = some v ↔ ∃ x ∈ exDid.datas, x.name = n ∧
      ∃ raw, RawIn fo x.toSignal [0xc1, 0xab, 0x12, 0x34, 0x05, 0x77] raw ∧ v = shown x.toSignal true true raw :=
  C25_decode_reads_bits (C25_cdd_layout_partial (by decide +kernel) (by decide +kernel) exFields_addressable).1
    (by intro x hx; have : x.conversion = .base (.identity false) := by revert x; decide +kernel
        rw [this]; exact ⟨1, 0, none, false, by decide +kernel⟩)
    (by decide +kernel) (by decide)

/-- A big endian byte after a half byte overlaps it: a CDD layout of consecutive fields can overlap,
and what was encoded (without error) cannot be decoded. -/
theorem C25_cdd_overlap :
    ∃ fields : List CddField, (fields.map (·.name)).Nodup ∧ (∀ f ∈ fields, 0 < f.bitLength) ∧
      (∃ x ∈ (loadDidElement 1 "D" fields).datas, ∃ y ∈ (loadDidElement 1 "D" fields).datas,
        x ≠ y ∧ ¬ Disjoint x.toSignal y.toSignal) ∧
      (∃ data b, (loadDidElement 1 "D" fields).encode fo data true = .ok b ∧
        (loadDidElement 1 "D" fields).decode fo b true true false true = .error .decodeError) := by
  let fields := [exField "A" 4 .big, exField "B" 8 .big]
  refine ⟨fields, by decide +kernel, by decide +kernel, ?_, ?_⟩
  · refine ⟨loadDataElement (exField "A" 4 .big) 0, by decide +kernel,
      loadDataElement (exField "B" 8 .big) 4, by decide +kernel, by decide +kernel, ?_⟩
    intro h
    exact h 0 ⟨0, by decide, by decide⟩ ⟨0, by decide, by decide⟩
  · exact ⟨[("A", .num 1), ("B", .num 0x20)], [0x10, 0x00],
      by decide +kernel, by decide +kernel⟩

/-- Little endian fields given in descending order are packed at the wrong places although they do
not overlap: unlike `Message`, `Did` does not sort its fields. -/
theorem C25_descending_order_fails :
    ∃ d : Did, (∀ x ∈ d.datas, ∀ y ∈ d.datas, x ≠ y → Disjoint x.toSignal y.toSignal) ∧
      (∀ x ∈ d.datas, Fits d.length x.toSignal) ∧
      ∃ data b, d.encode fo data true = .ok b ∧ dictGet? data "High" = some (.num 2) ∧
        (∃ x ∈ d.datas, x.name = "High" ∧ ¬ ReadsAs x.toSignal b 2) ∧
        d.decode fo b true true false true = .error .decodeError := by
  refine ⟨⟨1, "D", 2, [⟨"High", 8, 8, .little, .base (.identity false), none, none, none⟩,
    ⟨"Low", 0, 8, .little, .base (.identity false), none, none, none⟩]⟩, ?_, ?_, ?_⟩
  · intro x hx y hy hxy p hpx hpy
    simp only [List.mem_cons, List.not_mem_nil, or_false] at hx hy
    rcases hx with rfl | rfl <;> rcases hy with rfl | rfl
    · exact hxy rfl
    · rw [occupies_little rfl] at hpx hpy; simp [Data.toSignal] at hpx hpy; omega
    · rw [occupies_little rfl] at hpx hpy; simp [Data.toSignal] at hpx hpy; omega
    · exact hxy rfl
  · intro x hx p hp
    simp only [List.mem_cons, List.not_mem_nil, or_false] at hx
    rcases hx with rfl | rfl <;> (rw [occupies_little rfl] at hp; simp [Data.toSignal] at hp; show p < 16; omega)
  · refine ⟨[("High", .num 2), ("Low", .num 1)], ?_⟩
    refine ⟨[1, 0], by decide +kernel, by decide +kernel, ⟨_, .head _, rfl, ?_⟩, by decide +kernel⟩
    intro h
    have := h.2 1 (by decide)
    revert this
    decide +kernel

end

end Cantools
