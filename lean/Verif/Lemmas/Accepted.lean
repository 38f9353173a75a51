import Verif.Lemmas.Values

namespace Cantools
open Spec

/-! ### Presence -/

theorem present_congr {sigs sigs' : List Signal} (hmem : ∀ s, s ∈ sigs → s ∈ sigs')
    {sel sel' : String → Option Int} (hsel : ∀ s ∈ sigs, sel s.name = sel' s.name) {s : Signal}
    (h : Present sigs sel s) : Present sigs' sel' s := by
  induction h with
  | root s hs hp => exact .root s (hmem s hs) hp
  | child s p i ids hs hp hm hpar hs' hids hi ih =>
    have hpm : p ∈ sigs := by cases hpar <;> assumption
    exact .child s p i ids (hmem s hs) hp hm ih (by rw [← hsel p hpm]; exact hs') hids hi

theorem _root_.Cantools.Spec.Present.mem {sigs : List Signal} {sel : String → Option Int} {s : Signal}
    (h : Present sigs sel s) : s ∈ sigs := by cases h <;> assumption

theorem hasBranch_congr {sigs sigs' : List Signal} (hmem : ∀ s, s ∈ sigs → s ∈ sigs') {p : Signal}
    {i : Int} (h : HasBranch sigs p i) : HasBranch sigs' p i := by
  rcases h with ⟨s, h1, h2⟩ | h
  · exact .inl ⟨s, hmem s h1, h2⟩
  · exact .inr h

theorem hasBranch_iff {sigs : List Signal} {p : Signal} {i : Int} :
    HasBranch sigs p i ↔ i ∈ childrenIds sigs p := by
  rw [mem_childrenIds]; rfl

theorem childrenIds_ne {sigs : List Signal} {p : Signal} :
    childrenIds sigs p ≠ [] ↔ ∃ i, HasBranch sigs p i := by
  simp only [hasBranch_iff]
  cases childrenIds sigs p with
  | nil => simp
  | cons a r => simp only [ne_eq, reduceCtorEq, not_false_eq_true, true_iff]; exact ⟨a, by simp⟩

theorem validLayout_congr {sigs sigs' : List Signal} (hmem : ∀ s, s ∈ sigs ↔ s ∈ sigs') {L : Nat}
    (h : ValidLayout L sigs) : ValidLayout L sigs' := by
  constructor
  · rintro s ⟨sel, hs⟩
    exact h.1 s ⟨sel, present_congr (fun t ht => (hmem t).2 ht) (fun _ _ => rfl) hs⟩
  · intro sel a b ha hb hab
    exact h.2 sel a b (present_congr (fun t ht => (hmem t).2 ht) (fun _ _ => rfl) ha)
      (present_congr (fun t ht => (hmem t).2 ht) (fun _ _ => rfl) hb) hab

/-! ### Construction -/

theorem bitLength_le {i : Int} {n : Nat} : bitLength i ≤ n ↔ -(2 ^ n) < i ∧ i < 2 ^ n := by
  have key : bitLength i ≤ n ↔ i.natAbs < 2 ^ n := by
    unfold bitLength
    split
    · rename_i h; subst h; simp
    · rename_i h
      have h0 : i.natAbs ≠ 0 := by omega
      rw [Nat.succ_le_iff, Nat.log2_lt h0]
  rw [key]
  zify
  rw [abs_lt]

theorem create_ok_iff {fid : Int} {name : String} {len : Nat} {sigs : List Signal} {pat : UInt8}
    {ext strict : Bool} {sort : SortSignals} {m : Message} :
    Message.create fid name len sigs pat ext strict sort = .ok m ↔
      bitLength fid ≤ (if ext then 29 else 11) ∧ (∀ s ∈ sort.apply sigs, 0 < s.length) ∧
      ∃ c, createCodec (sort.apply sigs) ((sort.apply sigs).length + 1) none none = some c ∧
        (strict = true → ∃ r, checkTree (sort.apply sigs) (List.replicate (8 * len) none)
          (treeOfCodec c) = .ok r) ∧
        m = { frameId := fid, name, length := len, signals := sort.apply sigs,
              unusedBitPattern := pat, isExtendedFrame := ext, codec := c } := by
  unfold Message.create
  have hany : ((sort.apply sigs).any fun s => s.length == 0) = true ↔
      ¬ ∀ s ∈ sort.apply sigs, 0 < s.length := by
    simp only [List.any_eq_true, beq_iff_eq, not_forall]
    constructor
    · rintro ⟨s, h1, h2⟩; exact ⟨s, h1, by omega⟩
    · rintro ⟨s, h1, h2⟩; exact ⟨s, h1, by omega⟩
  by_cases hid : bitLength fid ≤ (if ext then 29 else 11)
  · have hid' : frameIdOk fid ext = true := by simp [frameIdOk, hid]
    simp only [hid', hid, true_and, Bool.true_eq_false, if_false]
    by_cases hz : ∀ s ∈ sort.apply sigs, 0 < s.length
    · have h1 : ¬ ((sort.apply sigs).any fun s => s.length == 0) = true := by
        rw [hany]; exact not_not.2 hz
      rw [if_neg h1]
      simp only [eq_true hz, true_and]
      cases hc : createCodec (sort.apply sigs) ((sort.apply sigs).length + 1) none none with
      | none => simp
      | some c =>
        cases strict with
        | false =>
          simp only [Bool.false_eq_true, if_false, Except.ok.injEq, Option.some.injEq,
            false_imp_iff, true_and]
          constructor
          · intro h; exact ⟨c, rfl, h.symm⟩
          · rintro ⟨_, rfl, h⟩; exact h.symm
        | true =>
          simp only [if_true, Except.map_eq_ok, Option.some.injEq, forall_const]
          constructor
          · rintro ⟨r, h1, h2⟩; exact ⟨c, rfl, ⟨r, h1⟩, h2.symm⟩
          · rintro ⟨_, rfl, ⟨r, h1⟩, h2⟩; exact ⟨r, h1, h2.symm⟩
    · rw [if_pos (hany.2 hz)]
      simp [hz]
  · have hid' : frameIdOk fid ext = false := by simp [frameIdOk, hid]
    simp [hid', hid]

/-- The layout check accepts exactly the valid layouts. -/
theorem checkTree_iff {sigs : List Signal} {L : Nat} (hnd : (sigs.map (·.name)).Nodup)
    (hpos : ∀ s ∈ sigs, 0 < s.length) {fuel : Nat} {c : Codec}
    (hc : createCodec sigs fuel none none = some c) :
    (∃ r, checkTree sigs (List.replicate (8 * L) none) (treeOfCodec c) = .ok r) ↔
      ValidLayout L sigs := by
  constructor
  · rintro ⟨r, hr⟩
    have key := fun sel => check_sound (L := L) (sel := sel) hnd hpos hc (List.replicate (8 * L) none) r
      (by simp) hr
    constructor
    · rintro s ⟨sel, hs⟩
      exact ((key sel).2.2.1 s (present_iff_reach.1 hs)).1
    · intro sel a b ha hb hab
      exact (key sel).2.2.2 a b (present_iff_reach.1 ha) (present_iff_reach.1 hb) hab
  · rintro ⟨h1, h2⟩
    obtain ⟨r, hr, _⟩ := check_complete (π := []) hnd hpos h1 h2 .nil hc
      (List.replicate (8 * L) none) (by simp) (by
        intro p hp hm
        exfalso
        unfold Marked at hm
        rw [List.getD_eq_getElem?_getD, List.getElem?_replicate] at hm
        split at hm <;> simp at hm)
    exact ⟨r, hr⟩

/-- Everything the codec needs to know about a message. -/
structure Accepted (sigs : List Signal) (m : Message) : Prop where
  nodup : (m.signals.map (·.name)).Nodup
  mem : ∀ s, s ∈ m.signals ↔ s ∈ sigs
  sorted : (m.signals.filter fun s => !(s.byteOrder == .big)).Pairwise
    fun a b => a.start ≤ b.start
  pos : ∀ s ∈ m.signals, 0 < s.length
  valid : ValidLayout m.length m.signals
  codec : ∃ fuel, createCodec m.signals fuel none none = some m.codec

theorem default_perm (sigs : List Signal) : (SortSignals.default.apply sigs).Perm sigs :=
  sortedBy_perm _ _

theorem accepted_of_create {fid : Int} {name : String} {len : Nat} {sigs : List Signal}
    {pat : UInt8} {ext : Bool} {m : Message} (hnd : (sigs.map (·.name)).Nodup)
    (h : Message.create fid name len sigs pat ext true .default = .ok m) :
    Accepted sigs m ∧ m.length = len ∧ m.unusedBitPattern = pat := by
  obtain ⟨_, hpos, c, hc, hchk, rfl⟩ := create_ok_iff.1 h
  have hp := default_perm sigs
  have hnd' : ((SortSignals.default.apply sigs).map (·.name)).Nodup :=
    (hp.map _).nodup_iff.2 hnd
  refine ⟨⟨hnd', fun s => hp.mem_iff, ?_, hpos, ?_, ⟨_, hc⟩⟩, rfl, rfl⟩
  · have := sortedBy_pairwise startBit sigs
    have h2 := this.sublist (List.filter_sublist (p := fun s : Signal => !(s.byteOrder == .big)))
    rw [List.pairwise_iff_forall_sublist] at h2 ⊢
    intro a b hab
    have ha : a ∈ ((SortSignals.default.apply sigs).filter fun s => !(s.byteOrder == .big)) :=
      hab.subset (by simp)
    have hb : b ∈ ((SortSignals.default.apply sigs).filter fun s => !(s.byteOrder == .big)) :=
      hab.subset (by simp)
    have little : ∀ s : Signal, (!(s.byteOrder == .big)) = true → startBit s = s.start := by
      intro s hs
      apply startBit_little
      cases hbo : s.byteOrder with
      | big => rw [hbo] at hs; simp at hs
      | little => rfl
    have := h2 hab
    rw [little a (List.mem_filter.1 ha).2, little b (List.mem_filter.1 hb).2] at this
    exact this
  · exact (checkTree_iff hnd' hpos hc).1 (hchk rfl)

theorem Accepted.allOK {sigs : List Signal} {m : Message} (h : Accepted sigs m)
    {sel : String → Option Int} {all : List Signal} (hall : ∀ s ∈ all, Present m.signals sel s) :
    AllOK m.length m.signals all :=
  ⟨h.nodup, h.sorted, fun s hs => h.pos s (hall s hs).mem, fun s hs => h.valid.1 s ⟨sel, hall s hs⟩,
    fun a ha b hb hab => h.valid.2 sel a b (hall a ha) (hall b hb) hab⟩

/-! ### Encoding -/

theorem find?_mem_name {sigs : List Signal} {n : String} {s : Signal}
    (h : sigs.find? (fun t => t.name == n) = some s) : s ∈ sigs ∧ s.name = n :=
  ⟨List.mem_of_find?_eq_some h, by simpa using List.find?_some h⟩

theorem requested_eq {sigs : List Signal} (hnd : (sigs.map (·.name)).Nodup) {s : Signal}
    (hs : s ∈ sigs) (data : List (String × Value)) :
    requested sigs data s.name = (dictGet? data s.name).bind (selectorNumber s) := by
  unfold requested
  rw [find?_name hnd hs]
  cases dictGet? data s.name <;> rfl

theorem encSel_eq {sigs : List Signal} (hnd : (sigs.map (·.name)).Nodup) {s : Signal}
    (hs : s ∈ sigs) (hb : Built s.conversion) (data : List (String × Value)) :
    encSel sigs data s.name = (dictGet? data s.name).bind (selectorNumber s) := by
  unfold encSel
  cases hv : dictGet? data s.name with
  | some v => exact getMuxNumber_eq hnd hs hb hv
  | none => unfold getMuxNumber; rw [hv]; rfl

theorem Accepted.nodup' {sigs : List Signal} {m : Message} (h : Accepted sigs m) :
    ∀ a ∈ sigs, ∀ b ∈ sigs, a.name = b.name → a = b :=
  fun a ha b hb hab => name_inj h.nodup ((h.mem a).2 ha) ((h.mem b).2 hb) hab

theorem Accepted.encSel {sigs : List Signal} {m : Message} (h : Accepted sigs m)
    (hnd : (sigs.map (·.name)).Nodup)
    (hb : ∀ s ∈ sigs, Built s.conversion) (data : List (String × Value)) {s : Signal}
    (hs : s ∈ sigs) : encSel m.signals data s.name = requested sigs data s.name := by
  rw [encSel_eq h.nodup ((h.mem s).2 hs) (hb s hs), requested_eq hnd hs]

theorem Accepted.present {sigs : List Signal} {m : Message} (h : Accepted sigs m)
    {sel sel' : String → Option Int} (hsel : ∀ s ∈ sigs, sel s.name = sel' s.name) {s : Signal} :
    Present m.signals sel s ↔ Present sigs sel' s :=
  ⟨fun hp => present_congr (fun t ht => (h.mem t).1 ht) (fun t ht => hsel t ((h.mem t).1 ht)) hp,
   fun hp => present_congr (fun t ht => (h.mem t).2 ht) (fun t ht => (hsel t ht).symm) hp⟩

/-- Selection without skipping: the selectors all have branches. -/
theorem Accepted.selNode {sigs : List Signal} {m : Message} (h : Accepted sigs m)
    {sel sel' : String → Option Int} (hsel : ∀ s ∈ sigs, sel s.name = sel' s.name) :
    (∀ all, selNode (fun _ => false) sel m.codec = some all →
      (∀ s, s ∈ all ↔ Present sigs sel' s) ∧ Selectable sigs sel') ∧
    (Selectable sigs sel' → ∃ all, Cantools.selNode (fun _ => false) sel m.codec = some all ∧
      ∀ s, s ∈ all ↔ Present sigs sel' s) := by
  obtain ⟨fuel, hc⟩ := h.codec
  have hspec := selNode_spec (skip := fun _ => false) (sel := sel) hc
  have hp : ∀ s, Reach m.signals sel none none s ↔ Present sigs sel' s := fun s => by
    rw [← present_iff_reach]; exact h.present hsel
  have hbr : ∀ p i, HasBranch sigs p i ↔ i ∈ childrenIds m.signals p := by
    intro p i
    rw [← hasBranch_iff]
    exact ⟨hasBranch_congr fun t ht => (h.mem t).2 ht, hasBranch_congr fun t ht => (h.mem t).1 ht⟩
  have hne : ∀ p, (∃ i, HasBranch sigs p i) ↔ childrenIds m.signals p ≠ [] := by
    intro p
    rw [childrenIds_ne]
    simp only [hbr, hasBranch_iff]
  have key1 : ∀ all, Cantools.selNode (fun _ => false) sel m.codec = some all →
      (∀ s, s ∈ all ↔ Present sigs sel' s) ∧ Selectable sigs sel' := by
    intro all hall
    obtain ⟨h1, h2⟩ := hspec.1 all hall
    refine ⟨fun s => (h1 s).trans (hp s), ?_⟩
    intro p hpp hm hi
    have := h2 p ((hp p).2 hpp) hm ((hne p).1 hi)
    cases hs : sel p.name with
    | none => rw [hs] at this; simp at this
    | some i =>
      rw [hs] at this
      exact ⟨i, by rw [← hsel p hpp.mem, hs], (hbr p i).2 this⟩
  refine ⟨key1, ?_⟩
  intro hsl
  have : SelectorsOk m.signals (fun _ => false) sel none none := by
    intro p hpr hm hch
    have hpp := (hp p).1 hpr
    obtain ⟨i, h1, h2⟩ := hsl p hpp hm ((hne p).2 hch)
    rw [hsel p hpp.mem, h1]
    exact (hbr p i).1 h2
  obtain ⟨all, hall⟩ := Option.isSome_iff_exists.1 (hspec.2 this)
  exact ⟨all, hall, (key1 all hall).1⟩

theorem toBytesBig_ok {v n : Nat} {b : Bytes} :
    toBytesBig v n = .ok b ↔ v < 256 ^ n ∧ b = bytesBig v n := by
  unfold toBytesBig
  split
  · rename_i h; simp [h, eq_comm]
  · rename_i h; simp [h]

theorem payloadBit_bytesBig {e L p : Nat} (hp : p < 8 * L) :
    payloadBit (bytesBig e L) p = atPos L e p := by
  unfold payloadBit atPos net
  rw [bytesBig_testBit _ _ _ _ (by omega) (Nat.mod_lt _ (by omega))]
  congr 1
  omega

theorem atPos_or (L a b p : Nat) : atPos L (a ||| b) p = (atPos L a p || atPos L b p) := by
  simp [atPos]

theorem atPos_and (L a b p : Nat) : atPos L (a &&& b) p = (atPos L a p && atPos L b p) := by
  simp [atPos]

theorem atPos_pattern {L p : Nat} (hp : p < 8 * L) (pat : UInt8) :
    atPos L (fromBytesBig (List.replicate L pat)) p = pat.toNat.testBit (p % 8) := by
  unfold atPos net
  rw [fromBytesBig_testBit]
  simp only [List.length_replicate]
  have h1 : 8 * L - 1 - (8 * (p / 8) + (7 - p % 8)) < 8 * L := by omega
  have h2 : (8 * L - 1 - (8 * (p / 8) + (7 - p % 8))) % 8 = p % 8 := by omega
  have h3 : L - 1 - (8 * L - 1 - (8 * (p / 8) + (7 - p % 8))) / 8 < L := by omega
  rw [h2, List.getD_eq_getElem?_getD, List.getElem?_replicate, if_pos h3]
  simp [h1]

theorem encodeRaw_ok {fo : FloatOps} {sigs : List Signal} {m : Message} {scaling padding : Bool}
    {data : List (String × Value)} {payload : Bytes} (h : Accepted sigs m)
    (hnd : (sigs.map (·.name)).Nodup)
    (hb : ∀ s ∈ sigs, Built s.conversion) (he : encodeRaw fo m data scaling padding = .ok payload) :
    payload.length = m.length ∧ Selectable sigs (requested sigs data) ∧
    (∀ s, Present sigs (requested sigs data) s → EncOk fo data scaling s ∧
      ∃ v r, dictGet? data s.name = some v ∧ RawOf s scaling v r ∧ Carries fo s payload r) ∧
    (∀ p, p < 8 * m.length → (∀ s, Present sigs (requested sigs data) s → ¬ Occupies s p) →
      payloadBit payload p = (padding && m.unusedBitPattern.toNat.testBit (p % 8))) := by
  simp only [encodeRaw, Except.bind_eq_ok] at he
  obtain ⟨⟨e, mask, all⟩, hen, he⟩ := he
  simp only at he
  obtain ⟨fuel, hc⟩ := h.codec
  have hsel := encodeNode_sel _ _ hen
  simp only at hsel
  obtain ⟨hall, hselok⟩ := (h.selNode (fun s hs => h.encSel hnd hb data hs)).1 all hsel
  have hallp : ∀ s ∈ all, Present m.signals (encSel m.signals data) s := fun s hs =>
    (h.present (fun s hs => h.encSel hnd hb data hs)).2 ((hall s).1 hs)
  have hok := h.allOK hallp
  obtain ⟨k1, k2, k3, k4, k5⟩ := encodeNode_means _ _ (createCodec_WF hc) hen hok
  simp only at k1 k2 k3 k4 k5
  -- the payload
  have hpay : payload = bytesBig (if padding = true then e ||| (mask &&& fromBytesBig
      (List.replicate m.length m.unusedBitPattern)) else e) m.length := by
    exact (toBytesBig_ok.1 he).2
  have hbit : ∀ p, p < 8 * m.length → payloadBit payload p =
      (atPos m.length e p || (padding && (atPos m.length mask p &&
        m.unusedBitPattern.toNat.testBit (p % 8)))) := by
    intro p hp
    rw [hpay, payloadBit_bytesBig hp]
    cases padding with
    | true => simp only [if_true, atPos_or, atPos_and, atPos_pattern hp, Bool.true_and]
    | false => simp
  refine ⟨by rw [hpay, bytesBig_length], hselok, ?_, ?_⟩
  · intro s hs
    have hsall := (hall s).2 hs
    refine ⟨k1 s hsall, encBit_spec (hb s hs.mem) (k1 s hsall) ?_⟩
    intro j hj
    have hocc : Occupies s (bitPos s j) := ⟨j, hj, rfl⟩
    have hp := hok.fits s hsall _ hocc
    rw [hbit _ hp]
    have hm : atPos m.length mask (bitPos s j) = false := by
      rw [← Bool.not_eq_true, k5 _ hp]
      intro hc'; exact hc' s hsall hocc
    rw [hm]
    simp only [Bool.false_and, Bool.and_false, Bool.or_false]
    rw [Bool.eq_iff_iff, k4 _ hp]
    constructor
    · rintro ⟨t, ht, j', hj', hpos', hbit'⟩
      have : t = s := by
        by_contra hne
        exact hok.disj t ht s hsall hne _ ⟨j', hj', hpos'⟩ hocc
      subst this
      rw [← bitPos_inj hj' hj hpos']; exact hbit'
    · intro hbit'; exact ⟨s, hsall, j, hj, rfl, hbit'⟩
  · intro p hp hfree
    rw [hbit p hp]
    have hm : atPos m.length mask p = true := (k5 p hp).2 fun s hs => hfree s ((hall s).1 hs)
    have he0 : atPos m.length e p = false := by
      rw [← Bool.not_eq_true, k4 p hp]
      rintro ⟨t, ht, j', hj', hpos', _⟩
      exact hfree t ((hall t).1 ht) ⟨j', hj', hpos'⟩
    rw [hm, he0]; simp

theorem encodeRaw_exists {fo : FloatOps} {sigs : List Signal} {m : Message}
    {scaling padding : Bool} {data : List (String × Value)} (h : Accepted sigs m)
    (hnd : (sigs.map (·.name)).Nodup)
    (hb : ∀ s ∈ sigs, Built s.conversion) (hsel : Selectable sigs (requested sigs data))
    (henc : ∀ s, Present sigs (requested sigs data) s → EncOk fo data scaling s) :
    ∃ payload, encodeRaw fo m data scaling padding = .ok payload := by
  obtain ⟨fuel, hc⟩ := h.codec
  obtain ⟨all, hall, hmem⟩ := (h.selNode (fun s hs => h.encSel hnd hb data hs)).2 hsel
  have hallp : ∀ s ∈ all, Present m.signals (encSel m.signals data) s := fun s hs =>
    (h.present (fun s hs => h.encSel hnd hb data hs)).2 ((hmem s).1 hs)
  have hok := h.allOK hallp
  obtain ⟨⟨e, mask, all'⟩, hen⟩ := encodeNode_exists (fo := fo) (scaling := scaling) _ _
    (createCodec_WF hc) hall hok (fun s hs => henc s ((hmem s).1 hs))
  have hsel' := encodeNode_sel _ _ hen
  rw [hall] at hsel'; cases hsel'
  obtain ⟨k1, k2, k3, _⟩ := encodeNode_means _ _ (createCodec_WF hc) hen hok
  simp only at k2 k3
  have h256 : 256 ^ m.length = 2 ^ (8 * m.length) := by
    rw [Nat.pow_mul]
  simp only [encodeRaw, Except.bind_eq_ok]
  refine ⟨_, _, hen, toBytesBig_ok.2 ⟨?_, rfl⟩⟩
  rw [h256]
  split
  · exact Nat.or_lt_two_pow k2 (Nat.lt_of_le_of_lt Nat.and_le_left k3)
  · exact k2

end Cantools
