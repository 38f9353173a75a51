import Verif.Spec.SecOC
import Verif.Lemmas.Crc
import Verif.Lemmas.J1939

/-
Properties of AUTOSAR secure on-board communication: C24.
-/

namespace Cantools
open Spec

theorem wireBit_bitsToBytes (bs : List Bool) (i : Nat) : wireBit (bitsToBytes bs) i = bs.getD i false := by
  unfold wireBit
  rw [bitsToBytes_testBit _ _ _ (by omega)]
  congr 1; omega

theorem bytesToBits_wireBit (b : Bytes) (i : Nat) : (bytesToBits b).getD i false = wireBit b i := bytesToBits_getD b i

theorem wireBit_ge (b : Bytes) (i : Nat) (h : 8 * b.length ≤ i) : wireBit b i = false := by
  unfold wireBit
  rw [List.getD_eq_getElem?_getD, List.getElem?_eq_none (by omega)]
  simp

theorem rawField_length (n : Nat) (b : Bytes) : (rawField n b).length = n := by
  unfold rawField
  rw [List.length_append, List.length_take, List.length_replicate, bytesToBits_length]; omega

theorem rawField_getD (n : Nat) (b : Bytes) (i : Nat) (h : i < n) : (rawField n b).getD i false = wireBit b i := by
  unfold rawField
  by_cases hb : i < 8 * b.length
  · rw [List.getD_eq_getElem?_getD, List.getElem?_append_left (by rw [List.length_take, bytesToBits_length]; omega),
      List.getElem?_take_of_lt h, ← List.getD_eq_getElem?_getD, bytesToBits_wireBit]
  · rw [wireBit_ge b i (by omega), List.getD_eq_getElem?_getD,
      List.getElem?_append_right (by rw [List.length_take, bytesToBits_length]; omega), List.getElem?_replicate]
    split <;> rfl

theorem natBits_getD (n v i : Nat) (h : i < n) : (natBits n v).getD i false = v.testBit (n - 1 - i) := by
  rw [List.getD_eq_getElem?_getD, List.getElem?_eq_getElem (by simpa using h), natBits_getElem]; rfl

theorem getD_append {α : Type} (a b : List α) (d : α) (i : Nat) :
    (a ++ b).getD i d = if i < a.length then a.getD i d else b.getD (i - a.length) d := by
  simp only [List.getD_eq_getElem?_getD, List.getElem?_append]
  split <;> rfl

/-- The data given to the authenticator function. -/
theorem authData_iff (s : SecOCProps) (payload : Bytes) (freshness : Int) (d : Bytes) :
    authData s payload freshness = .ok d ↔
      (0 < s.payloadLength ∧ 0 < s.freshnessBits ∧ s.dataId < 2 ^ 16 ∧ 0 ≤ freshness ∧ freshness < 2 ^ s.freshnessBits) ∧
      IsAuthData s payload freshness.toNat d := by
  unfold authData
  have hspec : IsAuthData s payload freshness.toNat (bitsToBytes (natBits 16 s.dataId ++
      rawField (s.payloadLength * 8) (payload.take s.payloadLength) ++ natBits s.freshnessBits freshness.toNat)) := by
    constructor
    · rw [bitsToBytes_length]; simp only [List.length_append, natBits_length, rawField_length]; congr 1; omega
    · intro i hi
      rw [wireBit_bitsToBytes, getD_append, if_pos (by simp only [List.length_append, natBits_length, rawField_length]; omega),
        getD_append, if_pos (by simpa using hi), natBits_getD _ _ _ hi]
    · intro i hi
      rw [wireBit_bitsToBytes, getD_append, if_pos (by simp only [List.length_append, natBits_length, rawField_length]; omega),
        getD_append, if_neg (by simp), natBits_length, rawField_getD _ _ _ (by omega)]
      congr 1; omega
    · intro i hi
      rw [wireBit_bitsToBytes, getD_append, if_neg (by simp only [List.length_append, natBits_length, rawField_length]; omega)]
      simp only [List.length_append, natBits_length, rawField_length]
      rw [natBits_getD _ _ _ (by omega)]
      congr 1; omega
    · intro i hi
      rw [wireBit_bitsToBytes, List.getD_eq_getElem?_getD, List.getElem?_eq_none]
      · rfl
      · simp only [List.length_append, natBits_length, rawField_length]; omega
  constructor
  · intro h
    split at h
    · cases h
    · split at h
      · cases h
      · cases h
        exact ⟨by omega, hspec⟩
  · rintro ⟨⟨h1, h2, h3, h4, h5⟩, hd⟩
    rw [if_neg (by omega), if_neg (by rintro (h | h | h) <;> omega)]
    congr 1
    apply bytes_eq_of_wireBit
    · rw [hd.length, hspec.length]
    · intro i
      by_cases c1 : i < 16
      · rw [hd.dataId i c1, hspec.dataId i c1]
      · by_cases c2 : i < 16 + 8 * s.payloadLength
        · have := hd.payload (i - 16) (by omega)
          have := hspec.payload (i - 16) (by omega)
          rw [show 16 + (i - 16) = i by omega] at *
          simp_all
        · by_cases c3 : i < 16 + 8 * s.payloadLength + s.freshnessBits
          · have := hd.freshness (i - (16 + 8 * s.payloadLength)) (by omega)
            have := hspec.freshness (i - (16 + 8 * s.payloadLength)) (by omega)
            rw [show 16 + 8 * s.payloadLength + (i - (16 + 8 * s.payloadLength)) = i by omega] at *
            simp_all
          · rw [hd.fill i (by omega), hspec.fill i (by omega)]

theorem packInto_iff (buf : Bytes) (offset : Nat) (bits : List Bool) (hb : bits ≠ []) (r : Bytes) :
    packInto buf offset bits = .ok r ↔ offset + bits.length ≤ 8 * buf.length ∧
      r.length = buf.length ∧ ∀ i, wireBit r i =
        if offset ≤ i ∧ i < offset + bits.length then bits.getD (i - offset) false else wireBit buf i := by
  have hpos : 0 < bits.length := List.length_pos_iff.2 hb
  unfold packInto
  simp only [List.length_append, List.length_take, List.length_drop, bytesToBits_length]
  by_cases hc : offset + bits.length ≤ 8 * buf.length
  · rw [if_neg (by omega)]
    have hlen : (bitsToBytes ((bytesToBits buf).take offset ++ bits ++
        (bytesToBits buf).drop (min offset (8 * buf.length) + bits.length))).length = buf.length := by
      rw [bitsToBytes_length]
      simp only [List.length_append, List.length_take, List.length_drop, bytesToBits_length]
      omega
    have hbit : ∀ i, wireBit (bitsToBytes ((bytesToBits buf).take offset ++ bits ++
        (bytesToBits buf).drop (min offset (8 * buf.length) + bits.length))) i =
        if offset ≤ i ∧ i < offset + bits.length then bits.getD (i - offset) false else wireBit buf i := by
      intro i
      have hm : min offset (8 * buf.length) = offset := by omega
      rw [wireBit_bitsToBytes, getD_append, getD_append]
      simp only [List.length_append, List.length_take, bytesToBits_length, hm]
      by_cases c1 : i < offset
      · rw [if_pos (by omega), if_pos c1, if_neg (by omega), List.getD_eq_getElem?_getD, List.getElem?_take_of_lt c1,
          ← List.getD_eq_getElem?_getD, bytesToBits_wireBit]
      · by_cases c2 : i < offset + bits.length
        · rw [if_pos c2, if_neg c1, if_pos (by omega)]
        · rw [if_neg c2, if_neg (by omega), List.getD_eq_getElem?_getD, List.getElem?_drop,
            ← List.getD_eq_getElem?_getD, bytesToBits_wireBit]
          congr 1; omega
    constructor
    · intro h
      cases h
      exact ⟨hc, hlen, hbit⟩
    · rintro ⟨_, h1, h2⟩
      congr 1
      apply bytes_eq_of_wireBit (by rw [hlen, h1])
      intro i
      rw [hbit, h2]
  · rw [if_pos (by omega)]
    simp [hc]

theorem mod_two_pow_testBit (f : Int) (hf : 0 ≤ f) (n k : Nat) (hk : k < n) :
    (f % 2 ^ n).toNat.testBit k = f.toNat.testBit k := by
  obtain ⟨m, rfl⟩ := Int.eq_ofNat_of_zero_le hf
  have : (((m : Int) % 2 ^ n).toNat) = m % 2 ^ n := by
    rw [show ((2 : Int) ^ n) = ((2 ^ n : Nat) : Int) by push_cast; rfl, ← Int.natCast_emod]; rfl
  rw [this, Int.toNat_natCast, Nat.testBit_mod_two_pow]
  simp [hk]

/-- C24: `apply_authenticator` of a secured message succeeds exactly if settings and freshness value are
usable; the result has the trailer with the freshness value and the authenticator computed from data id,
payload and freshness value, and is otherwise unchanged. -/
theorem C24_apply_iff (s : SecOCProps) (auth : Bytes → Int → Bytes) (frame : Bytes) (f : Int) (r : Bytes) :
    applyAuthenticator (some s) auth frame f = .ok r ↔
      Usable s f frame.length ∧ r.length = frame.length ∧
      ∃ d, IsAuthData s frame f.toNat d ∧ HasTrailer s f.toNat (auth d f) r ∧
        ∀ i, i < 8 * s.payloadLength ∨ 8 * s.payloadLength + s.freshnessTxBits + s.authTxBits ≤ i →
          wireBit r i = wireBit frame i := by
  unfold applyAuthenticator computeAuthenticator
  simp only
  cases hd : authData s frame f with
  | error e =>
    simp only [reduceCtorEq, false_iff]
    rintro ⟨hu, _, d, hd', _⟩
    have := (authData_iff s frame f d).2 ⟨⟨hu.payload, hu.freshBits, hu.dataId, hu.nonneg, hu.fresh⟩, hd'⟩
    rw [hd] at this
    cases this
  | ok d =>
    obtain ⟨⟨h1, h2, h3, h4, h5⟩, hs⟩ := (authData_iff s frame f d).1 hd
    have huniq : ∀ d', IsAuthData s frame f.toNat d' → d' = d := by
      intro d' hd'
      have := (authData_iff s frame f d').2 ⟨⟨h1, h2, h3, h4, h5⟩, hd'⟩
      rw [hd] at this
      cases this
      rfl
    simp only
    by_cases h0 : s.freshnessTxBits = 0 ∨ s.authTxBits = 0
    · rw [if_pos h0]
      simp only [reduceCtorEq, false_iff]
      rintro ⟨hu, _⟩
      have := hu.txBits; have := hu.authBits
      omega
    · rw [if_neg h0]
      have hlen : (natBits s.freshnessTxBits (f % 2 ^ s.freshnessTxBits).toNat ++ rawField s.authTxBits (auth d f)).length =
          s.freshnessTxBits + s.authTxBits := by
        rw [List.length_append, natBits_length, rawField_length]
      rw [packInto_iff _ _ _ (by intro hc; rw [hc] at hlen; simp at hlen; omega), hlen]
      have hbits : ∀ i, i < s.freshnessTxBits + s.authTxBits →
          (natBits s.freshnessTxBits (f % 2 ^ s.freshnessTxBits).toNat ++ rawField s.authTxBits (auth d f)).getD i false =
          if i < s.freshnessTxBits then f.toNat.testBit (s.freshnessTxBits - 1 - i) else wireBit (auth d f) (i - s.freshnessTxBits) := by
        intro i hi
        rw [getD_append, natBits_length]
        split
        · rename_i c
          rw [natBits_getD _ _ _ c, mod_two_pow_testBit f h4 _ _ (by omega)]
        · rw [rawField_getD _ _ _ (by omega)]
      constructor
      · rintro ⟨c1, c2, c3⟩
        refine ⟨⟨h1, h3, h2, by omega, by omega, h4, h5, by omega⟩, c2, d, hs, ⟨?_, ?_⟩, ?_⟩
        · intro i hi
          rw [c3, if_pos (by omega), hbits _ (by omega), if_pos (by omega)]
          congr 1; omega
        · intro i hi
          rw [c3, if_pos (by omega), hbits _ (by omega), if_neg (by omega)]
          congr 1; omega
        · intro i hi
          rw [c3, if_neg (by omega)]
      · rintro ⟨hu, c2, d', hd', ht, ho⟩
        obtain rfl := huniq d' hd'
        refine ⟨by have := hu.fits; omega, c2, ?_⟩
        intro i
        split
        · rename_i hi
          rw [hbits _ (by omega)]
          split
          · rename_i c
            have := ht.freshness (i - s.payloadLength * 8) c
            rwa [show 8 * s.payloadLength + (i - s.payloadLength * 8) = i by omega] at this
          · rename_i c
            have := ht.authenticator (i - s.payloadLength * 8 - s.freshnessTxBits) (by omega)
            rwa [show 8 * s.payloadLength + s.freshnessTxBits + (i - s.payloadLength * 8 - s.freshnessTxBits) = i by omega] at this
        · exact ho i (by omega)

/-- C24: `verify_authenticator` accepts a frame exactly if its trailer is the one computed from its
payload. -/
theorem C24_verify_iff (s : SecOCProps) (auth : Bytes → Int → Bytes) (frame : Bytes) (f : Int) :
    verifyAuthenticator (some s) auth frame f = .ok true ↔
      Usable s f frame.length ∧ ∃ d, IsAuthData s frame f.toNat d ∧ HasTrailer s f.toNat (auth d f) frame := by
  have h1 : verifyAuthenticator (some s) auth frame f = .ok true ↔ applyAuthenticator (some s) auth frame f = .ok frame := by
    unfold verifyAuthenticator
    split
    · rename_i h; simp [h]
    · rename_i tmp h
      rw [h, Except.ok.injEq, Except.ok.injEq, beq_iff_eq]
      exact eq_comm
  rw [h1, C24_apply_iff]
  constructor
  · rintro ⟨hu, _, d, hd, ht, _⟩
    exact ⟨hu, d, hd, ht⟩
  · rintro ⟨hu, d, hd, ht⟩
    exact ⟨hu, rfl, d, hd, ht, fun _ _ => rfl⟩

/-- C24: with usable settings `verify_authenticator` gives an answer. -/
theorem C24_verify_total (s : SecOCProps) (auth : Bytes → Int → Bytes) (frame : Bytes) (f : Int)
    (hu : Usable s f frame.length) : ∃ b, verifyAuthenticator (some s) auth frame f = .ok b := by
  unfold verifyAuthenticator
  cases h : applyAuthenticator (some s) auth frame f with
  | ok r => exact ⟨_, rfl⟩
  | error e =>
    exfalso
    unfold applyAuthenticator computeAuthenticator authData packInto at h
    have := hu.payload; have := hu.freshBits; have := hu.dataId; have := hu.nonneg; have := hu.fresh
    have := hu.txBits; have := hu.authBits; have := hu.fits
    simp only at h
    rw [if_neg (by omega), if_neg (by rintro (h | h | h) <;> omega)] at h
    simp only at h
    rw [if_neg (by omega), if_neg] at h
    · cases h
    · simp only [List.length_append, List.length_take, List.length_drop, bytesToBits_length, natBits_length, rawField_length]
      omega

/-- The payload determines the authenticated data. -/
theorem isAuthData_congr {s : SecOCProps} {p q : Bytes} {f : Nat} {d : Bytes}
    (h : ∀ i, i < 8 * s.payloadLength → wireBit p i = wireBit q i) (hd : IsAuthData s p f d) : IsAuthData s q f d := by
  refine ⟨hd.length, hd.dataId, ?_, hd.freshness, hd.fill⟩
  intro i hi
  rw [hd.payload i hi]
  have e : ∀ x : Bytes, wireBit (x.take s.payloadLength) i = wireBit x i := by
    intro x
    unfold wireBit
    rw [List.getD_eq_getElem?_getD, List.getD_eq_getElem?_getD, List.getElem?_take_of_lt (by omega)]
  rw [e, e, h i hi]

/-- C24: what `apply_authenticator` returned is accepted with the same freshness value. -/
theorem C24_applied_verifies (s : SecOCProps) (auth : Bytes → Int → Bytes) (frame : Bytes) (f : Int) (r : Bytes)
    (h : applyAuthenticator (some s) auth frame f = .ok r) : verifyAuthenticator (some s) auth r f = .ok true := by
  obtain ⟨hu, hl, d, hd, ht, ho⟩ := (C24_apply_iff s auth frame f r).1 h
  rw [C24_verify_iff, hl]
  exact ⟨hu, d, isAuthData_congr (fun i hi => (ho i (.inl hi)).symm) hd, ht⟩

/-- C24: applying twice is applying once. -/
theorem C24_apply_idempotent (s : SecOCProps) (auth : Bytes → Int → Bytes) (frame : Bytes) (f : Int) (r : Bytes)
    (h : applyAuthenticator (some s) auth frame f = .ok r) : applyAuthenticator (some s) auth r f = .ok r := by
  have := C24_applied_verifies s auth frame f r h
  rw [C24_verify_iff] at this
  obtain ⟨hu, d, hd, ht⟩ := this
  rw [C24_apply_iff]
  exact ⟨hu, rfl, d, hd, ht, fun _ _ => rfl⟩

/-- C24: the payload bytes are untouched. -/
theorem C24_payload_untouched (s : SecOCProps) (auth : Bytes → Int → Bytes) (frame : Bytes) (f : Int) (r : Bytes)
    (h : applyAuthenticator (some s) auth frame f = .ok r) : r.take s.payloadLength = frame.take s.payloadLength := by
  obtain ⟨hu, hl, d, hd, ht, ho⟩ := (C24_apply_iff s auth frame f r).1 h
  apply bytes_eq_of_wireBit
  · rw [List.length_take, List.length_take, hl]
  · intro i
    by_cases hi : i < 8 * s.payloadLength
    · have e : ∀ x : Bytes, wireBit (x.take s.payloadLength) i = wireBit x i := by
        intro x
        unfold wireBit
        rw [List.getD_eq_getElem?_getD, List.getD_eq_getElem?_getD, List.getElem?_take_of_lt (by omega)]
      rw [e, e, ho i (.inl hi)]
    · rw [wireBit_ge _ _ (by rw [List.length_take]; omega), wireBit_ge _ _ (by rw [List.length_take]; omega)]

/-- C24: a replayed frame is rejected if the freshness values differ in the transmitted bits. -/
theorem C24_replay_rejected (s : SecOCProps) (auth : Bytes → Int → Bytes) (frame : Bytes) (f g : Int)
    (h : verifyAuthenticator (some s) auth frame f = .ok true) (hu : Usable s g frame.length)
    (hne : ∃ k, k < s.freshnessTxBits ∧ f.toNat.testBit k ≠ g.toNat.testBit k) :
    verifyAuthenticator (some s) auth frame g = .ok false := by
  obtain ⟨b, hb⟩ := C24_verify_total s auth frame g hu
  cases b with
  | false => exact hb
  | true =>
    exfalso
    obtain ⟨k, hk, hne⟩ := hne
    obtain ⟨_, _, _, h1⟩ := (C24_verify_iff s auth frame f).1 h
    obtain ⟨_, _, _, h2⟩ := (C24_verify_iff s auth frame g).1 hb
    apply hne
    have e1 := h1.freshness (s.freshnessTxBits - 1 - k) (by omega)
    have e2 := h2.freshness (s.freshnessTxBits - 1 - k) (by omega)
    rw [show s.freshnessTxBits - 1 - (s.freshnessTxBits - 1 - k) = k by omega] at e1 e2
    rw [← e1, e2]

/-- A message without SecOC properties is refused. -/
theorem C24_not_secured (auth : Bytes → Int → Bytes) (frame : Bytes) (f : Int) :
    applyAuthenticator none auth frame f = .error .typeError ∧
    verifyAuthenticator none auth frame f = .error .typeError ∧
    computeAuthenticator none auth frame f = .error .error := ⟨rfl, rfl, rfl⟩

/-! A concrete case: three payload bytes, four freshness bits and twelve authenticator bits. -/

def exSecOC : SecOCProps := ⟨3, 0x1234, 12, 16, 4⟩

def exAuth : Bytes → Int → Bytes := fun d f => [d.foldl (· ^^^ ·) 0x5a, UInt8.ofNat f.toNat, 0xff]

example : Usable exSecOC 0x4321 5 := ⟨by decide, by decide, by decide, by decide, by decide, by decide, by decide, by decide⟩
example : authData exSecOC [1, 2, 3, 0, 0] 0x4321 = .ok [0x12, 0x34, 1, 2, 3, 0x43, 0x21] := by decide +kernel
example : applyAuthenticator (some exSecOC) exAuth [1, 2, 3, 0, 0] 0x4321 = .ok [1, 2, 3, 0x11, 0xe2] := by decide +kernel
example : verifyAuthenticator (some exSecOC) exAuth [1, 2, 3, 0x11, 0xe2] 0x4321 = .ok true := by decide +kernel
example : verifyAuthenticator (some exSecOC) exAuth [1, 2, 2, 0x11, 0xe2] 0x4321 = .ok false := by decide +kernel

end Cantools
