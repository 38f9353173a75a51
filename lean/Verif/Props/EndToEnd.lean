import Verif.Lemmas.Crc

/-
Properties of AUTOSAR end-to-end protection: C23.
-/

namespace Cantools
open Spec

theorem crc8Autosar_lt (d : Bytes) : crc8Autosar d < 256 := (crcProcess (0x2f#8) 0xff#8 d ^^^ 0xff#8).isLt

theorem crc16Autosar_lt (d : Bytes) (i : Nat) : crc16Autosar d i < 65536 :=
  (crcProcess (0x1021#16) (BitVec.ofNat 16 i) d).isLt

theorem crc8Autosar_burst {p q : Bytes} (h : Burst 8 p q) : crc8Autosar p ≠ crc8Autosar q := by
  unfold crc8Autosar
  intro he
  refine crcProcess_burst (by decide) (by decide) 0xff#8 h (poly := 0x2f#8) ?_
  have := BitVec.eq_of_toNat_eq he
  rwa [BitVec.xor_left_inj] at this

theorem protection_congr {n : Nat} {p q : Bytes} (h : p.length = q.length) (k : MsgOrDataId) :
    protection n p k = protection n q k := by
  unfold protection
  split <;> first | rfl | rw [h]

/-- `compute_profile2_crc` does not read the first byte. -/
theorem computeProfile2_set (p : Bytes) (k : MsgOrDataId) (b : UInt8) :
    computeProfile2 (p.set 0 b) k = computeProfile2 p k := by
  unfold computeProfile2
  rw [List.length_set, protection_congr (q := p) (by simp)]
  have e1 : ∀ n, ((p.set 0 b).take n).drop 1 = (p.take n).drop 1 := by
    intro n
    cases p with
    | nil => rfl
    | cons x r => cases n <;> rfl
  have e2 : (p.set 0 b).getD 1 0 = p.getD 1 0 := by cases p <;> rfl
  have e3 : ∀ ids, dataId2 ids (p.set 0 b) k = dataId2 ids p k := by intro ids; cases k <;> simp only [dataId2, e2]
  simp only [e1, e3]

/-- C23, profile 2: a protected payload passes the check. -/
theorem C23_profile2_apply_check {p p' : Bytes} {k : MsgOrDataId} (h : applyProfile2 p k = .ok (some p')) :
    checkProfile2 p' k = .ok (some true) := by
  unfold applyProfile2 at h
  split at h
  · cases h
  · cases h
  · rename_i crc hc
    cases h
    unfold checkProfile2
    rw [computeProfile2_set, hc]
    have hl : ¬ p.length < 2 := by
      intro hl
      unfold computeProfile2 at hc
      rw [if_pos hl] at hc
      cases hc
    have hlt : crc < 256 := by
      unfold computeProfile2 at hc
      rw [if_neg hl] at hc
      split at hc
      · cases hc
      · split at hc
        · cases hc; exact crc8Autosar_lt _
        · cases hc
    cases p with
    | nil => simp at hl
    | cons x r => simp; omega

/-- C23, profile 2: protection only writes the CRC byte. -/
theorem C23_profile2_writes {p p' : Bytes} {k : MsgOrDataId} (h : applyProfile2 p k = .ok (some p')) :
    p'.length = p.length ∧ SameOutside 0 1 p p' := by
  unfold applyProfile2 at h
  split at h
  · cases h
  · cases h
  · cases h
    refine ⟨by simp, ?_⟩
    intro i hi
    rw [List.getElem?_set_ne (by omega)]

/-- C23, profile 2: which payloads can be protected: those with two bytes, for an explicit data id
or a message with 16 data ids.  Then the check gives an answer, too. -/
theorem C23_profile2_applicable (p : Bytes) (k : MsgOrDataId) :
    (applyProfile2 p k = .ok none ↔ p.length < 2 ∨ (∃ e, k = .msg e ∧ ¬ ∃ e' ids, e = some e' ∧ e'.dataIds = some ids ∧ ids.length = 16)) ∧
    (applyProfile2 p k = .ok none ↔ checkProfile2 p k = .ok none) := by
  have h1 : applyProfile2 p k = .ok none ↔ computeProfile2 p k = .ok none := by
    unfold applyProfile2; split <;> simp_all
  have h2 : checkProfile2 p k = .ok none ↔ computeProfile2 p k = .ok none := by
    unfold checkProfile2; split <;> simp_all
  refine ⟨?_, h1.trans h2.symm⟩
  rw [h1]
  unfold computeProfile2
  by_cases hl : p.length < 2
  · simp [hl]
  · simp only [hl, if_false, false_or]
    cases k with
    | dataId id =>
      simp only [protection, reduceCtorEq, false_and, exists_false, iff_false]
      split <;> simp
    | msg e =>
      cases e with
      | none => simp [protection]
      | some e =>
        simp only [protection]
        cases hd : e.dataIds with
        | none => simp [hd]
        | some ids =>
          by_cases h16 : ids.length = 16
          · simp only [h16, if_true]
            constructor
            · intro hc; split at hc <;> cases hc
            · rintro ⟨e', h, hn⟩
              cases h
              exact absurd ⟨e, ids, rfl, hd, h16⟩ hn
          · simp only [h16, if_false, true_iff]
            refine ⟨_, rfl, ?_⟩
            rintro ⟨e', ids', h, h', h''⟩
            cases h
            rw [hd] at h'
            cases h'
            exact h16 h''

/-- The bytes profile 2 and 5 protect: all with an explicit data id, else as many as the message says. -/
def protectedEnd (p : Bytes) : MsgOrDataId → Nat
  | .dataId _ => p.length
  | .msg none => 0
  | .msg (some e) => e.payloadLength

theorem protection_some {n : Nat} {p : Bytes} {k : MsgOrDataId} {ids : List Nat} {m : Nat}
    (h : protection n p k = some (ids, m)) : m = protectedEnd p k := by
  unfold protection at h
  split at h
  · cases h; rfl
  · cases h
  · split at h
    · cases h
    · split at h
      · cases h; rfl
      · cases h

/-- C23, profile 2: an error burst of at most eight bits in the protected bytes is detected, if it does
not change the sequence counter (or the data id does not depend on it).  Missing: bursts that hit the
counter of a message with several data ids, see `C23_profile2_counter`. -/
theorem C23_profile2_burst_partial {p q : Bytes} {k : MsgOrDataId} (h : checkProfile2 p k = .ok (some true))
    (hb : Burst 8 p q) (ho : SameOutside 1 (protectedEnd p k) p q)
    (hc : (∃ id, k = .dataId id) ∨ (p.getD 1 0).toNat &&& 0xf = (q.getD 1 0).toNat &&& 0xf) :
    checkProfile2 q k = .ok (some false) := by
  have hlen := hb.1
  unfold checkProfile2 at h ⊢
  have h0 : p.getD 0 0 = q.getD 0 0 := by
    rw [List.getD_eq_getElem?_getD, List.getD_eq_getElem?_getD, ho 0 (by omega)]
  unfold computeProfile2 at h ⊢
  by_cases hl : p.length < 2
  · rw [if_pos hl] at h; cases h
  · rw [if_neg hl] at h
    rw [if_neg (by omega), ← protection_congr hlen, ← h0]
    cases hp : protection 16 p k with
    | none => rw [hp] at h; cases h
    | some x =>
      obtain ⟨ids, n⟩ := x
      rw [hp] at h
      simp only at h ⊢
      have hn := protection_some hp
      subst hn
      have hid : dataId2 ids q k = dataId2 ids p k := by
        rcases hc with ⟨id, rfl⟩ | hc
        · rfl
        · cases k
          · simp only [dataId2, hc]
          · rfl
      rw [hid]
      generalize dataId2 ids p k = id at h ⊢
      split at h
      · cases h
      · cases h
      · rename_i crc heq
        split at heq
        · rename_i hlt
          rw [if_pos hlt]
          cases heq
          simp only
          have hne := crc8Autosar_burst (burst_part hb ho [UInt8.ofNat id])
          simp only [Except.ok.injEq, Option.some.injEq, beq_iff_eq, beq_eq_false_iff_ne] at h ⊢
          rw [← h]
          exact hne.symm
        · cases heq

/-- C23, profile 2: a wrong CRC byte is detected. -/
theorem C23_profile2_crc_byte {p : Bytes} {k : MsgOrDataId} (h : checkProfile2 p k = .ok (some true)) (b : UInt8)
    (hb : b ≠ p.getD 0 0) : checkProfile2 (p.set 0 b) k = .ok (some false) := by
  unfold checkProfile2 at h ⊢
  rw [computeProfile2_set]
  split at h
  · cases h
  · cases h
  · rename_i crc hc
    simp only [Except.ok.injEq, Option.some.injEq, beq_iff_eq, beq_eq_false_iff_ne] at h ⊢
    rw [h]
    cases p with
    | nil =>
      unfold computeProfile2 at hc
      cases hc
    | cons x r =>
      simp only [List.set_cons_zero, List.getD_cons_zero] at hb ⊢
      exact fun he => hb (UInt8.toNat_inj.1 he.symm)

def exIds : List Nat := [0, 0x2f, 2, 3, 4, 5, 6, 7, 8, 9, 10, 11, 12, 13, 14, 15]

/-- C23 fails for a message with several data ids: flipping the lowest bit of the sequence counter is not
detected if the data ids are chosen badly, since another data id is used in the CRC. -/
theorem C23_profile2_counter :
    ∃ p q, checkProfile2 p (.msg (some ⟨some exIds, 2⟩)) = .ok (some true) ∧ Burst 8 p q ∧
      SameOutside 1 2 p q ∧ checkProfile2 q (.msg (some ⟨some exIds, 2⟩)) = .ok (some true) := by
  refine ⟨[UInt8.ofNat (crc8Autosar [0, 0]), 0], [UInt8.ofNat (crc8Autosar [0, 0]), 1], by decide +kernel, ⟨rfl, by decide +kernel, 8, ?_⟩, ?_, by decide +kernel⟩
  · intro i hi
    by_contra hc
    apply hi
    unfold wireBit
    have : i / 8 = 0 ∨ 2 ≤ i / 8 := by omega
    rcases this with h | h
    · rw [h]; rfl
    · obtain ⟨j, hj⟩ : ∃ j, i / 8 = j + 2 := ⟨i / 8 - 2, by omega⟩
      rw [hj]; rfl
  · intro i hi
    have : i = 0 ∨ ∃ j, i = j + 2 := by
      rcases hi with h | h
      · exact .inl (by omega)
      · exact .inr ⟨i - 2, by omega⟩
    rcases this with rfl | ⟨j, rfl⟩ <;> rfl

/-- The CRC of profile 5 is one run over protected bytes and data id. -/
theorem computeProfile5_eq (p : Bytes) (k : MsgOrDataId) :
    computeProfile5 p k = if p.length < 4 then none else
      (protection 1 p k).map fun x =>
        (crcProcess (0x1021#16) 0xffff#16 ((p.take x.2).drop 2 ++ [UInt8.ofNat (x.1.getD 0 0 &&& 0xff), UInt8.ofNat ((x.1.getD 0 0 >>> 8) &&& 0xff)])).toNat := by
  unfold computeProfile5
  split
  · rfl
  · cases protection 1 p k with
    | none => rfl
    | some x =>
      obtain ⟨ids, n⟩ := x
      simp only [Option.map_some, crc16Autosar, BitVec.ofNat_toNat, BitVec.setWidth_eq]
      simp only [crcProcess, List.foldl_append, List.foldl_cons, List.foldl_nil]

theorem computeProfile5_set (p : Bytes) (k : MsgOrDataId) (a b : UInt8) :
    computeProfile5 ((p.set 0 a).set 1 b) k = computeProfile5 p k := by
  unfold computeProfile5
  rw [List.length_set, List.length_set, protection_congr (q := p) (by simp)]
  have e1 : ∀ n, (((p.set 0 a).set 1 b).take n).drop 2 = (p.take n).drop 2 := by
    intro n
    match p, n with
    | [], _ => rfl
    | [_], 0 => rfl
    | [_], n + 1 => simp
    | _ :: _ :: _, 0 => rfl
    | _ :: _ :: _, 1 => rfl
    | _ :: _ :: _, n + 2 => rfl
  simp only [e1]

theorem computeProfile5_lt {p : Bytes} {k : MsgOrDataId} {crc : Nat} (h : computeProfile5 p k = some crc) :
    crc < 65536 ∧ 4 ≤ p.length := by
  rw [computeProfile5_eq] at h
  split at h
  · cases h
  · simp only [Option.map_eq_some_iff] at h
    obtain ⟨x, _, rfl⟩ := h
    exact ⟨BitVec.isLt _, by omega⟩

/-- C23, profile 5: a protected payload passes the check. -/
theorem C23_profile5_apply_check {p p' : Bytes} {k : MsgOrDataId} (h : applyProfile5 p k = some p') :
    checkProfile5 p' k = some true := by
  unfold applyProfile5 at h
  split at h
  · cases h
  · rename_i crc hc
    cases h
    unfold checkProfile5
    rw [computeProfile5_set, hc]
    obtain ⟨h1, h2⟩ := computeProfile5_lt hc
    match p with
    | a :: b :: r =>
      have e1 : crc &&& 0xff = crc % 256 := Nat.and_two_pow_sub_one_eq_mod crc 8
      have e2 : (crc >>> 8) &&& 0xff = crc / 256 % 256 := by
        rw [Nat.shiftRight_eq_div_pow]; exact Nat.and_two_pow_sub_one_eq_mod _ 8
      simp only [List.set_cons_zero, List.set_cons_succ, List.getD_cons_zero, List.getD_cons_succ, e1, e2,
        UInt8.toNat_ofNat', Nat.shiftLeft_eq, Option.some.injEq, beq_iff_eq]
      omega

/-- C23, profile 5: protection only writes the CRC bytes. -/
theorem C23_profile5_writes {p p' : Bytes} {k : MsgOrDataId} (h : applyProfile5 p k = some p') :
    p'.length = p.length ∧ SameOutside 0 2 p p' := by
  unfold applyProfile5 at h
  split at h
  · cases h
  · cases h
    refine ⟨by simp, ?_⟩
    intro i hi
    rw [List.getElem?_set_ne (by omega), List.getElem?_set_ne (by omega)]

/-- C23, profile 5: an error burst of at most 16 bits in the protected bytes is detected. -/
theorem C23_profile5_burst {p q : Bytes} {k : MsgOrDataId} (h : checkProfile5 p k = some true)
    (hb : Burst 16 p q) (ho : SameOutside 2 (protectedEnd p k) p q) :
    checkProfile5 q k = some false := by
  have hlen := hb.1
  unfold checkProfile5 at h ⊢
  have h0 : ∀ i, i < 2 → p.getD i 0 = q.getD i 0 := by
    intro i hi
    rw [List.getD_eq_getElem?_getD, List.getD_eq_getElem?_getD, ho i (by omega)]
  rw [← h0 0 (by omega), ← h0 1 (by omega)]
  rw [computeProfile5_eq] at h ⊢
  by_cases hl : p.length < 4
  · rw [if_pos hl] at h; cases h
  · rw [if_neg hl] at h
    rw [if_neg (by omega), ← protection_congr hlen]
    cases hp : protection 1 p k with
    | none => rw [hp] at h; cases h
    | some x =>
      obtain ⟨ids, n⟩ := x
      rw [hp] at h
      have hn := protection_some hp
      subst hn
      simp only [Option.map_some, Option.some.injEq, beq_iff_eq, beq_eq_false_iff_ne] at h ⊢
      rw [← h]
      intro he
      exact crcProcess_burst (by decide) (by decide) 0xffff#16 (burst_part hb ho _) (BitVec.eq_of_toNat_eq he.symm)

/-- C23, profile 5: wrong CRC bytes are detected. -/
theorem C23_profile5_crc_bytes {p : Bytes} {k : MsgOrDataId} (h : checkProfile5 p k = some true) (a b : UInt8)
    (hb : a ≠ p.getD 0 0 ∨ b ≠ p.getD 1 0) : checkProfile5 ((p.set 0 a).set 1 b) k = some false := by
  unfold checkProfile5 at h ⊢
  rw [computeProfile5_set]
  split at h
  · cases h
  · rename_i crc hc
    obtain ⟨h1, h2⟩ := computeProfile5_lt hc
    simp only [Option.some.injEq, beq_iff_eq, beq_eq_false_iff_ne] at h ⊢
    rw [h]
    match p with
    | x :: y :: r =>
      simp only [List.set_cons_zero, List.set_cons_succ, List.getD_cons_zero, List.getD_cons_succ,
        Nat.shiftLeft_eq] at hb ⊢
      intro he
      have := x.toNat_lt; have := a.toNat_lt
      rcases hb with hb | hb
      · exact hb (UInt8.toNat_inj.1 (by omega))
      · exact hb (UInt8.toNat_inj.1 (by omega))

/-- C23, profile 5: which payloads can be protected. -/
theorem C23_profile5_applicable (p : Bytes) (k : MsgOrDataId) :
    (applyProfile5 p k = none ↔ p.length < 4 ∨ (∃ e, k = .msg e ∧ ¬ ∃ e' ids, e = some e' ∧ e'.dataIds = some ids ∧ ids.length = 1)) ∧
    (applyProfile5 p k = none ↔ checkProfile5 p k = none) := by
  have h1 : applyProfile5 p k = none ↔ computeProfile5 p k = none := by
    unfold applyProfile5; split <;> simp_all
  have h2 : checkProfile5 p k = none ↔ computeProfile5 p k = none := by
    unfold checkProfile5; split <;> simp_all
  refine ⟨?_, h1.trans h2.symm⟩
  rw [h1, computeProfile5_eq]
  by_cases hl : p.length < 4
  · simp [hl]
  · simp only [hl, if_false, false_or, Option.map_eq_none_iff]
    cases k with
    | dataId id => simp [protection]
    | msg e =>
      cases e with
      | none => simp [protection]
      | some e =>
        simp only [protection]
        cases hd : e.dataIds with
        | none => simp [hd]
        | some ids =>
          by_cases h16 : ids.length = 1 <;> simp [h16, hd]

/-! Concrete cases: an explicit data id, and messages with 16 and with one data id. -/

example : applyProfile2 [0, 0x35, 0x80] (.msg (some ⟨some exIds, 3⟩)) = .ok (some [0x3b, 0x35, 0x80]) := by decide +kernel
example : checkProfile2 [0x3b, 0x35, 0x80] (.msg (some ⟨some exIds, 3⟩)) = .ok (some true) := by decide +kernel
example : applyProfile5 [0, 0, 1, 2, 3] (.dataId 0x1234) = some [71, 244, 1, 2, 3] := by decide +kernel
/-- The CRCs of the check string "123456789" in the AUTOSAR specification. -/
example : crc8Autosar [0x31, 0x32, 0x33, 0x34, 0x35, 0x36, 0x37, 0x38, 0x39] = 0xdf := by decide +kernel
example : crc16Autosar [0x31, 0x32, 0x33, 0x34, 0x35, 0x36, 0x37, 0x38, 0x39] 0xffff = 0x29b1 := by decide +kernel
/-- A burst across two bytes. -/
example : Burst 8 [0x3b, 0x35, 0x80] [0x3b, 0x34, 0x00] := by
  refine ⟨rfl, by decide, 15, ?_⟩
  intro i hi
  by_contra hc
  apply hi
  have : i < 15 ∨ i = 23 ∨ 24 ≤ i := by omega
  rcases this with h | h | h
  · have : ∀ i < 15, wireBit [0x3b, 0x35, 0x80] i = wireBit [0x3b, 0x34, 0x00] i := by decide
    exact this i h
  · subst h; decide
  · obtain ⟨j, hj⟩ : ∃ j, i / 8 = j + 3 := ⟨i / 8 - 3, by omega⟩
    unfold wireBit; rw [hj]; rfl

end Cantools
