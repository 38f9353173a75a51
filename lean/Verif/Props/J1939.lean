import Verif.Lemmas.J1939
import Verif.Spec.J1939

/-
Properties of J1939 identifiers: C22.
-/

namespace Cantools
open Spec

theorem pow3 : (2 : Int) ^ 3 = 8 := rfl
theorem pow1 : (2 : Int) ^ 1 = 2 := rfl
theorem pow8 : (2 : Int) ^ 8 = 256 := rfl

/-- C22: `frame_id_pack` of fields in range gives the identifier with these fields. -/
theorem C22_frame_id_pack (f : FrameId) (h : FrameId.InRange f) :
    frameIdPack f.priority f.reserved f.dataPage f.pduFormat f.pduSpecific f.sourceAddress =
      .ok (FrameId.number f) := by
  obtain ⟨p, r, d, f, s, a⟩ := f
  obtain ⟨h1, h2, h3, h4, h5, h6⟩ := h
  simp only at h1 h2 h3 h4 h5 h6
  unfold frameIdPack
  rw [packU_ok (by
    simp only [List.forall_mem_cons, pow3, pow1, pow8]
    refine ⟨?_, ?_, ?_, ?_, ?_, ?_, by simp⟩ <;> omega)]
  simp only [unpackU, unpackBitsU, List.headD_cons, bytesToBits_bitsToBytes]
  rw [List.take_append_of_le_length (by simp), List.take_of_length_le (by simp)]
  simp only [List.flatMap_cons, List.flatMap_nil, Int.toNat_natCast, List.append_nil, natOfBits_append,
    List.length_append, natBits_length]
  rw [natOfBits_natBits _ _ (by omega), natOfBits_natBits _ _ (by omega), natOfBits_natBits _ _ (by omega),
    natOfBits_natBits _ _ (by omega), natOfBits_natBits _ _ (by omega), natOfBits_natBits _ _ (by omega)]
  simp only [FrameId.number, Except.ok.injEq]
  omega

example : FrameId.InRange ⟨3, 0, 1, 239, 0x12, 0xfe⟩ := ⟨by decide, by decide, by decide, by decide, by decide, by decide⟩

/-- C22: a field out of range is rejected with `Error`. -/
theorem C22_frame_id_pack_error (p r d f s a : Int)
    (h : ¬ ∃ x : FrameId, FrameId.InRange x ∧ p = x.priority ∧ r = x.reserved ∧ d = x.dataPage ∧
      f = x.pduFormat ∧ s = x.pduSpecific ∧ a = x.sourceAddress) :
    frameIdPack p r d f s a = .error .error := by
  unfold frameIdPack
  rw [packU_error]
  intro hc
  apply h
  simp only [List.forall_mem_cons, pow3, pow1, pow8] at hc
  obtain ⟨h1, h2, h3, h4, h5, h6, -⟩ := hc
  refine ⟨⟨p.toNat, r.toNat, d.toNat, f.toNat, s.toNat, a.toNat⟩, ⟨?_, ?_, ?_, ?_, ?_, ?_⟩, ?_⟩ <;>
    simp only <;> omega

example : ¬ ∃ x : FrameId, FrameId.InRange x ∧ (8 : Int) = x.priority ∧ (0 : Int) = x.reserved ∧
    (0 : Int) = x.dataPage ∧ (0 : Int) = x.pduFormat ∧ (0 : Int) = x.pduSpecific ∧ (0 : Int) = x.sourceAddress := by
  rintro ⟨x, h, h1, _⟩
  have := h.priority
  omega

/-- C22: `frame_id_unpack` of a 29 bit number gives the fields of that identifier. -/
theorem C22_frame_id_unpack (id : Nat) (h : id < 2 ^ 29) :
    ∃ f, frameIdUnpack id = .ok f ∧ FrameId.InRange f ∧ FrameId.number f = id := by
  rw [frameIdUnpack]
  rw [packU_single, if_pos (by omega)]
  simp only [unpackU, unpackBitsU, bytesToBits_bitsToBytes, List.drop_drop, Int.toNat_natCast]
  have e := natOfBits_slice 29 id
  have e0 := fun pad => e 0 3 pad (by decide)
  simp only [List.drop_zero] at e0
  rw [e0, e _ _ _ (by decide), e _ _ _ (by decide), e _ _ _ (by decide), e _ _ _ (by decide), e _ _ _ (by decide)]
  refine ⟨_, rfl, ⟨?_, ?_, ?_, ?_, ?_, ?_⟩, ?_⟩
  all_goals
    simp only [FrameId.number]
    omega

example : (0x18ef12fe : Nat) < 2 ^ 29 := by decide

/-- C22: `frame_id_unpack` rejects everything but 29 bit numbers with `Error`. -/
theorem C22_frame_id_unpack_error (id : Int) (h : id < 0 ∨ 2 ^ 29 ≤ id) :
    frameIdUnpack id = .error .error := by
  rw [frameIdUnpack]
  rw [packU_single, if_neg (by omega)]

example : (0x20000000 : Int) < 0 ∨ (2 : Int) ^ 29 ≤ 0x20000000 := by decide

/-- The fields are determined by the identifier. -/
theorem frameId_number_inj {f g : FrameId} (hf : FrameId.InRange f) (hg : FrameId.InRange g)
    (h : FrameId.number f = FrameId.number g) : f = g := by
  obtain ⟨p, r, d, f, s, a⟩ := f
  obtain ⟨p', r', d', f', s', a'⟩ := g
  obtain ⟨h1, h2, h3, h4, h5, h6⟩ := hf
  obtain ⟨g1, g2, g3, g4, g5, g6⟩ := hg
  simp only [FrameId.number, FrameId.mk.injEq] at *
  omega

theorem frameId_number_lt {f : FrameId} (hf : FrameId.InRange f) : FrameId.number f < 2 ^ 29 := by
  obtain ⟨h1, h2, h3, h4, h5, h6⟩ := hf
  simp only [FrameId.number] at *
  omega

/-- C22: unpacking what was packed gives the fields back. -/
theorem C22_unpack_pack (f : FrameId) (h : FrameId.InRange f) :
    ∃ id : Nat, frameIdPack f.priority f.reserved f.dataPage f.pduFormat f.pduSpecific f.sourceAddress = .ok id ∧
      frameIdUnpack id = .ok f := by
  refine ⟨_, C22_frame_id_pack f h, ?_⟩
  obtain ⟨g, h1, h2, h3⟩ := C22_frame_id_unpack _ (frameId_number_lt h)
  rw [h1, frameId_number_inj h2 h h3]

/-- C22: packing what was unpacked gives the identifier back. -/
theorem C22_pack_unpack (id : Nat) (h : id < 2 ^ 29) :
    ∃ f, frameIdUnpack id = .ok f ∧
      frameIdPack f.priority f.reserved f.dataPage f.pduFormat f.pduSpecific f.sourceAddress = .ok id := by
  obtain ⟨f, h1, h2, h3⟩ := C22_frame_id_unpack id h
  exact ⟨f, h1, by rw [C22_frame_id_pack f h2, h3]⟩

/-- C22: `pgn_pack` of fields in range gives the parameter group number with these fields, unless
there is a destination address. -/
theorem C22_pgn_pack (f : Pgn) (h : Pgn.InRange f) (hd : IsPdu1 f.pduFormat → f.pduSpecific = 0) :
    pgnPack f.reserved f.dataPage f.pduFormat f.pduSpecific = .ok (Pgn.number f) := by
  obtain ⟨r, d, f, s⟩ := f
  obtain ⟨h1, h2, h3, h4⟩ := h
  simp only at h1 h2 h3 h4
  change f < 240 → s = 0 at hd
  unfold pgnPack
  rw [if_neg (by simp only; omega), packU_ok (by
    simp only [List.forall_mem_cons, pow1, pow8]
    refine ⟨?_, ?_, ?_, ?_, by simp⟩ <;> omega)]
  simp only [unpackU, unpackBitsU, List.headD_cons, bytesToBits_bitsToBytes]
  rw [List.take_append_of_le_length (by simp), List.take_of_length_le (by simp)]
  simp only [List.flatMap_cons, List.flatMap_nil, Int.toNat_natCast, List.append_nil, natOfBits_append,
    List.length_append, natBits_length]
  rw [natOfBits_natBits _ _ (by omega), natOfBits_natBits _ _ (by omega), natOfBits_natBits _ _ (by omega),
    natOfBits_natBits _ _ (by omega)]
  simp only [Pgn.number, Except.ok.injEq]
  omega

example : Pgn.InRange ⟨0, 1, 240, 0x12⟩ ∧ (IsPdu1 240 → 0x12 = 0) :=
  ⟨⟨by decide, by decide, by decide, by decide⟩, fun h => absurd h (by unfold IsPdu1; omega)⟩

/-- C22: a field out of range and a destination address are rejected with `Error`. -/
theorem C22_pgn_pack_error (r d f s : Int)
    (h : ¬ ∃ x : Pgn, Pgn.InRange x ∧ (IsPdu1 x.pduFormat → x.pduSpecific = 0) ∧ r = x.reserved ∧
      d = x.dataPage ∧ f = x.pduFormat ∧ s = x.pduSpecific) :
    pgnPack r d f s = .error .error := by
  unfold pgnPack
  split
  · rfl
  · rename_i hs
    rw [packU_error]
    intro hc
    apply h
    simp only [List.forall_mem_cons, pow1, pow8] at hc
    obtain ⟨h1, h2, h3, h4, -⟩ := hc
    refine ⟨⟨r.toNat, d.toNat, f.toNat, s.toNat⟩, ⟨?_, ?_, ?_, ?_⟩, ?_, ?_⟩ <;> simp only [IsPdu1] <;> omega

/-- C22: `pgn_unpack` of an 18 bit number gives its fields. -/
theorem C22_pgn_unpack (n : Nat) (h : n < 2 ^ 18) :
    ∃ f, pgnUnpack n = .ok f ∧ Pgn.InRange f ∧ Pgn.number f = n := by
  rw [pgnUnpack]
  rw [packU_single, if_pos (by omega)]
  simp only [unpackU, unpackBitsU, bytesToBits_bitsToBytes, List.drop_drop, Int.toNat_natCast]
  have e := natOfBits_slice 18 n
  have e0 := fun pad => e 0 1 pad (by decide)
  simp only [List.drop_zero] at e0
  rw [e0, e _ _ _ (by decide), e _ _ _ (by decide), e _ _ _ (by decide)]
  refine ⟨_, rfl, ⟨?_, ?_, ?_, ?_⟩, ?_⟩
  all_goals
    simp only [Pgn.number]
    omega

/-- C22: `pgn_unpack` rejects everything but 18 bit numbers with `Error`. -/
theorem C22_pgn_unpack_error (n : Int) (h : n < 0 ∨ 2 ^ 18 ≤ n) : pgnUnpack n = .error .error := by
  rw [pgnUnpack]
  rw [packU_single, if_neg (by omega)]

example : (-1 : Int) < 0 ∨ (2 : Int) ^ 18 ≤ -1 := by decide

theorem pgn_number_inj {f g : Pgn} (hf : Pgn.InRange f) (hg : Pgn.InRange g)
    (h : Pgn.number f = Pgn.number g) : f = g := by
  obtain ⟨r, d, f, s⟩ := f
  obtain ⟨r', d', f', s'⟩ := g
  obtain ⟨h1, h2, h3, h4⟩ := hf
  obtain ⟨g1, g2, g3, g4⟩ := hg
  simp only [Pgn.number, Pgn.mk.injEq] at *
  omega

theorem pgn_number_lt {f : Pgn} (hf : Pgn.InRange f) : Pgn.number f < 2 ^ 18 := by
  obtain ⟨h1, h2, h3, h4⟩ := hf
  simp only [Pgn.number] at *
  omega

/-- C22: unpacking a packed parameter group number gives the fields back. -/
theorem C22_pgn_unpack_pack (f : Pgn) (h : Pgn.InRange f) (hd : IsPdu1 f.pduFormat → f.pduSpecific = 0) :
    ∃ n : Nat, pgnPack f.reserved f.dataPage f.pduFormat f.pduSpecific = .ok n ∧ pgnUnpack n = .ok f := by
  refine ⟨_, C22_pgn_pack f h hd, ?_⟩
  obtain ⟨g, h1, h2, h3⟩ := C22_pgn_unpack _ (pgn_number_lt h)
  rw [h1, pgn_number_inj h2 h h3]

/-- C22: packing the fields of an 18 bit number gives the number back exactly if it is not a PDU1
number with a destination address; for these `Error` is raised. -/
theorem C22_pgn_pack_unpack (n : Nat) (h : n < 2 ^ 18) :
    ∃ f, pgnUnpack n = .ok f ∧
      pgnPack f.reserved f.dataPage f.pduFormat f.pduSpecific =
        if n / 256 % 256 < 240 ∧ n % 256 ≠ 0 then .error .error else .ok n := by
  obtain ⟨f, h1, h2, h3⟩ := C22_pgn_unpack n h
  refine ⟨f, h1, ?_⟩
  have hb := h2.pduFormat
  have hc := h2.pduSpecific
  have hpf : n / 256 % 256 = f.pduFormat := by rw [← h3, Pgn.number]; omega
  have hps : n % 256 = f.pduSpecific := by rw [← h3, Pgn.number]; omega
  rw [hpf, hps]
  split
  · rename_i hs
    unfold pgnPack
    rw [if_pos (by omega)]
  · rename_i hs
    rw [C22_pgn_pack f h2 (by unfold IsPdu1; omega), h3]

/-- C22: `pgn_from_frame_id` is the part of the identifier between priority and source address, with
PDU specific cleared if it is a destination address. -/
theorem C22_pgn_from_frame_id (f : FrameId) (h : FrameId.InRange f) :
    pgnFromFrameId (FrameId.number f) = .ok (Pgn.number
      ⟨f.reserved, f.dataPage, f.pduFormat, if f.pduFormat < 240 then 0 else f.pduSpecific⟩) := by
  obtain ⟨g, h1, h2, h3⟩ := C22_frame_id_unpack _ (frameId_number_lt h)
  obtain rfl := frameId_number_inj h2 h h3
  rw [pgnFromFrameId]
  rw [h1]
  have := C22_pgn_pack ⟨g.reserved, g.dataPage, g.pduFormat, if g.pduFormat < 240 then 0 else g.pduSpecific⟩
    ⟨h.reserved, h.dataPage, h.pduFormat, by simp only; have := h.pduSpecific; split <;> omega⟩
    (by intro hp; simp only [IsPdu1] at hp; simp [hp])
  rw [← this]
  simp only
  split <;> simp

/-- C22: `pgn_from_frame_id` of anything but a 29 bit number is rejected with `Error`. -/
theorem C22_pgn_from_frame_id_error (id : Int) (h : id < 0 ∨ 2 ^ 29 ≤ id) :
    pgnFromFrameId id = .error .error := by
  rw [pgnFromFrameId]
  rw [C22_frame_id_unpack_error id h]

end Cantools
