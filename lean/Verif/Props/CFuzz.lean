import Verif.Model.CFuzz
import Verif.Lemmas.Crc
import Verif.Props.CSource
import Verif.Props.CHeader

/-
C70: the fuzzer that is generated together with the C code.
-/

namespace Cantools
open Spec

namespace C

theorem payloadBit_take {d : Bytes} {n p : Nat} (h : p < 8 * n) : payloadBit (d.take n) p = payloadBit d p := by
  unfold payloadBit
  rw [List.getD_eq_getElem?_getD, List.getD_eq_getElem?_getD, List.getElem?_take_of_lt (by omega)]

theorem take_eq_of_payloadBit {a b : Bytes} {n : Nat} (ha : n ≤ a.length) (hb : n ≤ b.length)
    (h : ∀ p, p < 8 * n → payloadBit a p = payloadBit b p) : a.take n = b.take n := by
  apply bytes_eq_of_wireBit (by rw [List.length_take, List.length_take]; omega)
  intro i
  by_cases hi : i / 8 < n
  · have := h (8 * (i / 8) + (7 - i % 8)) (by omega)
    rw [← payloadBit_take (d := a) (n := n) (by omega), ← payloadBit_take (d := b) (n := n) (by omega)] at this
    unfold payloadBit at this
    unfold wireBit
    rw [show (8 * (i / 8) + (7 - i % 8)) / 8 = i / 8 by omega, show (8 * (i / 8) + (7 - i % 8)) % 8 = 7 - i % 8 by omega] at this
    exact this
  · have z : ∀ x : Bytes, wireBit (x.take n) i = false := by
      intro x
      unfold wireBit
      rw [List.getD_eq_getElem?_getD, List.getElem?_eq_none (by rw [List.length_take]; omega)]
      simp
    rw [z, z]

/-- A struct with the members that a payload has selects the signals that the payload selects. -/
theorem present_iff {fo : FloatOps} {sigs : List Signal} {len : Nat} {data : Bytes} {sel : String → Option Int} {st : Struct}
    (hpos : ∀ s ∈ sigs, 0 < s.length) (hcs : CSelectors sigs) (hv : ∀ s, (∃ sel, Present sigs sel s) → Fits len s)
    (hsel : SelectorsIn fo sigs data false false len sel)
    (hm : ∀ s, Present sigs sel s → Present sigs (fun n => some (st n)) s → MemberIn s data (st s.name)) (s : Signal) :
    Present sigs sel s ↔ Present sigs (fun n => some (st n)) s := by
  have key : ∀ s p i ids, s ∈ sigs → s.multiplexerSignal = some p.name → p.isMultiplexer = true → s.multiplexerIds = some ids →
      i ∈ ids → Present sigs sel p → Present sigs (fun n => some (st n)) p → sel p.name = some (st p.name) := by
    intro s p i ids hs hp hmx hids hi h1 h2
    have hfl := (hcs p h1.mem ⟨hmx, i, .inl ⟨s, hs, hp, by rw [hids]; exact hi⟩⟩).1
    obtain ⟨raw, g1, g2⟩ := (hsel p h1.mem).1 (hv p ⟨_, h1⟩)
    rw [g2, rawIn_memberIn (hpos p h1.mem) hfl g1 (hm p h1 h2)]
    simp [shown, selectorNumber, pyInt_int]
  constructor
  · intro h
    induction h with
    | root s hs hp => exact .root s hs hp
    | child s p i ids hs hp hmx hpar hseli hids hi ih =>
      have := key s p i ids hs hp hmx hids hi hpar ih
      exact .child s p i ids hs hp hmx ih (this.symm.trans hseli) hids hi
  · intro h
    induction h with
    | root s hs hp => exact .root s hs hp
    | child s p i ids hs hp hmx hpar hseli hids hi ih =>
      have := key s p i ids hs hp hmx hids hi ih hpar
      exact .child s p i ids hs hp hmx ih (this.trans hseli) hids hi

theorem memberIn_fits {s : Signal} {d : Bytes} {v : Int} (h : MemberIn s d v) : MemberFits s v := by
  unfold MemberIn at h
  unfold MemberFits
  split
  · rename_i hf; rw [if_pos hf] at h; exact ⟨h.1, h.2.1⟩
  · rename_i hf; rw [if_neg hf] at h; exact h.1

theorem memberIn_of {s : Signal} {d : Bytes} {v : Int} (h : MemberFits s v)
    (hb : ∀ j, j < s.length → payloadBit d (bitPos s j) = intBit v j) : MemberIn s d v := by
  unfold MemberFits at h
  unfold MemberIn
  split
  · rename_i hf; rw [if_pos hf] at h; exact ⟨h.1, h.2, hb⟩
  · rename_i hf; rw [if_neg hf] at h; exact ⟨h, hb⟩

end C

open C

section
variable {fid : Int} {name : String} {len : Nat} {sigs : List Signal} {pat : UInt8} {ext : Bool} {m : Message}

/-- C70: no assertion of the generated fuzzer fails, for any input: inputs that are shorter than the message are
rejected, all others pass. -/
theorem C70_never_traps (hnd : (sigs.map (·.name)).Nodup)
    (hsup : ∀ s ∈ sigs, CSupported s) (hcs : CSelectors sigs)
    (hm : Message.create fid name len sigs pat ext true .default = .ok m)
    {pcode : C.Code C.PackSignal} (hp : C.genPack m = .ok pcode)
    {ucode : C.Code C.UnpackSignal} (hu : C.genUnpack (fun _ => true) m = .ok ucode)
    (junk junk2 : Nat → UInt8) (input : Bytes) :
    fuzzTest m pcode ucode junk junk2 input = .ok (if input.length < len then .rejected else .passed) := by
  obtain ⟨ha, hl, _⟩ := accepted_of_create hnd hm
  have hpos : ∀ s ∈ sigs, 0 < s.length := fun s hs => ha.pos s ((ha.mem s).2 hs)
  have hv : ∀ s, (∃ sel, Present sigs sel s) → Fits len s := fun s hs => hl ▸ (validLayout_congr ha.mem ha.valid).1 s hs
  let fo : FloatOps := ⟨fun _ _ => .error .error, fun _ => 0, by intro n q l h; cases h⟩
  unfold fuzzTest
  by_cases hlen : input.length < len
  · rw [(C30_unpack (fo := fo) hnd hsup hcs hm hu (fun _ => 0) input).1 hlen, if_pos hlen]
  rw [if_neg hlen]
  -- the first unpack
  obtain ⟨sel, hsel⟩ := selectorsIn_exists (fo := fo) hnd hpos input false false len
  obtain ⟨u, u1, u2, u3⟩ := (C30_unpack (fo := fo) hnd hsup hcs hm hu (fun _ => 0) input).2 (by omega) sel hsel
  have hpu := present_iff hpos hcs hv hsel (st := u) (fun s h _ => u2 s h (.inl rfl))
  -- the two packs
  have hj : ∀ j, (uninitialised j input.length).length = input.length := fun j => by simp [uninitialised]
  obtain ⟨b, b1, b2, b3, b4, -⟩ := (C30_pack hnd hsup hcs hm hp (uninitialised junk input.length) u).2 (by rw [hj]; omega)
  obtain ⟨c, c1, c2, c3, c4, -⟩ := (C30_pack hnd hsup hcs hm hp (uninitialised junk2 input.length) u).2 (by rw [hj]; omega)
  rw [hj] at b2 c2
  -- the second unpack
  have hbl : (b.take len).length = len := by rw [List.length_take]; omega
  obtain ⟨sel2, hsel2⟩ := selectorsIn_exists (fo := fo) hnd hpos (b.take len) false false len
  obtain ⟨w, w1, w2, w3⟩ := (C30_unpack (fo := fo) hnd hsup hcs hm hu (fun _ => 0) (b.take len)).2 (by omega) sel2 hsel2
  have hmu : ∀ s, Present sigs (fun n => some (u n)) s → MemberIn s (b.take len) (u s.name) := by
    intro s hs
    refine memberIn_of (memberIn_fits (u2 s ((hpu s).2 hs) (.inl rfl))) fun j hj => ?_
    rw [payloadBit_take (hv s ⟨_, hs⟩ _ ⟨j, hj, rfl⟩), b3 s hs j hj]
  have hpw := present_iff hpos hcs hv hsel2 (st := u) (fun s _ h => hmu s h)
  have hall : (m.signals.all fun s => u s.name == w s.name) = true := by
    rw [List.all_eq_true]
    intro s hs
    rw [beq_iff_eq]
    have hs' := (ha.mem s).1 hs
    by_cases hps : Present sigs (fun n => some (u n)) s
    · exact memberIn_unique (hpos s hs') (hmu s hps) (w2 s ((hpw s).2 hps) (.inl rfl))
    · have same : ∀ t, t ∈ sigs → t.name = s.name → t = s := fun t ht e =>
        List.inj_on_of_nodup_map hnd ht hs' e
      rw [u3 s.name fun t ht _ e => hps (same t ht.mem e ▸ (hpu t).1 ht),
        w3 s.name fun t ht _ e => hps (same t ht.mem e ▸ (hpw t).1 ht)]
  have htake : b.take len = c.take len := by
    refine take_eq_of_payloadBit (by omega) (by omega) fun p hp => ?_
    by_cases hocc : ∃ s, Present sigs (fun n => some (u n)) s ∧ Occupies s p
    · obtain ⟨s, hs, j, hj, rfl⟩ := hocc
      rw [b3 s hs j hj, c3 s hs j hj]
    · rw [b4 p hp fun s hs ho => hocc ⟨s, hs, ho⟩, c4 p hp fun s hs ho => hocc ⟨s, hs, ho⟩]
  rw [u1]
  dsimp only
  rw [b1]
  dsimp only
  rw [w1]
  dsimp only
  rw [if_pos hall, c1]
  dsimp only
  rw [if_pos ⟨rfl, htake⟩]

end

/-- C70: without the option for a node, every function that the fuzzer calls is declared and defined. -/
theorem C70_calls (o : C.Options) (ms : List C.GenMessage) (hn : o.node = none) :
    ∀ f ∈ fuzzCalls o ms, (∃ p ∈ C.declarations o ms, p.name = f) ∧ ∃ p ∈ C.definitions o ms, p.name = f := by
  intro f hf
  unfold fuzzCalls at hf
  obtain ⟨g, hg, hf⟩ := List.mem_flatMap.1 hf
  have hs : isSender o g = true := by unfold isSender; rw [hn]
  have hr : receives o g = true := by unfold receives; rw [hn]; rfl
  have hmp : packProto o g ∈ messageProtos o g ∧ unpackProto o g ∈ messageProtos o g := by
    unfold messageProtos
    rw [hs, hr]
    simp
  have dec : ∀ p ∈ messageProtos o g, p ∈ C.declarations o ms := fun p hp =>
    List.mem_flatMap.2 ⟨g, hg, List.mem_append_left _ hp⟩
  have dfn : ∀ p, p = packProto o g ∨ p = unpackProto o g → p ∈ C.definitions o ms := fun p hp => by
    refine List.mem_flatMap.2 ⟨g, hg, List.mem_append_left _ ?_⟩
    split
    · rcases hp with rfl | rfl
      · exact hmp.1
      · exact hmp.2
    · rcases hp with rfl | rfl <;> simp
  simp only [List.mem_cons, List.not_mem_nil, or_false] at hf
  rcases hf with rfl | rfl
  · exact ⟨⟨_, dec _ hmp.2, rfl⟩, _, dfn _ (.inr rfl), rfl⟩
  · exact ⟨⟨_, dec _ hmp.1, rfl⟩, _, dfn _ (.inl rfl), rfl⟩

/-- C70: with a node it is false: the fuzzer also calls the functions of messages that the node does not send, which
do not exist, so it cannot be linked. -/
theorem C70_node_fails : ∃ (o : C.Options) (ms : List C.GenMessage), (∀ g ∈ ms, 0 < g.length) ∧
    ∃ f ∈ fuzzCalls o ms, ∀ p ∈ C.definitions o ms, p.name ≠ f :=
  ⟨{ database := ['d'], node := some "N" }, [{ name := "M", frameId := 1, length := 8 }], by decide +kernel,
    "d_m_pack".toList, by decide +kernel, by decide +kernel⟩

section
open Example

def Example.allCode : C.Code C.UnpackSignal :=
  match C.genUnpack (fun _ => true) msg with | .ok c => c | .error _ => .nil

theorem Example.allCode_ok : C.genUnpack (fun _ => true) msg = .ok allCode := by
  obtain ⟨_, c, hc⟩ := C30_generates nodup supported cselectors msg_ok (fun _ => true)
  unfold allCode
  rw [hc]

/-- A multiplexed message, and an input that is longer than it and has bits outside of its signals. -/
example : fuzzTest msg packCode allCode (fun i => UInt8.ofNat i) (fun _ => 0xff) [0x91, 0xff, 0x0f, 0xc4, 7] = .ok .passed :=
  C70_never_traps nodup supported cselectors msg_ok packCode_ok allCode_ok _ _ _

/-- One that is too short. -/
example : fuzzTest msg packCode allCode (fun _ => 0) (fun _ => 0) [0x91, 0xff] = .ok .rejected :=
  C70_never_traps nodup supported cselectors msg_ok packCode_ok allCode_ok _ _ _

/-- The calls for a message. -/
example : fuzzCalls { database := "db".toList } [{ name := "EngineSpeed", frameId := 1, length := 8 }] =
    ["db_engine_speed_unpack".toList, "db_engine_speed_pack".toList] := by decide +kernel

end

end Cantools
