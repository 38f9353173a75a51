import Verif.Lemmas.CSegments
import Verif.Lemmas.Check
import Verif.Lemmas.Accepted
import Verif.Spec.CSource
import Mathlib.Data.Nat.Bitwise

namespace Cantools.C
open Cantools Spec

theorem SegsOk.tail {s : Signal} {invert : Bool} {bits : Nat → Prop} {seg : Segment}
    {l : List Segment} (h : SegsOk s invert bits (seg :: l)) :
    SegsOk s invert (fun _ => False) l :=
  ⟨fun x hx => h.sound x (List.mem_cons_of_mem _ hx),
   fun x hx => h.nonempty x (List.mem_cons_of_mem _ hx), fun _ h => h.elim⟩

/-! ### Packing one signal -/

theorem orByte_ok {buf : Bytes} {index v : Nat} (hi : index < buf.length) (hv : v < 256) :
    ∃ buf', orByte buf index v = .ok buf' ∧ buf'.length = buf.length ∧
      ∀ p, payloadBit buf' p = true ↔ payloadBit buf p = true ∨ (p / 8 = index ∧ v.testBit (p % 8) = true) := by
  refine ⟨_, by unfold orByte; rw [if_pos hi], by simp, fun p => ?_⟩
  unfold payloadBit
  by_cases hp : p / 8 = index
  · have hlt : (buf.getD index 0).toNat ||| v < 2 ^ 8 :=
      Nat.or_lt_two_pow (buf.getD index 0).toNat_lt (by omega)
    subst hp
    rw [List.getD_eq_getElem?_getD, List.getElem?_set_self hi, Option.getD_some, UInt8.toNat_ofNat',
      Nat.mod_eq_of_lt hlt, Nat.testBit_or]
    simp
  · rw [List.getD_eq_getElem?_getD, List.getElem?_set_ne (fun h => hp h.symm),
      ← List.getD_eq_getElem?_getD]
    simp [hp]

theorem packSegs_ok {s : Signal} (hl : s.length ≤ 64) {v : Nat} (hv : v < 2 ^ typeLength s) :
    ∀ (l : List Segment) (bits : Nat → Prop) (buf : Bytes), SegsOk s false bits l →
      (∀ seg ∈ l, seg.index < buf.length) →
      ∃ buf', packSegs (typeLength s) v l buf = .ok buf' ∧ buf'.length = buf.length ∧
        ∀ p, payloadBit buf' p = true ↔ payloadBit buf p = true ∨ ∃ seg ∈ l, p / 8 = seg.index ∧
          seg.mask.testBit (p % 8) = true ∧ ∃ j, ShiftRel false seg j (p % 8) ∧ v.testBit j = true := by
  intro l
  induction l with
  | nil => intro bits buf _ _; exact ⟨buf, rfl, rfl, by simp⟩
  | cons seg r ih =>
    intro bits buf hs hi
    obtain ⟨b, h1, h2, h3⟩ := packHelper_ok hs List.mem_cons_self hl hv
    obtain ⟨buf1, g1, g2, g3⟩ := orByte_ok (hi seg List.mem_cons_self) h2
    obtain ⟨buf2, f1, f2, f3⟩ := ih _ buf1 hs.tail
      (fun x hx => by rw [g2]; exact hi x (List.mem_cons_of_mem _ hx))
    refine ⟨buf2, ?_, by rw [f2, g2], fun p => ?_⟩
    · unfold packSegs
      rw [h1]; simp only [bind, Except.bind]
      rw [g1]; exact f1
    · rw [f3, g3, h3]
      constructor
      · rintro ((h | ⟨h, h'⟩) | ⟨x, hx, h⟩)
        · exact .inl h
        · exact .inr ⟨seg, List.mem_cons_self, h, h'⟩
        · exact .inr ⟨x, List.mem_cons_of_mem _ hx, h⟩
      · rintro (h | ⟨x, hx, h⟩)
        · exact .inl (.inl h)
        · rcases List.mem_cons.1 hx with rfl | hx
          · exact .inl (.inr h)
          · exact .inr ⟨x, hx, h⟩

theorem index_lt {s : Signal} {L : Nat} {invert : Bool} {bits : Nat → Prop} {l : List Segment}
    (hs : SegsOk s invert bits l) (hf : Fits L s) : ∀ seg ∈ l, seg.index < L := by
  intro seg hseg
  obtain ⟨k, hk⟩ := hs.nonempty seg hseg
  obtain ⟨_, j, hj, hp, _⟩ := hs.sound seg hseg k hk
  have := hf _ ⟨j, hj, hp⟩
  omega

theorem shiftRel_inj {invert : Bool} {seg : Segment} {j j' k : Nat} (h : ShiftRel invert seg j k)
    (h' : ShiftRel invert seg j' k) : j = j' := by
  unfold ShiftRel at h h'
  split at h
  · rename_i he; rw [if_pos he] at h'; omega
  · rename_i he; rw [if_neg he] at h'; omega

/-- Packing a signal sets the bits of its value at their places. -/
theorem packSignal_ok {s : Signal} (hl : s.length ≤ 64) {v : Nat} (hv : v < 2 ^ typeLength s)
    {buf : Bytes} (hf : Fits buf.length s) :
    ∃ buf', packSegs (typeLength s) v (segments s false) buf = .ok buf' ∧
      buf'.length = buf.length ∧ ∀ p, payloadBit buf' p = true ↔ payloadBit buf p = true ∨
        ∃ j, j < s.length ∧ bitPos s j = p ∧ v.testBit j = true := by
  have hs := segments_ok s false
  obtain ⟨buf', h1, h2, h3⟩ := packSegs_ok hl hv _ _ buf hs (index_lt hs hf)
  refine ⟨buf', h1, h2, fun p => ?_⟩
  rw [h3]
  constructor
  · rintro (h | ⟨seg, hseg, hi, hm, j, hr, hj⟩)
    · exact .inl h
    · right
      obtain ⟨_, j', hj', hp, hr'⟩ := hs.sound seg hseg _ hm
      have := shiftRel_inj hr hr'
      subst this
      exact ⟨j, hj', by omega, hj⟩
  · rintro (h | ⟨j, hj, hp, hb⟩)
    · exact .inl h
    · right
      obtain ⟨seg, hseg, hi, hm⟩ := hs.complete j hj
      rw [hp] at hi hm
      obtain ⟨_, j', hj', hp', hr'⟩ := hs.sound seg hseg _ hm
      have : j = j' := bitPos_inj hj hj' (by omega)
      subst this
      exact ⟨seg, hseg, hi.symm, hm, j, hr', hb⟩

/-! ### Unpacking one signal -/

theorem unpackSegs_ok {s : Signal} (hl : s.length ≤ 64) {src : Bytes} :
    ∀ (l : List Segment) (bits : Nat → Prop) (acc : Nat), SegsOk s true bits l →
      (∀ seg ∈ l, seg.index < src.length) → acc < 2 ^ typeLength s →
      ∃ r, unpackSegs (typeLength s) src l acc = .ok r ∧ r < 2 ^ typeLength s ∧
        ∀ j, r.testBit j = true ↔ acc.testBit j = true ∨ ∃ seg ∈ l, ∃ k, ShiftRel true seg j k ∧
          seg.mask.testBit k = true ∧ (src.getD seg.index 0).toNat.testBit k = true := by
  intro l
  induction l with
  | nil => intro bits acc _ _ ha; exact ⟨acc, rfl, ha, by simp⟩
  | cons seg r ih =>
    intro bits acc hs hi ha
    obtain ⟨b, h1, h2⟩ := unpackHelper_ok hs List.mem_cons_self hl (src.getD seg.index 0).toNat
    have hb : b < 2 ^ typeLength s := by
      apply Nat.lt_pow_two_of_testBit
      intro j hj
      rw [← Bool.not_eq_true, h2]
      rintro ⟨k, hr, hm, _⟩
      obtain ⟨_, j', hj', _, hr'⟩ := hs.sound seg List.mem_cons_self k hm
      have := shiftRel_inj hr hr'
      have := length_le_typeLength hl
      omega
    have hor : acc ||| b < 2 ^ typeLength s := Nat.or_lt_two_pow ha hb
    obtain ⟨r', f1, f2, f3⟩ := ih _ (acc ||| b) hs.tail
      (fun x hx => hi x (List.mem_cons_of_mem _ hx)) hor
    refine ⟨r', ?_, f2, fun j => ?_⟩
    · unfold unpackSegs
      rw [if_pos (hi seg List.mem_cons_self), h1]
      simp only [bind, Except.bind]
      rw [Nat.mod_eq_of_lt hor]; exact f1
    · rw [f3, Nat.testBit_or, Bool.or_eq_true, h2]
      constructor
      · rintro ((h | h) | ⟨x, hx, h⟩)
        · exact .inl h
        · exact .inr ⟨seg, List.mem_cons_self, h⟩
        · exact .inr ⟨x, List.mem_cons_of_mem _ hx, h⟩
      · rintro (h | ⟨x, hx, h⟩)
        · exact .inl (.inl h)
        · rcases List.mem_cons.1 hx with rfl | hx
          · exact .inl (.inr h)
          · exact .inr ⟨x, hx, h⟩

theorem unpackBits_ok {s : Signal} (hl : s.length ≤ 64) {src : Bytes} (hf : Fits src.length s) :
    ∃ r, unpackSegs (typeLength s) src (segments s true) 0 = .ok r ∧ r < 2 ^ s.length ∧
      ∀ j, j < s.length → r.testBit j = payloadBit src (bitPos s j) := by
  have hs := segments_ok s true
  obtain ⟨r, h1, _, h3⟩ := unpackSegs_ok hl _ _ 0 hs (index_lt hs hf) (by positivity)
  have key : ∀ j, r.testBit j = true ↔ j < s.length ∧ payloadBit src (bitPos s j) = true := by
    intro j
    rw [h3]
    simp only [Nat.zero_testBit, Bool.false_eq_true, false_or]
    constructor
    · rintro ⟨seg, hseg, k, hr, hm, hb⟩
      obtain ⟨hk, j', hj', hp, hr'⟩ := hs.sound seg hseg k hm
      have := shiftRel_inj hr hr'
      subst this
      refine ⟨hj', ?_⟩
      unfold payloadBit
      rw [hp, show (8 * seg.index + k) / 8 = seg.index by omega,
        show (8 * seg.index + k) % 8 = k by omega]
      exact hb
    · rintro ⟨hj, hb⟩
      obtain ⟨seg, hseg, hi, hm⟩ := hs.complete j hj
      obtain ⟨_, j', hj', hp', hr'⟩ := hs.sound seg hseg _ hm
      have : j = j' := bitPos_inj hj hj' (by omega)
      subst this
      refine ⟨seg, hseg, _, hr', hm, ?_⟩
      rw [hi]; exact hb
  refine ⟨r, h1, ?_, fun j hj => ?_⟩
  · apply Nat.lt_pow_two_of_testBit
    intro j hj
    rw [← Bool.not_eq_true, key]
    omega
  · rw [Bool.eq_iff_iff, key]; simp [hj]

/-- The lines of a signal. -/
def unpackLines (s : Signal) (extend : Option (Nat × Nat)) : UnpackSignal :=
  { member := s.name, width := typeLength s, segs := segments s true
    floatBits := if s.conversion.isFloat then some (typeName s).bits else none
    extend
    signed := !s.conversion.isFloat && s.isSigned }

theorem signExtension_ok {s : Signal} (hl : s.length ≤ 64) : ∃ e, signExtension s = .ok e ∧
    (s.conversion.isFloat = true ∨ s.isSigned = false ∨ typeLength s = s.length → e = none) ∧
    (s.conversion.isFloat = false → s.isSigned = true → typeLength s ≠ s.length →
      e = some (s.length - 1, (2 ^ (typeLength s - s.length) - 1) * 2 ^ s.length)) := by
  have := length_le_typeLength hl
  unfold signExtension
  split
  · rename_i h; exact ⟨none, rfl, fun _ => rfl, fun h1 h2 => by simp [h1, h2] at h⟩
  · rename_i h
    rw [if_neg (by omega)]
    split
    · rename_i h'; exact ⟨none, rfl, fun _ => rfl, fun _ _ h3 => absurd h' h3⟩
    · rename_i h'
      refine ⟨_, rfl, fun hh => ?_, fun _ _ _ => rfl⟩
      rcases hh with hh | hh | hh
      · exact absurd (.inl hh) h
      · exact absurd (.inr hh) h
      · exact absurd hh h'

theorem typeLength_float {s : Signal} (hf : s.length = 32 ∨ s.length = 64)
    (hc : s.conversion.isFloat = true) : typeLength s = s.length ∧ (typeName s).bits = s.length := by
  unfold typeName typeLength
  rcases hf with h | h <;> simp [h, hc, CType.bits]

theorem intBit_sub_pow {v : Int} {n j : Nat} (h : j < n) : intBit (v - 2 ^ n) j = intBit v j := by
  rw [← intBit_emod (v := v - 2 ^ n) h, ← intBit_emod (v := v) h, Int.sub_emod_right]

/-- Unpacking a signal stores what the payload says. -/
theorem unpackStep_ok {s : Signal} (hpos : 0 < s.length) (hc : CSupported s) {src : Bytes}
    (hf : Fits src.length s) :
    ∃ e v, signExtension s = .ok e ∧ MemberIn s src v ∧
      ∀ dst, unpackStep src (unpackLines s e) dst = .ok (storeMember dst s.name v) := by
  obtain ⟨hl, hfl⟩ := hc
  obtain ⟨e, he, he1, he2⟩ := signExtension_ok hl
  obtain ⟨r, h1, h2, h3⟩ := unpackBits_ok hl hf
  have hle := length_le_typeLength hl
  by_cases hfloat : s.conversion.isFloat = true
  · obtain ⟨t1, t2⟩ := typeLength_float (hfl hfloat) hfloat
    rw [he1 (.inl hfloat)] at he
    refine ⟨none, r, he, ?_, fun dst => ?_⟩
    · unfold MemberIn
      rw [if_pos hfloat]
      refine ⟨by omega, by exact_mod_cast h2, fun j hj => ?_⟩
      rw [← h3 j hj, testBit_intBit]
    · unfold unpackStep unpackLines
      simp only [h1, bind, Except.bind, extendSign, hfloat, if_true, t2]
      rw [if_pos (by omega)]; rfl
  · have hfloat' : s.conversion.isFloat = false := by simpa using hfloat
    by_cases hsg : s.isSigned = true
    · have hbits : ∀ j, j < s.length → payloadBit src (bitPos s j) = intBit (r : Int) j :=
        fun j hj => by rw [← h3 j hj, testBit_intBit]
      have hp2 : 2 ^ s.length = 2 * 2 ^ (s.length - 1) := by
        rw [← pow_succ']; congr 1; omega
      have hp2' : (2 : Int) ^ s.length = 2 * 2 ^ (s.length - 1) := by exact_mod_cast hp2
      have hval : MemberIn s src (if r < 2 ^ (s.length - 1) then (r : Int) else r - 2 ^ s.length) := by
        unfold MemberIn
        rw [if_neg hfloat]
        unfold ReadsAs InRange
        rw [if_pos hsg]
        split
        · rename_i hr
          have : (r : Int) < 2 ^ (s.length - 1) := by exact_mod_cast hr
          have h0 : (0 : Int) ≤ 2 ^ (s.length - 1) := by positivity
          exact ⟨⟨by omega, this⟩, hbits⟩
        · rename_i hr
          have h4 : (2 : Int) ^ (s.length - 1) ≤ r := by exact_mod_cast Nat.le_of_not_lt hr
          have h5 : (r : Int) < 2 ^ s.length := by exact_mod_cast h2
          have h0 : (0 : Int) ≤ 2 ^ (s.length - 1) := by positivity
          exact ⟨⟨by omega, by omega⟩, fun j hj => by rw [hbits j hj, intBit_sub_pow hj]⟩
      by_cases hw : typeLength s = s.length
      · rw [he1 (.inr (.inr hw))] at he
        rw [hw] at h1
        refine ⟨none, _, he, hval, fun dst => ?_⟩
        unfold unpackStep unpackLines
        simp only [h1, bind, Except.bind, extendSign, hfloat', hsg, Bool.false_eq_true, if_false,
          Bool.not_false, Bool.and_self, if_true, toSigned, hw]
        rfl
      · rw [he2 hfloat' hsg hw] at he
        refine ⟨_, _, he, hval, fun dst => ?_⟩
        have hw64 : typeLength s ≤ 64 := by rcases typeLength_cases s with h | h | h | h <;> omega
        have hshl : shl (if typeLength s = 64 then 64 else 32) 1 (s.length - 1) =
            .ok (2 ^ (s.length - 1)) := by
          unfold shl
          have hlt : s.length - 1 < if typeLength s = 64 then 64 else 32 := by
            split
            · omega
            · rcases typeLength_cases s with h | h | h | h <;> omega
          have h32 : 32 ≤ if typeLength s = 64 then 64 else 32 := by split <;> omega
          generalize (if typeLength s = 64 then 64 else 32) = n at hlt h32
          rw [if_neg (by omega), if_neg (by omega), one_mul,
            Nat.mod_eq_of_lt (Nat.pow_lt_pow_right (by omega) hlt)]
        have htop : r.testBit (s.length - 1) = true ↔ ¬ r < 2 ^ (s.length - 1) := by
          constructor
          · intro h hlt
            rw [Nat.testBit_lt_two_pow hlt] at h; cases h
          · intro h
            rw [Nat.testBit_eq_decide_div_mod_eq, decide_eq_true_eq]
            have : r / 2 ^ (s.length - 1) = 1 :=
              Nat.div_eq_of_lt_le (by omega) (by omega)
            rw [this]
        have hpw : 2 ^ typeLength s = 2 ^ (typeLength s - s.length) * 2 ^ s.length := by
          rw [← pow_add]; congr 1; omega
        have hor : r ||| (2 ^ (typeLength s - s.length) - 1) * 2 ^ s.length =
            2 ^ typeLength s - 2 ^ s.length + r := by
          rw [Nat.or_comm, Nat.mul_comm, ← Nat.two_pow_add_eq_or_of_lt h2, Nat.mul_sub, mul_one,
            Nat.mul_comm, ← hpw]
        have hpl : 2 ^ s.length ≤ 2 ^ typeLength s := Nat.pow_le_pow_right (by omega) hle
        have hpt : 2 ^ typeLength s = 2 * 2 ^ (typeLength s - 1) := by
          rw [← pow_succ']; congr 1; omega
        have hpl' : 2 ^ s.length ≤ 2 ^ (typeLength s - 1) :=
          Nat.pow_le_pow_right (by omega) (by omega)
        unfold unpackStep unpackLines
        simp only [h1, bind, Except.bind, extendSign, hfloat', hsg, Bool.false_eq_true, if_false,
          Bool.not_false, Bool.and_self, if_true, hshl, pure, Except.pure, Nat.and_two_pow]
        congr 2
        by_cases hr : r < 2 ^ (s.length - 1)
        · have : r.testBit (s.length - 1) = false := by
            rw [← Bool.not_eq_true, htop]; exact not_not.2 hr
          rw [this]
          simp only [Bool.toNat_false, Nat.zero_mul, ne_eq, not_true_eq_false, if_false]
          unfold toSigned
          rw [if_pos (by omega), if_pos hr]
        · rw [htop.2 hr]
          simp only [Bool.toNat_true, Nat.one_mul]
          rw [if_pos (by positivity), hor, if_neg hr]
          unfold toSigned
          rw [Nat.mod_eq_of_lt (by omega), if_neg (by omega)]
          have : ((2 ^ typeLength s - 2 ^ s.length + r : Nat) : Int) =
              2 ^ typeLength s - 2 ^ s.length + r := by
            rw [Nat.cast_add, Nat.cast_sub hpl]; push_cast; rfl
          rw [this]; ring
    · have hsg' : s.isSigned = false := by simpa using hsg
      rw [he1 (.inr (.inl hsg'))] at he
      refine ⟨none, r, he, ?_, fun dst => ?_⟩
      · unfold MemberIn
        rw [if_neg hfloat]
        unfold ReadsAs InRange
        rw [if_neg hsg]
        refine ⟨⟨by omega, by exact_mod_cast h2⟩, fun j hj => ?_⟩
        rw [← h3 j hj, testBit_intBit]
      · unfold unpackStep unpackLines
        simp only [h1, bind, Except.bind, extendSign, hfloat', hsg', Bool.false_eq_true, if_false,
          Bool.and_false]
        rfl

/-! ### Running a body -/

/-- Runs the lines of signals one after the other. -/
def run {α σ : Type} (M : Machine α σ) (a : Signal → α) : σ → List Signal → Except CErr σ
  | st, [] => .ok st
  | st, s :: r => do
    let st ← M.step (a s) st
    run M a st r

theorem run_append {α σ : Type} (M : Machine α σ) (a : Signal → α) (st : σ) (l k : List Signal) :
    run M a st (l ++ k) = (run M a st l).bind fun st => run M a st k := by
  induction l generalizing st with
  | nil => rfl
  | cons s r ih =>
    simp only [List.cons_append, run, bind, Except.bind]
    cases M.step (a s) st with
    | error e => rfl
    | ok st' => exact ih st'

theorem exec_ops {α σ : Type} (M : Machine α σ) (a : Signal → α) (st : σ) (l : List Signal)
    (c : Code α) :
    (Code.ops (l.map a) c).exec M st = (run M a st l).bind fun st => c.exec M st := by
  induction l generalizing st with
  | nil => rfl
  | cons s r ih =>
    simp only [Code.ops, List.map_cons, List.foldr_cons, Code.exec, run, bind, Except.bind] at ih ⊢
    cases M.step (a s) st with
    | error e => rfl
    | ok st' => exact ih st'

/-- What is assumed about a machine and the generated lines. -/
structure Runs {α σ : Type} (sigs : List Signal) (M : Machine α σ) (a : Signal → α)
    (sel : String → Option Int) (P : Signal → Prop) (Inv : σ → Prop) (K : σ → Signal → Prop) :
    Prop where
  step : ∀ s, P s → ∀ st, Inv st → ∃ st', M.step (a s) st = .ok st' ∧ Inv st' ∧ K st' s ∧
    ∀ t, P t → K st t → K st' t
  look : ∀ s, P s → Selects sigs s → ∀ st, K st s → ∃ v, M.look st s.name = .ok v ∧
    ∀ i, HasBranch sigs s i → (M.conv s.name i = v ↔ sel s.name = some i)

theorem run_ok {α σ : Type} {sigs : List Signal} {M : Machine α σ} {a : Signal → α}
    {sel : String → Option Int} {P : Signal → Prop} {Inv : σ → Prop} {K : σ → Signal → Prop}
    (R : Runs sigs M a sel P Inv K) :
    ∀ (l : List Signal) (st : σ), (∀ s ∈ l, P s) → Inv st → ∃ st', run M a st l = .ok st' ∧
      Inv st' ∧ (∀ s ∈ l, K st' s) ∧ ∀ t, P t → K st t → K st' t := by
  intro l
  induction l with
  | nil => intro st _ hi; exact ⟨st, rfl, hi, by simp, fun _ _ h => h⟩
  | cons s r ih =>
    intro st hP hi
    obtain ⟨st1, h1, h2, h3, h4⟩ := R.step s (hP s (by simp)) st hi
    obtain ⟨st2, g1, g2, g3, g4⟩ := ih st1 (fun t ht => hP t (by simp [ht])) h2
    refine ⟨st2, ?_, g2, ?_, fun t ht h => g4 t ht (h4 t ht h)⟩
    · simp only [run, h1, bind, Except.bind]; exact g1
    · intro t ht
      rcases List.mem_cons.1 ht with rfl | ht
      · exact g4 t (hP t (by simp)) h3
      · exact g3 t ht

theorem ops_append {α : Type} (l k : List α) (c : Code α) :
    Code.ops (l ++ k) c = Code.ops l (Code.ops k c) := by
  simp [Code.ops]

/-- Signals that get lines: those wanted, and selectors. -/
def HasLines (sigs : List Signal) (kept : Signal → Bool) (s : Signal) : Prop :=
  kept s = true ∨ Selects sigs s

theorem selects_iff {sigs : List Signal} {s : Signal} :
    Selects sigs s ↔ s.isMultiplexer = true ∧ childrenIds sigs s ≠ [] := by
  unfold Selects; rw [childrenIds_ne]

theorem exec_level {α σ : Type} {sigs : List Signal} (hnd : (sigs.map (·.name)).Nodup)
    {M : Machine α σ} {a : Signal → α} {gen : String → Except Err α}
    {skip : String → Except Err Bool} {kept : Signal → Bool} {sel : String → Option Int}
    {P : Signal → Prop} {Inv : σ → Prop} {K : σ → Signal → Prop}
    (R : Runs sigs M a sel P Inv K) (hgen : ∀ s ∈ sigs, gen s.name = .ok (a s))
    (hskip : ∀ s ∈ sigs, skip s.name = .ok (!kept s))
    {fuel : Nat} {parent : Option String} {id : Option Int} {c : Codec}
    (hc : createCodec sigs fuel parent id = some c) :
    ∃ body muxes, genLevel gen skip (treeOfCodec c) = .ok (body, muxes) ∧
      ((∀ s, Reach sigs sel parent id s → P s) → ∀ st, Inv st → ∃ all st',
        (Code.ops body muxes).exec M st = .ok st' ∧ run M a st all = .ok st' ∧
        ∀ s, s ∈ all ↔ Reach sigs sel parent id s ∧ HasLines sigs kept s) := by
  induction fuel generalizing parent id c with
  | zero => simp [createCodec] at hc
  | succ fuel ih =>
    obtain ⟨fuel', ms, hf, rfl, hms⟩ := createCodec_cases hc
    cases hf
    have hms' : List.Forall₂ (fun s m => m.1 = s.name ∧ ChildTrees sigs fuel s m.2)
      (selectorsOf sigs parent id) ms := hms
    simp only [treeOfCodec]
    -- the cases of a switch
    have cases : ∀ (s : Signal) (brs : List (Int × Codec)),
        (∀ ic ∈ brs, createCodec sigs fuel (some s.name) (some ic.1) = some ic.2) →
        ∃ cs, genCases gen skip (treeOfBranches (Branches.ofList brs)) = .ok cs ∧
          ∀ (v : Int) (conv : Int → Int),
            (∀ i ∈ brs.map (·.1), conv i = v ↔ sel s.name = some i) →
            (∀ i t, sel s.name = some i → Reach sigs sel (some s.name) (some i) t → P t) →
            ∀ st, Inv st → ∃ all st', cs.exec M v conv st = .ok st' ∧ run M a st all = .ok st' ∧
              ∀ t, t ∈ all ↔ ∃ i, sel s.name = some i ∧ i ∈ brs.map (·.1) ∧
                Reach sigs sel (some s.name) (some i) t ∧ HasLines sigs kept t := by
      intro s brs
      induction brs with
      | nil =>
        intro _
        exact ⟨.nil, rfl, fun v conv _ _ st _ => ⟨[], st, rfl, rfl, by simp⟩⟩
      | cons ic brs ihb =>
        intro hcc
        obtain ⟨i, c⟩ := ic
        obtain ⟨body, muxes, hg, hx⟩ := ih (hcc (i, c) (by simp))
        obtain ⟨cs, hcs, hxs⟩ := ihb (fun x hx => hcc x (by simp [hx]))
        refine ⟨.cons i (Code.ops body muxes) cs, ?_, ?_⟩
        · simp only [Branches.ofList, treeOfBranches, genCases, hg, hcs, bind, Except.bind, pure,
            Except.pure]
        · intro v conv hconv hPc st hi
          have h0 := hconv i (by simp)
          by_cases hv : conv i = v
          · have hsel := h0.1 hv
            obtain ⟨all, st', e1, e2, e3⟩ := hx (fun t ht => hPc i t hsel ht) st hi
            refine ⟨all, st', ?_, e2, fun t => ?_⟩
            · simp only [Cases.exec]; rw [if_pos hv]; exact e1
            · rw [e3]
              constructor
              · rintro ⟨h1, h2⟩; exact ⟨i, hsel, by simp, h1, h2⟩
              · rintro ⟨j, h1, _, h2, h3⟩
                rw [hsel] at h1; cases h1
                exact ⟨h2, h3⟩
          · obtain ⟨all, st', e1, e2, e3⟩ := hxs v conv
              (fun j hj => hconv j (by simp only [List.map_cons, List.mem_cons]; exact .inr hj))
              hPc st hi
            refine ⟨all, st', ?_, e2, fun t => ?_⟩
            · simp only [Cases.exec]; rw [if_neg hv]; exact e1
            · rw [e3]
              have hne : sel s.name ≠ some i := fun h => hv (h0.2 h)
              constructor
              · rintro ⟨j, h1, h2, h3⟩; exact ⟨j, h1, by simp only [List.map_cons, List.mem_cons]; exact .inr h2, h3⟩
              · rintro ⟨j, h1, h2, h3⟩
                simp only [List.map_cons, List.mem_cons] at h2
                rcases h2 with rfl | h2
                · exact absurd h1 hne
                · exact ⟨j, h1, h2, h3⟩
    -- the signals of this level
    have loop : ∀ (l : List Signal), (∀ s ∈ l, s ∈ hereOf sigs parent id) →
        ∃ (here : List Signal) (muxes : Code α), genLevel gen skip (treeOfSignals (treeOfMuxes (Muxes.ofList ms)) l) =
            .ok (here.map a, muxes) ∧ (∀ t, t ∈ here ↔ t ∈ l ∧ HasLines sigs kept t) ∧
          ((∀ p ∈ l, P p) → (∀ p ∈ l, ∀ i t, p.isMultiplexer = true → sel p.name = some i →
              Reach sigs sel (some p.name) (some i) t → P t) →
            ∀ st, Inv st → (∀ p ∈ l, Selects sigs p → K st p) → ∃ all st',
              muxes.exec M st = .ok st' ∧ run M a st all = .ok st' ∧
              ∀ t, t ∈ all ↔ ∃ p ∈ l, ∃ i, p.isMultiplexer = true ∧ sel p.name = some i ∧
                Reach sigs sel (some p.name) (some i) t ∧ HasLines sigs kept t) := by
      intro l
      induction l with
      | nil =>
        intro _
        exact ⟨[], .nil, rfl, by simp, fun _ _ st _ _ => ⟨[], st, rfl, rfl, by simp⟩⟩
      | cons s r ihl =>
        intro hsub
        have hs := hsub s (by simp)
        have hsm := (mem_hereOf.1 hs).1
        obtain ⟨here, muxes, hg, hmem, hx⟩ := ihl (fun t ht => hsub t (by simp [ht]))
        rcases tree_lookup hnd hms' hs with ⟨hsel, b, ⟨brs, rfl, hbrs⟩, hb⟩ | ⟨hsel, hb⟩
        · -- a selector
          have hsels : Selects sigs s := by
            rw [selects_iff]; exact (mem_selectorsOf.1 hsel).2
          have hcc : ∀ ic ∈ brs,
              createCodec sigs fuel (some s.name) (some ic.1) = some ic.2 := by
            intro ic hic
            obtain ⟨i, _, h1, h2⟩ := forall₂_mem_right hbrs hic
            rw [h1]; exact h2
          obtain ⟨cs, hcs, hxs⟩ := cases s brs hcc
          have hmemids : ∀ i, i ∈ brs.map (·.1) ↔ HasBranch sigs s i := by
            intro i
            rw [hasBranch_iff]
            constructor
            · intro h
              obtain ⟨ic, h1, h2⟩ := List.mem_map.1 h
              obtain ⟨j, hj, h3, _⟩ := forall₂_mem_right hbrs h1
              rw [← h2, h3]; exact hj
            · intro h
              obtain ⟨ic, h1, h2⟩ := forall₂_mem_right hbrs.flip h
              exact List.mem_map.2 ⟨ic, h1, h2.1⟩
          have hids : ∀ i t, Reach sigs sel (some s.name) (some i) t → i ∈ brs.map (·.1) := by
            intro i t hr
            rw [hmemids]; left
            cases hr with
            | here h => rw [mem_hereOf] at h; exact ⟨t, h.1, h.2.1, h.2.2 i rfl⟩
            | down q _ h _ _ _ => rw [mem_hereOf] at h; exact ⟨q, h.1, h.2.1, h.2.2 i rfl⟩
          refine ⟨s :: here, .switch s.name cs muxes, ?_, ?_, ?_⟩
          · simp only [treeOfSignals, hb, genLevel, hgen s hsm, hcs, hg, bind, Except.bind, pure,
              Except.pure, List.map_cons]
          · intro t
            rw [List.mem_cons, List.mem_cons, hmem]
            constructor
            · rintro (rfl | ⟨h1, h2⟩)
              · exact ⟨.inl rfl, .inr hsels⟩
              · exact ⟨.inr h1, h2⟩
            · rintro ⟨rfl | h1, h2⟩
              · exact .inl rfl
              · exact .inr ⟨h1, h2⟩
          · intro hP hPd st hi hK
            obtain ⟨v, hv, hvi⟩ := R.look s (hP s (by simp)) hsels st (hK s (by simp) hsels)
            obtain ⟨all1, st1, e1, e2, e3⟩ := hxs v (M.conv s.name)
              (fun i h => hvi i ((hmemids i).1 h))
              (fun i t h1 h2 => hPd s (by simp) i t hsels.1 h1 h2) st hi
            have hP1 : ∀ t ∈ all1, P t := by
              intro t ht
              obtain ⟨i, h1, _, h2, _⟩ := (e3 t).1 ht
              exact hPd s (by simp) i t hsels.1 h1 h2
            obtain ⟨st1', f1, f2, f3, f4⟩ := run_ok R all1 st hP1 hi
            rw [e2] at f1; cases f1
            obtain ⟨all2, st2, g1, g2, g3⟩ := hx (fun p hp => hP p (by simp [hp]))
              (fun p hp => hPd p (by simp [hp])) st1 f2
              (fun p hp hps => f4 p (hP p (by simp [hp])) (hK p (by simp [hp]) hps))
            refine ⟨all1 ++ all2, st2, ?_, ?_, ?_⟩
            · simp only [Code.exec, hv, bind, Except.bind, e1]; exact g1
            · rw [run_append, e2]; exact g2
            · intro t
              rw [List.mem_append, e3, g3]
              constructor
              · rintro (⟨i, h1, _, h2, h3⟩ | ⟨p, hp, h⟩)
                · exact ⟨s, by simp, i, hsels.1, h1, h2, h3⟩
                · exact ⟨p, by simp [hp], h⟩
              · rintro ⟨p, hp, i, h1, h2, h3, h4⟩
                rcases List.mem_cons.1 hp with rfl | hp
                · exact .inl ⟨i, h2, hids i t h3, h3, h4⟩
                · exact .inr ⟨p, hp, i, h1, h2, h3, h4⟩
        · -- an ordinary signal
          have hns : ¬ Selects sigs s := by
            rw [selects_iff]
            intro h
            exact hsel (mem_selectorsOf.2 ⟨hs, h⟩)
          have hnone : ∀ i t, s.isMultiplexer = true →
              ¬ Reach sigs sel (some s.name) (some i) t := by
            intro i t hm hr
            apply hns
            refine ⟨hm, i, .inl ?_⟩
            cases hr with
            | here h => rw [mem_hereOf] at h; exact ⟨t, h.1, h.2.1, h.2.2 i rfl⟩
            | down q _ h _ _ _ => rw [mem_hereOf] at h; exact ⟨q, h.1, h.2.1, h.2.2 i rfl⟩
          refine ⟨if kept s then s :: here else here, muxes, ?_, ?_, ?_⟩
          · cases hk : kept s <;>
            simp [treeOfSignals, hb, genLevel, hgen s hsm, hskip s hsm, hk, hg, bind, Except.bind,
              pure, Except.pure]
          · intro t
            rw [List.mem_cons]
            have hst : HasLines sigs kept s ↔ kept s = true := by
              unfold HasLines; simp [hns]
            cases hk : kept s
            · simp only [Bool.false_eq_true, if_false, hmem]
              constructor
              · rintro ⟨h1, h2⟩; exact ⟨.inr h1, h2⟩
              · rintro ⟨rfl | h1, h2⟩
                · rw [hst, hk] at h2; cases h2
                · exact ⟨h1, h2⟩
            · simp only [if_true, List.mem_cons, hmem]
              constructor
              · rintro (rfl | ⟨h1, h2⟩)
                · exact ⟨.inl rfl, hst.2 hk⟩
                · exact ⟨.inr h1, h2⟩
              · rintro ⟨rfl | h1, h2⟩
                · exact .inl rfl
                · exact .inr ⟨h1, h2⟩
          · intro hP hPd st hi hK
            obtain ⟨all2, st2, g1, g2, g3⟩ := hx (fun p hp => hP p (by simp [hp]))
              (fun p hp => hPd p (by simp [hp])) st hi (fun p hp => hK p (by simp [hp]))
            refine ⟨all2, st2, g1, g2, fun t => ?_⟩
            rw [g3]
            constructor
            · rintro ⟨p, hp, h⟩; exact ⟨p, by simp [hp], h⟩
            · rintro ⟨p, hp, i, h1, h2, h3, h4⟩
              rcases List.mem_cons.1 hp with rfl | hp
              · exact absurd h3 (hnone i t h1)
              · exact ⟨p, hp, i, h1, h2, h3, h4⟩
    obtain ⟨here, muxes, hg, hmem, hx⟩ := loop _ (fun _ h => h)
    refine ⟨here.map a, muxes, hg, ?_⟩
    intro hP st hi
    obtain ⟨st1, e1, e2, e3, _⟩ := run_ok R here st
      (fun t ht => hP t (.here ((hmem t).1 ht).1)) hi
    obtain ⟨all, st2, g1, g2, g3⟩ := hx (fun p hp => hP p (.here hp))
      (fun p hp i t hm hs hr => hP t (.down p i hp hm hs hr)) st1 e2
      (fun p hp hps => e3 p ((hmem p).2 ⟨hp, .inr hps⟩))
    refine ⟨here ++ all, st2, ?_, ?_, ?_⟩
    · rw [exec_ops, e1]; exact g1
    · rw [run_append, e1]; exact g2
    · intro t
      rw [List.mem_append, hmem, g3]
      constructor
      · rintro (⟨h1, h2⟩ | ⟨p, hp, i, hm, hs, hr, h⟩)
        · exact ⟨.here h1, h2⟩
        · exact ⟨.down p i hp hm hs hr, h⟩
      · rintro ⟨hr, h⟩
        cases hr with
        | here h1 => exact .inl ⟨h1, h⟩
        | down p i hp hm hs hr => exact .inr ⟨p, hp, i, hm, hs, hr, h⟩

end Cantools.C
