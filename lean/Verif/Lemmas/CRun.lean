import Verif.Lemmas.CExec
import Verif.Lemmas.AcceptedDecode

namespace Cantools.C
open Cantools Spec

theorem getSignal_eq {sigs : List Signal} (hnd : (sigs.map (·.name)).Nodup) {s : Signal}
    (hs : s ∈ sigs) : getSignal sigs s.name = .ok s := by
  unfold getSignal; rw [find?_name hnd hs]

theorem inCType_iff {s : Signal} (hl : s.length ≤ 64) {v : Int} : InCType s v ↔
    if s.isSigned then -(2 ^ (typeLength s - 1)) ≤ v ∧ v < 2 ^ (typeLength s - 1)
    else 0 ≤ v ∧ v < 2 ^ typeLength s := by
  have hmin : ∀ w', (w' = 8 ∨ w' = 16 ∨ w' = 32 ∨ w' = 64) → s.length ≤ w' → typeLength s ≤ w' := by
    intro w' h1 h2
    unfold typeLength
    split <;> [skip; split <;> [skip; split]] <;> omega
  constructor
  · rintro ⟨w, h1, h2, h3, h4⟩
    have : w = typeLength s :=
      Nat.le_antisymm (h3 _ (typeLength_cases s) (length_le_typeLength hl)) (hmin w h1 h2)
    subst this
    exact h4
  · intro h
    exact ⟨typeLength s, typeLength_cases s, length_le_typeLength hl, hmin, h⟩

theorem caseLabel_eq {sigs : List Signal} (hnd : (sigs.map (·.name)).Nodup) {s : Signal}
    (hs : s ∈ sigs) (hl : s.length ≤ 64) {i : Int} (hi : InCType s i) :
    caseLabel sigs s.name i = i := by
  unfold caseLabel
  rw [getSignal_eq hnd hs]
  simp only
  split
  · rename_i h
    rw [inCType_iff hl, h.1] at hi
    simp only [Bool.false_eq_true, if_false] at hi
    exact Int.emod_eq_of_lt hi.1 hi.2
  · rfl

theorem selects_congr {sigs sigs' : List Signal} (hmem : ∀ s, s ∈ sigs → s ∈ sigs') {p : Signal}
    (h : Selects sigs p) : Selects sigs' p :=
  ⟨h.1, h.2.imp fun _ h => hasBranch_congr hmem h⟩

theorem packValue_lt (src : Struct) (p : PackSignal) : packValue src p < 2 ^ p.width := by
  unfold packValue
  have h1 := Int.emod_nonneg (src p.member) (show (2 : Int) ^ p.width ≠ 0 by positivity)
  have h2 := Int.emod_lt_of_pos (src p.member) (show (0 : Int) < 2 ^ p.width by positivity)
  zify
  rw [Int.toNat_of_nonneg h1]; exact h2

/-- The pack lines of a signal. -/
def packLines (s : Signal) : PackSignal :=
  { member := s.name, width := typeLength s, segs := segments s false }

theorem run_pack {sigs : List Signal} {src : Struct} :
    ∀ (l : List Signal) (buf : Bytes), (∀ s ∈ l, s.length ≤ 64 ∧ Fits buf.length s) →
      ∀ buf', run (packMachine sigs src) packLines buf l = .ok buf' →
      buf'.length = buf.length ∧ ∀ p, payloadBit buf' p = true ↔ payloadBit buf p = true ∨
        ∃ s ∈ l, ∃ j, j < s.length ∧ bitPos s j = p ∧ intBit (src s.name) j = true := by
  intro l
  induction l with
  | nil => intro buf _ buf' h; cases h; exact ⟨rfl, by simp⟩
  | cons s r ih =>
    intro buf hl buf' h
    obtain ⟨h1, h2⟩ := hl s (by simp)
    obtain ⟨buf1, e1, e2, e3⟩ := packSignal_ok h1 (packValue_lt src (packLines s)) h2
    simp only [run, packMachine, bind, Except.bind] at h
    have e1' : packSegs (packLines s).width (packValue src (packLines s)) (packLines s).segs buf =
      .ok buf1 := e1
    rw [e1'] at h
    obtain ⟨f1, f2⟩ := ih buf1 (fun t ht => by rw [e2]; exact hl t (by simp [ht])) buf' h
    refine ⟨f1.trans e2, fun p => ?_⟩
    have hb : ∀ j, j < s.length → (packValue src (packLines s)).testBit j = intBit (src s.name) j :=
      fun j hj => toNat_testBit (lt_of_lt_of_le hj (length_le_typeLength h1))
    rw [f2, e3]
    constructor
    · rintro ((h | ⟨j, hj, hp, hbit⟩) | ⟨t, ht, h⟩)
      · exact .inl h
      · exact .inr ⟨s, by simp, j, hj, hp, by rw [← hb j hj]; exact hbit⟩
      · exact .inr ⟨t, by simp [ht], h⟩
    · rintro (h | ⟨t, ht, j, hj, hp, hbit⟩)
      · exact .inl (.inl h)
      · rcases List.mem_cons.1 ht with rfl | ht
        · exact .inl (.inr ⟨j, hj, hp, by rw [hb j hj]; exact hbit⟩)
        · exact .inr ⟨t, ht, j, hj, hp, hbit⟩

theorem payloadBit_zeros {n : Nat} {rest : Bytes} {p : Nat} (hp : p < 8 * n) :
    payloadBit (List.replicate n 0 ++ rest) p = false := by
  unfold payloadBit
  rw [List.getD_eq_getElem?_getD, List.getElem?_append_left (by simp; omega),
    List.getElem?_replicate, if_pos (by omega)]
  simp

theorem payloadBit_append_right {a b : Bytes} {p : Nat} (hp : 8 * a.length ≤ p) :
    payloadBit (a ++ b) p = payloadBit b (p - 8 * a.length) := by
  unfold payloadBit
  rw [List.getD_eq_getElem?_getD, List.getElem?_append_right (by omega), ← List.getD_eq_getElem?_getD]
  rw [show p / 8 - a.length = (p - 8 * a.length) / 8 by omega,
    show p % 8 = (p - 8 * a.length) % 8 by omega]

theorem bytes_ext {a b : Bytes} (hl : a.length = b.length)
    (h : ∀ p, p < 8 * a.length → payloadBit a p = payloadBit b p) : a = b := by
  apply List.ext_getElem hl
  intro i h1 h2
  apply UInt8.toNat_inj.1
  apply Nat.eq_of_testBit_eq
  intro k
  by_cases hk : k < 8
  · have := h (8 * i + k) (by omega)
    unfold payloadBit at this
    rw [show (8 * i + k) / 8 = i by omega, show (8 * i + k) % 8 = k by omega,
      List.getD_eq_getElem?_getD, List.getD_eq_getElem?_getD, List.getElem?_eq_getElem h1,
      List.getElem?_eq_getElem h2] at this
    exact this
  · have lt : ∀ x : UInt8, x.toNat < 2 ^ k := fun x =>
      lt_of_lt_of_le x.toNat_lt (Nat.pow_le_pow_right (by omega) (by omega))
    rw [Nat.testBit_lt_two_pow (lt _), Nat.testBit_lt_two_pow (lt _)]

theorem pack_spec {sigs : List Signal} {m : Message} (ha : Accepted sigs m)
    (hsup : ∀ s ∈ sigs, CSupported s) (hcs : CSelectors sigs) :
    ∃ code, genPack m = .ok code ∧ ∀ (dst : Bytes) (src : Struct), m.length ≤ dst.length →
      ∃ buf, pack m code dst src = .ok (m.length, buf) ∧ buf.length = dst.length ∧
        (∀ p, p < 8 * m.length → (payloadBit buf p = true ↔
          ∃ s, Present sigs (fun n => some (src n)) s ∧
            ∃ j, j < s.length ∧ bitPos s j = p ∧ intBit (src s.name) j = true)) ∧
        buf.drop m.length = dst.drop m.length := by
  obtain ⟨fuel, hc⟩ := ha.codec
  have hgen : ∀ s ∈ m.signals, genPackSignal m.signals s.name = .ok (packLines s) := by
    intro s hs
    unfold genPackSignal
    rw [getSignal_eq ha.nodup hs]; rfl
  have hskip : ∀ s ∈ m.signals, (fun _ : String => (Except.ok false : Except Err Bool)) s.name =
      .ok (!(fun _ : Signal => true) s) := fun _ _ => rfl
  have hsel : ∀ (dst : Bytes) (src : Struct), m.length ≤ dst.length →
      Runs m.signals (packMachine m.signals src) packLines (fun n => some (src n))
      (fun s => s ∈ m.signals ∧ s.length ≤ 64 ∧ Fits m.length s)
      (fun buf : Bytes => buf.length = dst.length) (fun _ _ => True) := by
    intro dst src hlen
    constructor
    · rintro s ⟨hs, hl, hf⟩ st hst
      have hf' : Fits st.length s := fun p hp => by have := hf p hp; omega
      obtain ⟨buf', h1, h2, _⟩ := packSignal_ok hl (packValue_lt src (packLines s)) hf'
      exact ⟨buf', h1, h2.trans hst, trivial, fun _ _ _ => trivial⟩
    · rintro s ⟨hs, hl, hf⟩ hsl st _
      have hs' := (ha.mem s).1 hs
      obtain ⟨hfl, hids⟩ := hcs s hs' (selects_congr (fun t ht => (ha.mem t).1 ht) hsl)
      refine ⟨src s.name, ?_, fun i hi => ?_⟩
      · simp only [packMachine, lookMember, getSignal_eq ha.nodup hs, hfl]
        rfl
      · simp only [packMachine]
        rw [caseLabel_eq ha.nodup hs hl (hids i (hasBranch_congr (fun t ht => (ha.mem t).1 ht) hi))]
        simp only [Option.some.injEq]
        exact eq_comm
  obtain ⟨body, muxes, hg, _⟩ := exec_level ha.nodup
    (hsel (List.replicate m.length 0) (fun _ => 0) (by simp)) hgen
    (skip := fun _ => .ok false) (kept := fun _ => true) hskip hc
  refine ⟨Code.ops body muxes, by unfold genPack genBody; rw [hg]; rfl, ?_⟩
  intro dst src hlen
  obtain ⟨body', muxes', hg', hx⟩ := exec_level ha.nodup (hsel dst src hlen) hgen
    (skip := fun _ => .ok false) (kept := fun _ => true) hskip hc
  rw [hg] at hg'
  cases hg'
  have hp : ∀ s, Reach m.signals (fun n => some (src n)) none none s ↔
      Present sigs (fun n => some (src n)) s := fun s => by
    rw [← present_iff_reach]; exact ha.present fun _ _ => rfl
  have hfit : ∀ s, Reach m.signals (fun n => some (src n)) none none s →
      s ∈ m.signals ∧ s.length ≤ 64 ∧ Fits m.length s := by
    intro s hs
    exact ⟨hs.mem, (hsup s ((ha.mem s).1 hs.mem)).1, ha.valid.1 s ⟨_, present_iff_reach.2 hs⟩⟩
  obtain ⟨all, buf, e1, e2, e3⟩ := hx hfit (List.replicate m.length 0 ++ dst.drop m.length)
    (by simp; omega)
  have hfit' : ∀ s ∈ all, s.length ≤ 64 ∧
      Fits (List.replicate m.length (0 : UInt8) ++ dst.drop m.length).length s := by
    intro s hs
    obtain ⟨_, h2, h3⟩ := hfit s ((e3 s).1 hs).1
    refine ⟨h2, fun p hp => ?_⟩
    have := h3 p hp
    simp; omega
  obtain ⟨f1, f2⟩ := run_pack all _ hfit' buf e2
  have hbl : buf.length = dst.length := by rw [f1]; simp; omega
  have hmem : ∀ s, s ∈ all ↔ Present sigs (fun n => some (src n)) s := by
    intro s
    rw [e3, hp]
    exact ⟨fun h => h.1, fun h => ⟨h, .inl rfl⟩⟩
  refine ⟨buf, ?_, hbl, ?_, ?_⟩
  · unfold pack
    rw [if_neg (by omega), e1]; rfl
  · intro p hp8
    rw [f2, payloadBit_zeros hp8]
    simp only [Bool.false_eq_true, false_or, hmem]
  · apply bytes_ext
    · simp [hbl]
    · intro p hp
      simp only [List.length_drop, hbl] at hp
      have hdrop : ∀ d : Bytes, m.length ≤ d.length →
          payloadBit (d.drop m.length) p = payloadBit d (p + 8 * m.length) := by
        intro d hd
        conv_rhs => rw [← List.take_append_drop m.length d]
        rw [payloadBit_append_right (by simp; omega)]
        congr 1
        simp; omega
      rw [hdrop buf (by omega), Bool.eq_iff_iff, f2]
      constructor
      · rintro (h | ⟨s, hs, j, hj, hpos, _⟩)
        · rw [payloadBit_append_right (by simp)] at h
          rw [← h]; congr 1; simp
        · have := (hfit s ((e3 s).1 hs).1).2.2 _ ⟨j, hj, hpos⟩
          omega
      · intro h
        left
        rw [payloadBit_append_right (by simp), ← h]; congr 1; simp

/-! ### Unpacking -/

theorem unpackStep_other {src : Bytes} {u : UnpackSignal} {dst dst' : Struct}
    (h : unpackStep src u dst = .ok dst') {n : String} (hn : n ≠ u.member) : dst' n = dst n := by
  unfold unpackStep at h
  simp only [Except.bind_eq_ok] at h
  obtain ⟨v, _, w, _, h⟩ := h
  have hst : ∀ x, storeMember dst u.member x n = dst n := fun x => by
    unfold storeMember; rw [if_neg hn]
  split at h
  · split at h
    · cases h; exact hst _
    · cases h
  · cases h; exact hst _

/-- The unpack lines of a signal. -/
def unpackLines' (s : Signal) : UnpackSignal :=
  unpackLines s (match signExtension s with | .ok e => e | .error _ => none)

theorem run_unpack_other {sigs : List Signal} {src : Bytes} :
    ∀ (l : List Signal) (dst dst' : Struct),
      run (unpackMachine sigs src) unpackLines' dst l = .ok dst' →
      ∀ n, (∀ s ∈ l, s.name ≠ n) → dst' n = dst n := by
  intro l
  induction l with
  | nil => intro dst dst' h n _; cases h; rfl
  | cons s r ih =>
    intro dst dst' h n hn
    simp only [run, Except.bind_eq_ok] at h
    obtain ⟨dst1, h1, h⟩ := h
    rw [ih dst1 dst' h n fun t ht => hn t (by simp [ht])]
    exact unpackStep_other h1 (fun he => hn s (by simp) he.symm)

theorem memberIn_unique {s : Signal} (hl : 0 < s.length) {d : Bytes} {v w : Int}
    (h : MemberIn s d v) (h' : MemberIn s d w) : v = w := by
  unfold MemberIn at h h'
  split at h
  · rename_i hf
    rw [if_pos hf] at h'
    have := emod_eq_of_bits (v := v) (w := w) (n := s.length)
      fun j hj => (h.2.2 j hj).symm.trans (h'.2.2 j hj)
    rw [Int.emod_eq_of_lt h.1 h.2.1, Int.emod_eq_of_lt h'.1 h'.2.1] at this
    exact this
  · rename_i hf
    rw [if_neg hf] at h'
    exact inRange_unique hl h.1 h'.1 fun j hj => (h.2 j hj).symm.trans (h'.2 j hj)

theorem rawIn_memberIn {fo : FloatOps} {s : Signal} (hl : 0 < s.length)
    (hf : s.conversion.isFloat = false) {d : Bytes} {r : Rat} {v : Int} (h : RawIn fo s d r)
    (h' : MemberIn s d v) : r = v := by
  unfold RawIn at h
  rw [hf] at h
  obtain ⟨i, rfl, hi⟩ := h
  have : MemberIn s d i := by unfold MemberIn; rw [hf]; exact hi
  rw [memberIn_unique hl this h']

theorem unpack_spec {fo : FloatOps} {sigs : List Signal} {m : Message} (ha : Accepted sigs m)
    (hnd : (sigs.map (·.name)).Nodup)
    (hsup : ∀ s ∈ sigs, CSupported s) (hcs : CSelectors sigs) (receives : Signal → Bool) :
    ∃ code, genUnpack receives m = .ok code ∧ ∀ (dst : Struct) (src : Bytes),
      m.length ≤ src.length → ∀ sel, SelectorsIn fo sigs src false false m.length sel →
      ∃ dst', unpack m code dst src = .ok dst' ∧
        (∀ s, Present sigs sel s → receives s = true ∨ Selects sigs s →
          MemberIn s src (dst' s.name)) ∧
        (∀ n, (∀ s, Present sigs sel s → receives s = true ∨ Selects sigs s → s.name ≠ n) →
          dst' n = dst n) := by
  obtain ⟨fuel, hc⟩ := ha.codec
  have hgen : ∀ s ∈ m.signals, genUnpackSignal m.signals s.name = .ok (unpackLines' s) := by
    intro s hs
    obtain ⟨e, he, _⟩ := signExtension_ok (hsup s ((ha.mem s).1 hs)).1
    unfold genUnpackSignal unpackLines'
    rw [getSignal_eq ha.nodup hs, he]
    simp only [bind, Except.bind, he]
    rfl
  have hskip : ∀ s ∈ m.signals, (fun n => (getSignal m.signals n).map fun s => !receives s) s.name =
      .ok (!receives s) := by
    intro s hs
    simp only [getSignal_eq ha.nodup hs]; rfl
  have hselects : ∀ s, Selects m.signals s ↔ Selects sigs s := fun s =>
    ⟨selects_congr fun t ht => (ha.mem t).1 ht, selects_congr fun t ht => (ha.mem t).2 ht⟩
  have hruns : ∀ (src : Bytes), m.length ≤ src.length → ∀ sel,
      SelectorsIn fo sigs src false false m.length sel →
      Runs m.signals (unpackMachine m.signals src) unpackLines' sel
        (fun s => s ∈ m.signals ∧ Fits m.length s) (fun _ : Struct => True)
        (fun st s => MemberIn s src (st s.name)) := by
    intro src hlen sel hsel
    constructor
    · rintro s ⟨hs, hf⟩ st _
      have hf' : Fits src.length s := fun p hp => by have := hf p hp; omega
      obtain ⟨e, v, h1, h2, h3⟩ := unpackStep_ok (ha.pos s hs) (hsup s ((ha.mem s).1 hs)) hf'
      have hlines : unpackLines' s = unpackLines s e := by unfold unpackLines'; rw [h1]
      refine ⟨storeMember st s.name v, ?_, trivial, ?_, ?_⟩
      · simp only [unpackMachine, hlines]; exact h3 st
      · simp only [storeMember, if_true]; exact h2
      · rintro t ⟨ht, _⟩ hk
        unfold storeMember
        split
        · rename_i he
          rw [name_inj ha.nodup ht hs he]; exact h2
        · exact hk
    · rintro s ⟨hs, hf⟩ hsl st hk
      have hs' := (ha.mem s).1 hs
      obtain ⟨hfl, hids⟩ := hcs s hs' ((hselects s).1 hsl)
      have hl := (hsup s hs').1
      obtain ⟨r, hr, hn⟩ := (hsel s hs').1 hf
      have hrk := rawIn_memberIn (ha.pos s hs) hfl hr hk
      refine ⟨st s.name, ?_, fun i hi => ?_⟩
      · simp only [unpackMachine, lookMember, getSignal_eq ha.nodup hs, hfl]
        rfl
      · simp only [unpackMachine]
        rw [caseLabel_eq ha.nodup hs hl (hids i (hasBranch_congr (fun t ht => (ha.mem t).1 ht) hi)),
          hn, hrk]
        have : selectorNumber s (shown s false false ((st s.name : Int) : Rat)) = some (st s.name) := by
          simp [shown, selectorNumber, pyInt_int]
        rw [this, Option.some.injEq]
        exact eq_comm
  obtain ⟨sel0, hsel0⟩ : ∃ sel, SelectorsIn fo sigs (List.replicate m.length 0) false false
      m.length sel := selectorsIn_exists (fo := fo) hnd (fun s hs => ha.pos s ((ha.mem s).2 hs)) _ false false _
  obtain ⟨body, muxes, hg, _⟩ := exec_level ha.nodup
    (hruns (List.replicate m.length 0) (by simp) sel0 hsel0) hgen
    (skip := fun n => (getSignal m.signals n).map fun s => !receives s) (kept := receives) hskip hc
  refine ⟨Code.ops body muxes, by unfold genUnpack genBody; rw [hg]; rfl, ?_⟩
  intro dst src hlen sel hsel
  obtain ⟨body', muxes', hg', hx⟩ := exec_level ha.nodup (hruns src hlen sel hsel) hgen
    (skip := fun n => (getSignal m.signals n).map fun s => !receives s) (kept := receives) hskip hc
  rw [hg] at hg'
  cases hg'
  have hp : ∀ s, Reach m.signals sel none none s ↔ Present sigs sel s := fun s => by
    rw [← present_iff_reach]; exact ha.present fun _ _ => rfl
  have hfit : ∀ s, Reach m.signals sel none none s → s ∈ m.signals ∧ Fits m.length s := by
    intro s hs
    exact ⟨hs.mem, ha.valid.1 s ⟨_, present_iff_reach.2 hs⟩⟩
  obtain ⟨all, dst', e1, e2, e3⟩ := hx hfit dst trivial
  obtain ⟨dst'', g1, _, g3, _⟩ := run_ok (hruns src hlen sel hsel) all dst
    (fun s hs => hfit s ((e3 s).1 hs).1) trivial
  rw [e2] at g1
  cases g1
  have hmem : ∀ s, s ∈ all ↔ Present sigs sel s ∧ (receives s = true ∨ Selects sigs s) := by
    intro s
    rw [e3, hp]
    unfold HasLines
    rw [hselects]
  refine ⟨dst', ?_, ?_, ?_⟩
  · unfold unpack
    rw [if_neg (by omega)]; exact e1
  · intro s hs hr
    exact g3 s ((hmem s).2 ⟨hs, hr⟩)
  · intro n hn
    exact run_unpack_other all dst dst' e2 n fun s hs =>
      hn s ((hmem s).1 hs).1 ((hmem s).1 hs).2

end Cantools.C
