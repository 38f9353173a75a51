import Verif.Spec.Layout
import Verif.Lemmas.Bits
import Verif.Lemmas.Basic

namespace Cantools
open Spec

/-! ### Positions -/

/-- network bit number of a sawtooth bit number (and vice versa) -/
def net (p : Nat) : Nat := 8 * (p / 8) + (7 - p % 8)

theorem net_net (p : Nat) : net (net p) = p := by unfold net; omega

theorem net_lt {p L : Nat} : net p < 8 * L ↔ p < 8 * L := by unfold net; omega

theorem net_inj {p q : Nat} (h : net p = net q) : p = q := by
  rw [← net_net p, h, net_net]

theorem net_nextBig (p : Nat) : net (nextBig p) = net p + 1 := by
  unfold net nextBig; split <;> omega

theorem net_bigPos (start n : Nat) : net (bigPos start n) = net start + n := by
  induction n with
  | zero => rfl
  | succ n ih => simp only [bigPos, net_nextBig, ih]; omega

theorem startBit_big {s : Signal} (h : s.byteOrder = .big) : startBit s = net s.start := by
  simp [startBit, h, net]

theorem startBit_little {s : Signal} (h : s.byteOrder = .little) : startBit s = s.start := by
  simp [startBit, h]

theorem bitPos_big {s : Signal} (h : s.byteOrder = .big) {j : Nat} (_hj : j < s.length) :
    net (bitPos s j) = startBit s + (s.length - 1 - j) := by
  simp [bitPos, h, net_bigPos, startBit_big h]

theorem bitPos_little {s : Signal} (h : s.byteOrder = .little) (j : Nat) :
    bitPos s j = s.start + j := by
  simp [bitPos, h]

theorem occupies_big {s : Signal} (h : s.byteOrder = .big) (p : Nat) :
    Occupies s p ↔ startBit s ≤ net p ∧ net p < startBit s + s.length := by
  constructor
  · rintro ⟨j, hj, rfl⟩
    rw [bitPos_big h hj]; omega
  · rintro ⟨h1, h2⟩
    refine ⟨s.length - 1 - (net p - startBit s), by omega, ?_⟩
    apply net_inj
    rw [bitPos_big h (by omega)]; omega

theorem occupies_little {s : Signal} (h : s.byteOrder = .little) (p : Nat) :
    Occupies s p ↔ s.start ≤ p ∧ p < s.start + s.length := by
  constructor
  · rintro ⟨j, hj, rfl⟩
    rw [bitPos_little h]; omega
  · rintro ⟨h1, h2⟩
    exact ⟨p - s.start, by omega, by rw [bitPos_little h]; omega⟩

theorem bitPos_inj {s : Signal} {j k : Nat} (hj : j < s.length) (hk : k < s.length)
    (h : bitPos s j = bitPos s k) : j = k := by
  cases hb : s.byteOrder with
  | little => rw [bitPos_little hb, bitPos_little hb] at h; omega
  | big =>
    have := congrArg net h
    rw [bitPos_big hb hj, bitPos_big hb hk] at this; omega

theorem fits_iff {L : Nat} {s : Signal} (hl : 0 < s.length) :
    Fits L s ↔ startBit s + s.length ≤ 8 * L := by
  cases hb : s.byteOrder with
  | little =>
    rw [startBit_little hb]
    constructor
    · intro h
      have := h (s.start + s.length - 1) ((occupies_little hb _).2 (by omega)); omega
    · intro h p hp
      rw [occupies_little hb] at hp; omega
  | big =>
    constructor
    · intro h
      have := h (net (startBit s + s.length - 1)) ((occupies_big hb _).2 (by rw [net_net]; omega))
      rw [net_lt] at this; omega
    · intro h p hp
      rw [occupies_big hb] at hp
      rw [← net_lt]; omega

theorem Disjoint.symm {a b : Signal} (h : Spec.Disjoint a b) : Spec.Disjoint b a :=
  fun p hb ha => h p ha hb

theorem disjoint_big {a b : Signal} (ha : a.byteOrder = .big) (hb : b.byteOrder = .big)
    (h : Spec.Disjoint a b) (hlb : 0 < b.length) (hle : startBit a ≤ startBit b) :
    startBit a + a.length ≤ startBit b := by
  apply Nat.le_of_not_lt
  intro hlt
  apply h (net (startBit b))
  · rw [occupies_big ha, net_net]; omega
  · rw [occupies_big hb, net_net]; omega

theorem disjoint_little {a b : Signal} (ha : a.byteOrder = .little) (hb : b.byteOrder = .little)
    (h : Spec.Disjoint a b) (hlb : 0 < b.length) (hle : a.start ≤ b.start) :
    a.start + a.length ≤ b.start := by
  apply Nat.le_of_not_lt
  intro hlt
  apply h b.start
  · rw [occupies_little ha]; omega
  · rw [occupies_little hb]; omega

/-! ### Packing -/

/-- The packed bits of a signal, most significant first. -/
def fieldBits (fo : FloatOps) (raw : List (String × Rat)) (s : Signal) : List Bool :=
  match dictGet? raw s.name with
  | none => []
  | some v =>
    match packField fo s.kind s.length v with
    | .ok l => l
    | .error _ => []

/-- All bits of the field are defined. -/
def FieldOk (fo : FloatOps) (raw : List (String × Rat)) (s : Signal) : Prop :=
  ∃ v l, dictGet? raw s.name = some v ∧ packField fo s.kind s.length v = .ok l

theorem packField_length {fo : FloatOps} {k : Kind} {n : Nat} {v : Rat} {l : List Bool}
    (h : packField fo k n v = .ok l) : l.length = n := by
  cases k with
  | u => simp only [packField] at h; split at h <;> simp at h; subst h; simp
  | s => simp only [packField] at h; split at h <;> simp at h; subst h; simp
  | f => exact fo.pack_length _ _ _ h

theorem fieldBits_length {fo : FloatOps} {raw : List (String × Rat)} {s : Signal}
    (h : FieldOk fo raw s) : (fieldBits fo raw s).length = s.length := by
  obtain ⟨v, l, h1, h2⟩ := h
  simp [fieldBits, h1, h2, packField_length h2]

theorem packItems_nil {fo : FloatOps} {raw : List (String × Rat)} :
    packItems fo raw [] = .ok [] := rfl

theorem packItems_append {fo : FloatOps} {raw : List (String × Rat)} (a b : List Item)
    (bits : List Bool) :
    packItems fo raw (a ++ b) = .ok bits ↔
      ∃ x y, packItems fo raw a = .ok x ∧ packItems fo raw b = .ok y ∧ bits = x ++ y := by
  induction a generalizing bits with
  | nil => simp [packItems]
  | cons i r ih =>
    cases i with
    | pad n =>
      simp only [List.cons_append, packItems, Except.bind_eq_ok, Except.pure_eq_ok, ih]
      constructor
      · rintro ⟨_, ⟨x, y, hx, hy, rfl⟩, rfl⟩
        exact ⟨_, y, ⟨x, hx, rfl⟩, hy, by simp⟩
      · rintro ⟨_, y, ⟨x, hx, rfl⟩, hy, rfl⟩
        exact ⟨x ++ y, ⟨x, y, hx, hy, rfl⟩, by simp⟩
    | data k n name =>
      simp only [List.cons_append, packItems, Except.bind_eq_ok, Except.pure_eq_ok, ih]
      constructor
      · rintro ⟨v, hv, f, hf, _, ⟨x, y, hx, hy, rfl⟩, rfl⟩
        exact ⟨_, y, ⟨v, hv, f, hf, x, hx, rfl⟩, hy, by simp⟩
      · rintro ⟨_, y, ⟨v, hv, f, hf, x, hx, rfl⟩, hy, rfl⟩
        exact ⟨v, hv, f, hf, x ++ y, ⟨x, y, hx, hy, rfl⟩, by simp⟩

theorem packItems_pad {fo : FloatOps} {raw : List (String × Rat)} (n : Nat) (r : List Item)
    (bits : List Bool) :
    packItems fo raw (.pad n :: r) = .ok bits ↔
      ∃ y, packItems fo raw r = .ok y ∧ bits = List.replicate n false ++ y := by
  simp only [packItems, Except.bind_eq_ok, Except.pure_eq_ok]
  constructor <;> rintro ⟨y, h1, h2⟩ <;> exact ⟨y, h1, h2.symm⟩

theorem packItems_data {fo : FloatOps} {raw : List (String × Rat)} (s : Signal) (r : List Item)
    (bits : List Bool) :
    packItems fo raw (dataItem s :: r) = .ok bits ↔
      FieldOk fo raw s ∧ ∃ y, packItems fo raw r = .ok y ∧ bits = fieldBits fo raw s ++ y := by
  simp only [dataItem, packItems, Except.bind_eq_ok, Except.pure_eq_ok, FieldOk, fieldBits,
    dictGet_eq_ok]
  constructor
  · rintro ⟨v, hv, f, hf, y, hy, rfl⟩
    exact ⟨⟨v, f, hv, hf⟩, y, hy, by simp [hv, hf]⟩
  · rintro ⟨⟨v, f, hv, hf⟩, y, hy, rfl⟩
    exact ⟨v, hv, f, hf, y, hy, by simp [hv, hf]⟩

/-- Optional padding item. -/
def padIf (a b : Nat) : List Item := if a < b then [.pad (b - a)] else []

theorem packItems_padIf {fo : FloatOps} {raw : List (String × Rat)} (a b : Nat) :
    packItems fo raw (padIf a b) = .ok (List.replicate (b - a) false) := by
  unfold padIf
  split
  · simp [packItems, bind, Except.bind, pure, Except.pure]
  · have : b - a = 0 := by omega
    simp [packItems, this]

theorem getD_append' (l m : List Bool) (i : Nat) :
    (l ++ m).getD i false = if i < l.length then l.getD i false else m.getD (i - l.length) false := by
  split
  · rw [List.getD_eq_getElem?_getD, List.getD_eq_getElem?_getD, List.getElem?_append_left ‹_›]
  · rw [List.getD_eq_getElem?_getD, List.getD_eq_getElem?_getD,
      List.getElem?_append_right (by omega)]

theorem getD_replicate_false (n i : Nat) : (List.replicate n false).getD i false = false := by
  rw [List.getD_eq_getElem?_getD, List.getElem?_replicate]; split <;> rfl

theorem getD_ge {l : List Bool} {i : Nat} (h : l.length ≤ i) : l.getD i false = false := by
  rw [List.getD_eq_getElem?_getD, List.getElem?_eq_none h]; rfl

/-- Sorted, non-overlapping, fitting big endian signals. -/
def BigChain (L : Nat) : Nat → List Signal → Prop
  | start, [] => start ≤ L
  | start, s :: r => start ≤ startBit s ∧ BigChain L (startBit s + s.length) r

theorem BigChain.le {L start : Nat} {sigs : List Signal} (h : BigChain L start sigs) :
    start ≤ L := by
  induction sigs generalizing start with
  | nil => exact h
  | cons s r ih => have := ih h.2; have := h.1; omega

theorem BigChain.later {L start : Nat} {sigs : List Signal} (h : BigChain L start sigs) :
    ∀ t ∈ sigs, start ≤ startBit t := by
  induction sigs generalizing start with
  | nil => intro t ht; cases ht
  | cons u l ihl =>
    intro t ht
    rcases List.mem_cons.1 ht with rfl | ht
    · exact h.1
    · have := ihl h.2 t ht; have := h.1; omega

theorem bigItems_cons (L start : Nat) (s : Signal) (r : List Signal) :
    bigItems L start (s :: r) =
      padIf start (startBit s) ++ dataItem s :: bigItems L (startBit s + s.length) r := rfl

theorem bigItems_nil (L start : Nat) : bigItems L start [] = padIf start L := rfl

theorem packItems_big {fo : FloatOps} {raw : List (String × Rat)} {L : Nat} (sigs : List Signal)
    (start : Nat) (hc : BigChain L start sigs) (bits : List Bool)
    (h : packItems fo raw (bigItems L start sigs) = .ok bits) :
    bits.length = L - start ∧ (∀ s ∈ sigs, FieldOk fo raw s) ∧
    ∀ i, bits.getD i false = true ↔ ∃ s ∈ sigs, ∃ k, k < s.length ∧ startBit s + k = start + i ∧
      (fieldBits fo raw s).getD k false = true := by
  induction sigs generalizing start bits with
  | nil =>
    rw [bigItems_nil, packItems_padIf] at h
    cases h
    refine ⟨by simp, by simp, ?_⟩
    intro i; rw [getD_replicate_false]; simp
  | cons s r ih =>
    rw [bigItems_cons, packItems_append] at h
    obtain ⟨x, y, hx, hy, rfl⟩ := h
    rw [packItems_padIf] at hx; cases hx
    rw [packItems_data] at hy
    obtain ⟨hf, z, hz, rfl⟩ := hy
    obtain ⟨hlen, hok, hbits⟩ := ih _ hc.2 _ hz
    have hle := hc.2.le
    have hs := hc.1
    refine ⟨?_, ?_, ?_⟩
    · simp only [List.length_append, List.length_replicate, fieldBits_length hf, hlen]; omega
    · intro t ht
      rcases List.mem_cons.1 ht with rfl | ht
      · exact hf
      · exact hok t ht
    · intro i
      rw [getD_append', getD_append', getD_replicate_false, List.length_replicate,
        fieldBits_length hf]
      -- every other signal starts later
      have hlater := hc.2.later
      split
      · simp only [Bool.false_eq_true, false_iff, not_exists, not_and]
        intro t ht k hk he
        rcases List.mem_cons.1 ht with rfl | ht
        · omega
        · have := hlater t ht; omega
      · split
        · constructor
          · intro hb
            exact ⟨s, by simp, i - (startBit s - start), by omega, by omega, hb⟩
          · rintro ⟨t, ht, k, hk, he, hb⟩
            rcases List.mem_cons.1 ht with rfl | ht
            · have : i - (startBit t - start) = k := by omega
              rw [this]; exact hb
            · have := hlater t ht; omega
        · rw [hbits]
          constructor
          · rintro ⟨t, ht, k, hk, he, hb⟩
            exact ⟨t, by simp [ht], k, hk, by omega, hb⟩
          · rintro ⟨t, ht, k, hk, he, hb⟩
            rcases List.mem_cons.1 ht with rfl | ht
            · omega
            · exact ⟨t, ht, k, hk, by omega, hb⟩

theorem packItems_big_ok {fo : FloatOps} {raw : List (String × Rat)} {L : Nat} (sigs : List Signal)
    (start : Nat) (hok : ∀ s ∈ sigs, FieldOk fo raw s) :
    ∃ bits, packItems fo raw (bigItems L start sigs) = .ok bits := by
  induction sigs generalizing start with
  | nil => exact ⟨_, packItems_padIf _ _⟩
  | cons s r ih =>
    obtain ⟨z, hz⟩ := ih (startBit s + s.length) (fun t ht => hok t (by simp [ht]))
    refine ⟨_, (packItems_append _ _ _).2 ⟨_, _, packItems_padIf _ _,
      (packItems_data _ _ _).2 ⟨hok s (by simp), z, hz, rfl⟩, rfl⟩⟩

/-- Descending, non-overlapping little endian signals. -/
def LittleChain : Nat → List Signal → Prop
  | _, [] => True
  | stop, s :: r => s.start + s.length ≤ stop ∧ LittleChain s.start r

theorem littleItems_cons (stop : Nat) (s : Signal) (r : List Signal) :
    littleItems stop (s :: r) =
      padIf (s.start + s.length) stop ++ dataItem s :: littleItems s.start r := rfl

theorem littleItems_nil (stop : Nat) : littleItems stop [] = padIf 0 stop := by
  simp [littleItems, padIf]

theorem LittleChain.later {stop : Nat} {sigs : List Signal} (h : LittleChain stop sigs) :
    ∀ t ∈ sigs, t.start + t.length ≤ stop := by
  induction sigs generalizing stop with
  | nil => intro t ht; cases ht
  | cons u l ihl =>
    intro t ht
    rcases List.mem_cons.1 ht with rfl | ht
    · exact h.1
    · have := ihl h.2 t ht; have := h.1; omega

theorem packItems_little {fo : FloatOps} {raw : List (String × Rat)} (sigs : List Signal)
    (stop : Nat) (hc : LittleChain stop sigs) (bits : List Bool)
    (h : packItems fo raw (littleItems stop sigs) = .ok bits) :
    bits.length = stop ∧ (∀ s ∈ sigs, FieldOk fo raw s) ∧
    ∀ i, i < stop → (bits.getD i false = true ↔ ∃ s ∈ sigs, ∃ k, k < s.length ∧
      s.start + (s.length - 1 - k) = stop - 1 - i ∧ (fieldBits fo raw s).getD k false = true) := by
  induction sigs generalizing stop bits with
  | nil =>
    rw [littleItems_nil, packItems_padIf] at h
    cases h
    refine ⟨by simp, by simp, ?_⟩
    intro i _; rw [getD_replicate_false]; simp
  | cons s r ih =>
    rw [littleItems_cons, packItems_append] at h
    obtain ⟨x, y, hx, hy, rfl⟩ := h
    rw [packItems_padIf] at hx; cases hx
    rw [packItems_data] at hy
    obtain ⟨hf, z, hz, rfl⟩ := hy
    obtain ⟨hlen, hok, hbits⟩ := ih _ hc.2 _ hz
    have hs := hc.1
    have hlater := hc.2.later
    refine ⟨?_, ?_, ?_⟩
    · simp only [List.length_append, List.length_replicate, fieldBits_length hf, hlen]; omega
    · intro t ht
      rcases List.mem_cons.1 ht with rfl | ht
      · exact hf
      · exact hok t ht
    · intro i hi
      rw [getD_append', getD_append', getD_replicate_false, List.length_replicate,
        fieldBits_length hf]
      split
      · simp only [Bool.false_eq_true, false_iff, not_exists, not_and]
        intro t ht k hk he
        rcases List.mem_cons.1 ht with rfl | ht
        · omega
        · have := hlater t ht; omega
      · split
        · constructor
          · intro hb
            exact ⟨s, by simp, i - (stop - (s.start + s.length)), by omega, by omega, hb⟩
          · rintro ⟨t, ht, k, hk, he, hb⟩
            rcases List.mem_cons.1 ht with rfl | ht
            · have : i - (stop - (t.start + t.length)) = k := by omega
              rw [this]; exact hb
            · have := hlater t ht; omega
        · rw [hbits _ (by omega)]
          constructor
          · rintro ⟨t, ht, k, hk, he, hb⟩
            exact ⟨t, by simp [ht], k, hk, by omega, hb⟩
          · rintro ⟨t, ht, k, hk, he, hb⟩
            rcases List.mem_cons.1 ht with rfl | ht
            · omega
            · exact ⟨t, ht, k, hk, by omega, hb⟩

theorem packItems_little_ok {fo : FloatOps} {raw : List (String × Rat)} (sigs : List Signal)
    (stop : Nat) (hok : ∀ s ∈ sigs, FieldOk fo raw s) :
    ∃ bits, packItems fo raw (littleItems stop sigs) = .ok bits := by
  induction sigs generalizing stop with
  | nil => rw [littleItems_nil]; exact ⟨_, packItems_padIf _ _⟩
  | cons s r ih =>
    obtain ⟨z, hz⟩ := ih s.start (fun t ht => hok t (by simp [ht]))
    refine ⟨_, (packItems_append _ _ _).2 ⟨_, _, packItems_padIf _ _,
      (packItems_data _ _ _).2 ⟨hok s (by simp), z, hz, rfl⟩, rfl⟩⟩

/-! ### Padding masks -/

theorem maskBits_append (a b : List Item) : maskBits (a ++ b) = maskBits a ++ maskBits b := by
  simp [maskBits]

theorem maskBits_padIf (a b : Nat) : maskBits (padIf a b) = List.replicate (b - a) true := by
  unfold padIf
  split
  · simp [maskBits, Item.maskBits]
  · have : b - a = 0 := by omega
    simp [maskBits, this]

theorem maskBits_data (s : Signal) (r : List Item) :
    maskBits (dataItem s :: r) = List.replicate s.length false ++ maskBits r := by
  simp [maskBits, Item.maskBits, dataItem]

theorem getD_replicate_true (n i : Nat) :
    (List.replicate n true).getD i false = decide (i < n) := by
  rw [List.getD_eq_getElem?_getD, List.getElem?_replicate]; split <;> simp [*]

theorem maskBits_big {L : Nat} (sigs : List Signal) (start : Nat) (hc : BigChain L start sigs) :
    (maskBits (bigItems L start sigs)).length = L - start ∧
    ∀ i, i < L - start → ((maskBits (bigItems L start sigs)).getD i false = true ↔
      ∀ s ∈ sigs, ¬ (startBit s ≤ start + i ∧ start + i < startBit s + s.length)) := by
  induction sigs generalizing start with
  | nil =>
    rw [bigItems_nil, maskBits_padIf]
    refine ⟨by simp, ?_⟩
    intro i hi; rw [getD_replicate_true]; simp [hi]
  | cons s r ih =>
    obtain ⟨hlen, hb⟩ := ih _ hc.2
    have hs := hc.1
    have hle := hc.2.le
    have hlater := hc.2.later
    rw [bigItems_cons, maskBits_append, maskBits_padIf, maskBits_data]
    refine ⟨by simp only [List.length_append, List.length_replicate, hlen]; omega, ?_⟩
    intro i hi
    rw [getD_append', getD_append', getD_replicate_false, getD_replicate_true,
      List.length_replicate, List.length_replicate]
    split
    · simp only [decide_eq_true_eq, List.forall_mem_cons]
      constructor
      · intro _
        refine ⟨by omega, ?_⟩
        intro t ht
        have := hlater t ht; omega
      · intro _; assumption
    · split
      · simp only [Bool.false_eq_true, false_iff, List.forall_mem_cons]
        intro h; apply h.1; omega
      · rw [hb _ (by omega), List.forall_mem_cons]
        have e : startBit s + s.length + (i - (startBit s - start) - s.length) = start + i := by
          omega
        rw [e]
        constructor
        · intro h; exact ⟨by omega, h⟩
        · intro h; exact h.2

theorem maskBits_little (sigs : List Signal) (stop : Nat) (hc : LittleChain stop sigs) :
    (maskBits (littleItems stop sigs)).length = stop ∧
    ∀ i, i < stop → ((maskBits (littleItems stop sigs)).getD i false = true ↔
      ∀ s ∈ sigs, ¬ (s.start ≤ stop - 1 - i ∧ stop - 1 - i < s.start + s.length)) := by
  induction sigs generalizing stop with
  | nil =>
    rw [littleItems_nil, maskBits_padIf]
    refine ⟨by simp, ?_⟩
    intro i hi; rw [getD_replicate_true]; simp [hi]
  | cons s r ih =>
    obtain ⟨hlen, hb⟩ := ih _ hc.2
    have hs := hc.1
    have hlater := hc.2.later
    rw [littleItems_cons, maskBits_append, maskBits_padIf, maskBits_data]
    refine ⟨by simp only [List.length_append, List.length_replicate, hlen]; omega, ?_⟩
    intro i hi
    rw [getD_append', getD_append', getD_replicate_false, getD_replicate_true,
      List.length_replicate, List.length_replicate]
    split
    · simp only [decide_eq_true_eq, List.forall_mem_cons]
      constructor
      · intro _
        refine ⟨by omega, ?_⟩
        intro t ht
        have := hlater t ht; omega
      · intro _; assumption
    · split
      · simp only [Bool.false_eq_true, false_iff, List.forall_mem_cons]
        intro h; apply h.1; omega
      · rw [hb _ (by omega), List.forall_mem_cons]
        have e : s.start - 1 - (i - (stop - (s.start + s.length)) - s.length) = stop - 1 - i := by
          omega
        rw [e]
        constructor
        · intro h; exact ⟨by omega, h⟩
        · intro h; exact h.2

/-! ### Unpacking -/

theorem unpackItems_padIf {fo : FloatOps} (a b : Nat) (r : List Item) (bits : List Bool)
    (h : b - a ≤ bits.length) :
    unpackItems fo (padIf a b ++ r) bits = unpackItems fo r (bits.drop (b - a)) := by
  unfold padIf
  split
  · simp only [List.cons_append, List.nil_append, unpackItems]
    rw [if_neg (by omega)]
  · have : b - a = 0 := by omega
    simp [this]

theorem unpackItems_data {fo : FloatOps} (s : Signal) (r : List Item) (bits : List Bool)
    (h : s.length ≤ bits.length) :
    unpackItems fo (dataItem s :: r) bits =
      (unpackItems fo r (bits.drop s.length)).map
        (fun rest => (s.name, unpackField fo s.kind (bits.take s.length)) :: rest) := by
  simp only [dataItem, unpackItems]
  rw [if_neg (by omega)]
  cases unpackItems fo r (bits.drop s.length) <;> rfl

theorem unpackItems_big {fo : FloatOps} {L : Nat} (sigs : List Signal) (start : Nat)
    (hc : BigChain L start sigs) (bits : List Bool) (hl : bits.length = L - start) :
    unpackItems fo (bigItems L start sigs) bits = .ok (sigs.map fun s =>
      (s.name, unpackField fo s.kind ((bits.drop (startBit s - start)).take s.length))) := by
  induction sigs generalizing start bits with
  | nil =>
    rw [bigItems_nil]
    have := unpackItems_padIf (fo := fo) start L [] bits (by omega)
    simp only [List.append_nil] at this
    rw [this]; rfl
  | cons s r ih =>
    have hle := hc.2.le
    have hs := hc.1
    rw [bigItems_cons, unpackItems_padIf _ _ _ _ (by omega),
      unpackItems_data _ _ _ (by simp; omega),
      ih _ hc.2 _ (by simp only [List.length_drop]; omega)]
    simp only [Except.map, List.map_cons, Except.ok.injEq, List.cons.injEq, true_and]
    apply List.map_congr_left
    intro t ht
    have hlater := hc.2.later t ht
    simp only [List.drop_drop]
    have : startBit s - start + s.length + (startBit t - (startBit s + s.length))
        = startBit t - start := by omega
    rw [this]

theorem unpackItems_little {fo : FloatOps} (sigs : List Signal) (stop : Nat)
    (hc : LittleChain stop sigs) (bits : List Bool) (hl : bits.length = stop) :
    unpackItems fo (littleItems stop sigs) bits = .ok (sigs.map fun s =>
      (s.name, unpackField fo s.kind
        ((bits.drop (stop - (s.start + s.length))).take s.length))) := by
  induction sigs generalizing stop bits with
  | nil =>
    rw [littleItems_nil]
    have := unpackItems_padIf (fo := fo) 0 stop [] bits (by omega)
    simp only [List.append_nil] at this
    rw [this]; rfl
  | cons s r ih =>
    have hs := hc.1
    rw [littleItems_cons, unpackItems_padIf _ _ _ _ (by omega),
      unpackItems_data _ _ _ (by simp; omega),
      ih _ hc.2 _ (by simp only [List.length_drop]; omega)]
    simp only [Except.map, List.map_cons, Except.ok.injEq, List.cons.injEq, true_and]
    apply List.map_congr_left
    intro t ht
    have hlater := hc.2.later t ht
    simp only [List.drop_drop]
    have : stop - (s.start + s.length) + s.length + (s.start - (t.start + t.length))
        = stop - (t.start + t.length) := by omega
    rw [this]

end Cantools
