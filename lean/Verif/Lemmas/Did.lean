import Verif.Spec.Did
import Verif.Lemmas.RoundTrip

/-
Lemmas about diagnostic identifiers.
-/

namespace Cantools
open Spec

/-! ### The hexadecimal detour -/

theorem hexDigits_step (a b : Nat) (ha : 0 < a) (hb : b < 16) :
    hexDigits (16 * a + b) = hexDigits a ++ [b] := by
  rw [hexDigits, if_neg (by omega)]
  congr 2 <;> omega

theorem hexDigits_split (k : Nat) : ∀ a b : Nat, 0 < a → b < 256 ^ k →
    hexDigits (a * 256 ^ k + b) = hexDigits a ++
      (List.range k).flatMap fun i => [b / 256 ^ (k - 1 - i) / 16 % 16, b / 256 ^ (k - 1 - i) % 16] := by
  induction k with
  | zero => intro a b ha hb; simp at hb; subst hb; simp
  | succ k ih =>
    intro a b ha hb
    have e : a * 256 ^ (k + 1) + b = 16 * (16 * (a * 256 ^ k + b / 256) + b / 16 % 16) + b % 16 := by
      have : a * 256 ^ (k + 1) = 256 * (a * 256 ^ k) := by ring
      rw [this]; omega
    have hp : 0 < a * 256 ^ k + b / 256 := by positivity
    rw [e, hexDigits_step _ _ (by omega) (by omega), hexDigits_step _ _ hp (by omega),
      ih a (b / 256) ha (by rw [pow_succ] at hb; omega), List.range_succ, List.flatMap_append,
      List.append_assoc, List.append_assoc]
    congr 1
    simp only [List.flatMap_cons, List.flatMap_nil, List.append_nil]
    have h1 : k + 1 - 1 - k = 0 := by omega
    rw [h1]
    simp only [pow_zero, Nat.div_one, List.singleton_append,
      List.append_cancel_right_eq]
    rw [List.flatMap_congr]
    intro i hi
    rw [List.mem_range] at hi
    have h2 : k + 1 - 1 - i = (k - 1 - i) + 1 := by omega
    rw [h2, pow_succ', ← Nat.div_div_eq_div_mul]

theorem unhexlify_bytes (l : List Nat) : unhexlify (l.flatMap fun x => [x / 16 % 16, x % 16]) =
    .ok (l.map UInt8.ofNat) := by
  induction l with
  | nil => rfl
  | cons x r ih =>
    simp only [List.flatMap_cons, List.cons_append, List.nil_append, unhexlify, ih, List.map_cons]
    change Except.ok _ = Except.ok _
    beta_reduce
    congr 2
    apply UInt8.toNat_inj.1
    simp only [UInt8.toNat_ofNat']
    omega

theorem unhexlify_hex {e L : Nat} (he : e < 256 ^ L) :
    unhexlify ((hexDigits (e ||| (0x80 <<< (8 * L)))).drop 2) = .ok (bytesBig e L) := by
  have h256 : (256 : Nat) ^ L = 2 ^ (8 * L) := by rw [pow_mul]; norm_num
  have hor : e ||| (0x80 <<< (8 * L)) = 0x80 * 256 ^ L + e := by
    rw [Nat.shiftLeft_eq, h256, Nat.or_comm, Nat.mul_comm]
    exact (Nat.two_pow_add_eq_or_of_lt (h256 ▸ he) _).symm
  have h80 : hexDigits 0x80 = [8, 0] := by
    rw [hexDigits, if_neg (by omega), hexDigits, if_pos (by omega)]; rfl
  rw [hor, hexDigits_split L 0x80 e (by omega) he, h80]
  have : (List.range L).flatMap (fun i => [e / 256 ^ (L - 1 - i) / 16 % 16, e / 256 ^ (L - 1 - i) % 16]) =
      ((List.range L).map fun i => e / 256 ^ (L - 1 - i)).flatMap fun x => [x / 16 % 16, x % 16] := by
    rw [List.flatMap_map]
  simp only [List.cons_append, List.nil_append, List.drop_succ_cons, List.drop_zero]
  rw [this, unhexlify_bytes]
  congr 1
  unfold bytesBig
  rw [List.map_map]
  apply List.map_congr_left
  intro i _
  simp only [Function.comp, Nat.shiftRight_eq_div_pow, pow_mul]
  norm_num

theorem unhexlify_length : ∀ {l : List Nat} {b : Bytes}, unhexlify l = .ok b → 2 * b.length = l.length
  | [], b, h => by cases h; rfl
  | [_], b, h => by cases h
  | x :: y :: r, b, h => by
    simp only [unhexlify, Except.map_eq_ok] at h
    obtain ⟨c, hc, rfl⟩ := h
    have := unhexlify_length hc
    simp only [List.length_cons]; omega

theorem hexDigits_length (k : Nat) : ∀ n : Nat, 16 ^ k ≤ n → k + 1 ≤ (hexDigits n).length := by
  induction k with
  | zero => intro n _; unfold hexDigits; split <;> simp
  | succ k ih =>
    intro n hn
    have : 16 ^ (k + 1) = 16 * 16 ^ k := by ring
    have hp : 0 < 16 ^ k := by positivity
    rw [hexDigits, if_neg (by omega)]
    have := ih (n / 16) (by omega)
    simp only [List.length_append, List.length_singleton]; omega

/-! ### DIDs as messages -/

/-- The message without multiplexing that has the same fields. -/
def Did.asMessage (d : Did) : Message :=
  { length := d.length, signals := d.signals, codec := .mk d.signals .nil }

theorem mem_signals {d : Did} {s : Signal} : s ∈ d.signals ↔ ∃ x ∈ d.datas, x.toSignal = s := by
  unfold Did.signals; simp

theorem signals_names (d : Did) : d.signals.map (·.name) = d.datas.map (·.name) := by
  unfold Did.signals; rw [List.map_map]; rfl

theorem present_did {d : Did} {sel : String → Option Int} {s : Signal} :
    Present d.signals sel s ↔ s ∈ d.signals := by
  constructor
  · exact fun h => h.mem
  · intro h
    obtain ⟨x, hx, rfl⟩ := mem_signals.1 h
    exact .root _ h rfl

theorem _root_.Cantools.Spec.DidLayout.nodeOK {d : Did} (h : DidLayout d) : NodeOK d.length d.signals := by
  refine ⟨by rw [signals_names]; exact h.nodup, ?_, ?_, ?_, ?_⟩
  · intro s hs; obtain ⟨x, hx, rfl⟩ := mem_signals.1 hs; exact h.pos x hx
  · intro s hs; obtain ⟨x, hx, rfl⟩ := mem_signals.1 hs; exact h.fits x hx
  · intro a ha b hb hab
    obtain ⟨x, hx, rfl⟩ := mem_signals.1 ha
    obtain ⟨y, hy, rfl⟩ := mem_signals.1 hb
    exact h.disj x hx y hy fun e => hab (by rw [e])
  · unfold Did.signals
    rw [List.filter_map, List.pairwise_map]
    have : (d.datas.filter ((fun s : Signal => !(s.byteOrder == .big)) ∘ Data.toSignal)) =
        d.datas.filter fun x => x.byteOrder = .little := by
      apply List.filter_congr
      intro x _
      simp only [Function.comp, Data.toSignal]
      cases x.byteOrder <;> rfl
    rw [this]
    exact h.ascending

theorem _root_.Cantools.Spec.DidLayout.accepted {d : Did} (h : DidLayout d) : Accepted d.signals d.asMessage := by
  have hn := h.nodeOK
  refine ⟨hn.nodup, fun s => Iff.rfl, hn.sorted, hn.pos, ⟨?_, ?_⟩, 1, ?_⟩
  · rintro s ⟨sel, hs⟩; exact hn.fits s (present_did.1 hs)
  · intro sel a b ha hb; exact hn.disj a (present_did.1 ha) b (present_did.1 hb)
  · have h1 : d.signals.filter (atNode none none) = d.signals := by
      apply List.filter_eq_self.2
      intro s hs
      obtain ⟨x, _, rfl⟩ := mem_signals.1 hs
      rfl
    have h2 : d.signals.filter (fun s => s.isMultiplexer && !(childrenIds d.signals s).isEmpty) = [] := by
      apply List.filter_eq_nil_iff.2
      intro s hs
      obtain ⟨x, _, rfl⟩ := mem_signals.1 hs
      simp [Data.toSignal]
    simp only [Did.asMessage, createCodec, h1, h2]
    rfl

theorem encode_eq {fo : FloatOps} {d : Did} (h : DidLayout d) (data : List (String × Value))
    (scaling : Bool) : d.encode fo data scaling = encodeRaw fo d.asMessage data scaling false := by
  unfold Did.encode encodeRaw
  simp only [Did.asMessage, encodeNode, encodeMuxes, Bool.false_eq_true, if_false]
  cases he : encodeData fo data d.signals (createFormats d.signals d.length) scaling with
  | error e => rfl
  | ok e =>
    have hlt : e < 256 ^ d.length := by
      have := (encodeData_ok h.nodeOK he).2.1
      rw [pow_mul] at this; exact this
    change (unhexlify _).bind _ = toBytesBig e d.length
    rw [unhexlify_hex hlt, toBytesBig_ok.2 ⟨hlt, rfl⟩]
    change Except.ok _ = Except.ok _
    congr 1
    exact List.take_of_length_le (by simp [bytesBig])

theorem decode_eq {fo : FloatOps} (d : Did) (data : Bytes) (dc sc tr ex : Bool) :
    d.decode fo data dc sc tr ex = Cantools.decode fo d.asMessage (data.take d.length) dc sc tr ex := by
  unfold Did.decode Cantools.decode
  simp only [Did.asMessage, decodeNode, decodeMuxes]
  cases decodeData fo (data.take d.length) d.length d.signals (createFormats d.signals d.length)
    dc sc tr ex <;> rfl

theorem selectable_did {d : Did} (sel : String → Option Int) : Selectable d.signals sel := by
  intro p hp hm
  obtain ⟨x, _, rfl⟩ := mem_signals.1 (present_did.1 hp)
  cases hm

/-! ### CDD layouts -/

theorem loadDatas_snd (fields : List CddField) : ∀ o, (loadDatas o fields).2 =
    o + (fields.map (·.bitLength)).sum := by
  induction fields with
  | nil => intro o; rfl
  | cons f r ih =>
    intro o
    simp only [loadDatas, ih, List.map_cons, List.sum_cons, loadDataElement]; omega

theorem loadDatas_length (fields : List CddField) : ∀ o, (loadDatas o fields).1.length =
    fields.length := by
  induction fields with
  | nil => intro o; rfl
  | cons f r ih => intro o; simp [loadDatas, ih]

theorem fieldOffset_succ (f : CddField) (r : List CddField) (i : Nat) :
    fieldOffset (f :: r) (i + 1) = f.bitLength + fieldOffset r i := by
  simp [fieldOffset]

theorem loadDatas_get (fields : List CddField) : ∀ (o i : Nat), (loadDatas o fields).1[i]? =
    (fields[i]?).map fun f => loadDataElement f (o + fieldOffset fields i) := by
  induction fields with
  | nil => intro o i; rfl
  | cons f r ih =>
    intro o i
    cases i with
    | zero => simp [loadDatas, fieldOffset]
    | succ i =>
      simp only [loadDatas, List.getElem?_cons_succ, ih, fieldOffset_succ]
      congr 1
      funext g
      simp only [loadDataElement]
      congr 2; omega

theorem fieldOffset_le (fields : List CddField) (i : Nat) (f : CddField) (h : fields[i]? = some f) :
    fieldOffset fields i + f.bitLength ≤ (fields.map (·.bitLength)).sum ∧
    fieldOffset fields (i + 1) = fieldOffset fields i + f.bitLength := by
  induction fields generalizing i with
  | nil => cases h
  | cons g r ih =>
    cases i with
    | zero =>
      cases h
      simp [fieldOffset]
    | succ i =>
      obtain ⟨h1, h2⟩ := ih i h
      rw [fieldOffset_succ, fieldOffset_succ, h2]
      simp only [List.map_cons, List.sum_cons]
      omega

theorem fieldOffset_mono (fields : List CddField) {i j : Nat} (h : i ≤ j) :
    fieldOffset fields i ≤ fieldOffset fields j := by
  unfold fieldOffset
  have : fields.take i = (fields.take j).take i := by rw [List.take_take, Nat.min_eq_left h]
  rw [this, List.map_take]
  conv_rhs => rw [← List.take_append_drop i ((fields.take j).map (·.bitLength))]
  rw [List.sum_append]; omega

theorem loadDid_mem {id : Int} {nm : String} {fields : List CddField} {x : Data}
    (h : x ∈ (loadDidElement id nm fields).datas) : ∃ i f, fields[i]? = some f ∧
      x = loadDataElement f (fieldOffset fields i) := by
  obtain ⟨i, hi⟩ := List.mem_iff_getElem?.1 h
  simp only [loadDidElement, loadDatas_get, Nat.zero_add, Option.map_eq_some_iff] at hi
  obtain ⟨f, hf, rfl⟩ := hi
  exact ⟨i, f, hf, rfl⟩

end Cantools
