import Verif.Spec.SnakeOil
import Verif.Props.SecOC

/-
C69: the example authenticator `SnakeOilAuthenticator`.
-/

namespace Cantools
open Spec Spec.SnakeOil

namespace SnakeOil

/-- `column` for a list that starts at position `n`. -/
def columnFrom (n : Nat) (l : Bytes) (j : Nat) : UInt8 :=
  (((l.zipIdx n).filter fun e => e.2 % 5 = j).map (·.1)).foldr (· ^^^ ·) 0

theorem columnFrom_cons (n : Nat) (b : UInt8) (l : Bytes) (j : Nat) :
    columnFrom n (b :: l) j = (if n % 5 = j then b else 0) ^^^ columnFrom (n + 1) l j := by
  unfold columnFrom
  rw [List.zipIdx_cons, List.filter_cons]
  by_cases h : n % 5 = j
  · simp [h]
  · simp [h]

theorem xor_cancel (a b : UInt8) : a ^^^ (a ^^^ b) = b := by
  rw [← UInt8.xor_assoc, UInt8.xor_self, UInt8.zero_xor]

theorem columnFrom_set (n : Nat) (l : Bytes) (q : Nat) (b : UInt8) (j : Nat) (h : q < l.length) :
    columnFrom n (l.set q b) j = columnFrom n l j ^^^ (if (n + q) % 5 = j then l.getD q 0 ^^^ b else 0) := by
  induction l generalizing n q with
  | nil => cases h
  | cons c l ih =>
    cases q with
    | zero =>
      rw [List.set_cons_zero, columnFrom_cons, columnFrom_cons, List.getD_cons_zero, show (n + 0) % 5 = n % 5 by rw [Nat.add_zero]]
      by_cases hn : n % 5 = j
      · rw [if_pos hn, if_pos hn, if_pos hn]
        have : (c ^^^ columnFrom (n + 1) l j) ^^^ (c ^^^ b) = c ^^^ (c ^^^ (b ^^^ columnFrom (n + 1) l j)) := by ac_rfl
        rw [this, xor_cancel]
      · rw [if_neg hn, if_neg hn, if_neg hn]
        simp
    | succ q =>
      rw [List.set_cons_succ, columnFrom_cons, columnFrom_cons, ih _ _ (by simpa using h), List.getD_cons_succ,
        show n + 1 + q = n + (q + 1) by omega, UInt8.xor_assoc]

theorem mix_eq {secret : Bytes} (hs : secret ≠ []) (data : Bytes) (i : Nat) (result : Bytes) (hr : result.length = 5) :
    ∃ r, mix secret i result data = .ok r ∧ r.length = 5 ∧ ∀ j, j < 5 →
      r.getD j 0 = result.getD j 0 ^^^ (columnFrom i data j ^^^
        columnFrom i ((List.range data.length).map fun k => secret.getD ((i + k) % secret.length) 0) j) := by
  induction data generalizing i result with
  | nil => exact ⟨result, rfl, hr, fun j _ => by simp [columnFrom]⟩
  | cons b data ih =>
    unfold mix
    rw [if_neg hs]
    obtain ⟨r, h1, h2, h3⟩ := ih (i + 1) (result.set (i % result.length)
      ((result.getD (i % result.length) 0 ^^^ b) ^^^ secret.getD (i % secret.length) 0)) (by rw [List.length_set, hr])
    refine ⟨r, h1, h2, fun j hj => ?_⟩
    rw [h3 j hj, columnFrom_cons, List.length_cons, List.range_succ_eq_map, List.map_cons, List.map_map, columnFrom_cons]
    have e : (fun k => secret.getD ((i + k) % secret.length) 0) ∘ Nat.succ =
        fun k => secret.getD ((i + 1 + k) % secret.length) 0 := by
      funext k
      show secret.getD ((i + (k + 1)) % secret.length) 0 = _
      rw [show i + (k + 1) = i + 1 + k by omega]
    rw [e, Nat.add_zero, hr]
    have hset : (result.set (i % 5) ((result.getD (i % 5) 0 ^^^ b) ^^^ secret.getD (i % secret.length) 0)).getD j 0 =
        result.getD j 0 ^^^ ((if i % 5 = j then b else 0) ^^^ (if i % 5 = j then secret.getD (i % secret.length) 0 else 0)) := by
      rw [List.getD_eq_getElem?_getD, List.getElem?_set]
      by_cases hij : i % 5 = j
      · subst hij
        simp only [if_true, hr, hj]
        rw [Option.getD_some, UInt8.xor_assoc]
      · rw [if_neg hij, if_neg hij, if_neg hij, ← List.getD_eq_getElem?_getD]
        simp
    rw [hset]
    ac_rfl

theorem wireBit_set (l : Bytes) (q : Nat) (b : UInt8) (h : q < l.length) (i : Nat) :
    wireBit (l.set q b) i = if i / 8 = q then b.toNat.testBit (7 - i % 8) else wireBit l i := by
  unfold wireBit
  rw [List.getD_eq_getElem?_getD, List.getElem?_set]
  by_cases c : i / 8 = q
  · subst c
    simp [h]
  · rw [if_neg (fun e => c e.symm), if_neg c, ← List.getD_eq_getElem?_getD]

theorem byte_of_wireBit {a b : Bytes} {j : Nat} (h : ∀ k, k < 8 → wireBit a (8 * j + k) = wireBit b (8 * j + k)) :
    a.getD j 0 = b.getD j 0 := by
  apply UInt8.toNat_inj.1
  apply Nat.eq_of_testBit_eq
  intro k
  by_cases hk : k < 8
  · have := h (7 - k) (by omega)
    unfold wireBit at this
    rw [show (8 * j + (7 - k)) / 8 = j by omega, show 7 - (8 * j + (7 - k)) % 8 = k by omega] at this
    exact this
  · have z : ∀ x : UInt8, x.toNat.testBit k = false := fun x =>
      Nat.testBit_lt_two_pow (Nat.lt_of_lt_of_le x.toNat_lt (Nat.pow_le_pow_right (by decide) (by omega)))
    rw [z, z]

/-- What is authenticated, after a byte of the payload was replaced. -/
theorem authData_set {s : SecOCProps} {frame : Bytes} {f : Nat} {d : Bytes} {p : Nat} {b : UInt8}
    (hd : IsAuthData s frame f d) (hp : p < s.payloadLength) (hl : s.payloadLength ≤ frame.length) :
    IsAuthData s (frame.set p b) f (d.set (p + 2) b) ∧ d.getD (p + 2) 0 = frame.getD p 0 ∧ p + 2 < d.length := by
  have hlen : p + 2 < d.length := by rw [hd.length]; omega
  refine ⟨⟨?_, ?_, ?_, ?_, ?_⟩, ?_, hlen⟩
  · rw [List.length_set, hd.length]
  · intro i hi
    rw [wireBit_set _ _ _ hlen, if_neg (by omega), hd.dataId i hi]
  · intro i hi
    rw [wireBit_set _ _ _ hlen, List.take_set, wireBit_set _ _ _ (by rw [List.length_take]; omega), hd.payload i hi,
      show (16 + i) / 8 = i / 8 + 2 by omega, show (16 + i) % 8 = i % 8 by omega]
    by_cases c : i / 8 = p
    · rw [if_pos (by omega), if_pos c]
    · rw [if_neg (by omega), if_neg c]
  · intro i hi
    rw [wireBit_set _ _ _ hlen, if_neg (by omega), hd.freshness i hi]
  · intro i hi
    rw [wireBit_set _ _ _ hlen]
    rw [if_neg (by omega), hd.fill i hi]
  · have h1 : d.getD (p + 2) 0 = (d.drop 2).getD p 0 := by
      rw [List.getD_eq_getElem?_getD, List.getD_eq_getElem?_getD, List.getElem?_drop, Nat.add_comm]
    have h2 : frame.getD p 0 = (frame.take s.payloadLength).getD p 0 := by
      rw [List.getD_eq_getElem?_getD, List.getD_eq_getElem?_getD, List.getElem?_take_of_lt hp]
    rw [h1, h2]
    apply byte_of_wireBit
    intro k hk
    rw [← hd.payload _ (by omega)]
    unfold wireBit
    rw [List.getD_eq_getElem?_getD, List.getD_eq_getElem?_getD, List.getElem?_drop,
      show 2 + (8 * p + k) / 8 = (16 + (8 * p + k)) / 8 by omega,
      show (8 * p + k) % 8 = (16 + (8 * p + k)) % 8 by omega]

theorem trailer_set {s : SecOCProps} {frame : Bytes} {f : Nat} {v w : Bytes} {p : Nat} {b : UInt8}
    (hp : p < s.payloadLength) (hl : s.payloadLength ≤ frame.length)
    (h : HasTrailer s f v (frame.set p b)) (hw : ∀ i, i < s.authTxBits → wireBit v i = wireBit w i) : HasTrailer s f w frame := by
  constructor
  · intro i hi
    rw [← h.freshness i hi, wireBit_set _ _ _ (by omega), if_neg (by omega)]
  · intro i hi
    rw [← hw i hi, ← h.authenticator i hi, wireBit_set _ _ _ (by omega), if_neg (by omega)]

end SnakeOil

open SnakeOil

/-- C69: with a secret that is not empty the authenticator never fails. It has five bytes; each is a checksum of every
fifth byte of the data and the secret. -/
theorem C69_columns {secret : Bytes} (hs : secret ≠ []) (data : Bytes) (f : Int) :
    ∃ r, authenticator secret data f = .ok r ∧ r.length = 5 ∧ ∀ j, j < 5 →
      r.getD j 0 = UInt8.ofNat (f % 253).toNat ^^^ (column data j ^^^ column (repeated secret data.length) j) := by
  obtain ⟨r, h1, h2, h3⟩ := mix_eq hs data 0 (List.replicate 5 (UInt8.ofNat (f % 253).toNat)) (by simp)
  refine ⟨r, h1, h2, fun j hj => ?_⟩
  rw [h3 j hj, List.getD_eq_getElem?_getD, List.getElem?_replicate, if_pos hj]
  simp only [Nat.zero_add]
  rfl

/-- C69: an empty secret is accepted, but nothing can be authenticated with it. -/
theorem C69_empty_secret_fails (s : SecOCProps) (frame : Bytes) (f : Int) (d : Bytes) (h : authData s frame f = .ok d) :
    authenticator [] d f = .error .zeroDivisionError := by
  obtain ⟨_, hd⟩ := (authData_iff s frame f d).1 h
  have := hd.length
  match d with
  | [] => simp only [List.length_nil] at this; omega
  | b :: d => rfl

/-- C69: the authenticator can be used for all messages (C24). -/
theorem C69_computes {secret : Bytes} (hs : secret ≠ []) : ∃ auth, Computes secret auth :=
  ⟨fun d f => (authenticator secret d f).toOption.getD [], fun d f => by
    obtain ⟨r, h, -⟩ := C69_columns hs d f
    simp only [h]; rfl⟩

/-- C69: if one byte of the payload of a secured frame is changed, and the part of the authenticator that is transmitted
includes the column of the byte (all of them, if 40 bits are transmitted), the frame is rejected. -/
theorem C69_change_rejected {secret : Bytes} (hs : secret ≠ []) {auth : Bytes → Int → Bytes} (ha : Computes secret auth)
    (s : SecOCProps) (frame : Bytes) (f : Int) (h : verifyAuthenticator (some s) auth frame f = .ok true)
    {p : Nat} (hp : p < s.payloadLength) {b : UInt8} (hb : frame.getD p 0 ≠ b)
    (hcol : 8 * ((p + 2) % 5) + 8 ≤ s.authTxBits) :
    verifyAuthenticator (some s) auth (frame.set p b) f = .ok false := by
  obtain ⟨hu, d, hd, ht⟩ := (C24_verify_iff s auth frame f).1 h
  have hl : s.payloadLength ≤ frame.length := by have := hu.fits; omega
  have hu' : Usable s f (frame.set p b).length := by rw [List.length_set]; exact hu
  obtain ⟨r, hr⟩ := C24_verify_total s auth (frame.set p b) f hu'
  cases r with
  | false => exact hr
  | true =>
    exfalso
    obtain ⟨-, d', hd', ht'⟩ := (C24_verify_iff s auth (frame.set p b) f).1 hr
    obtain ⟨h1, h2, h3⟩ := authData_set (b := b) hd hp hl
    have e : d' = d.set (p + 2) b := by
      have c1 := (authData_iff s (frame.set p b) f d').2 ⟨⟨hu.payload, hu.freshBits, hu.dataId, hu.nonneg, hu.fresh⟩, hd'⟩
      have c2 := (authData_iff s (frame.set p b) f _).2 ⟨⟨hu.payload, hu.freshBits, hu.dataId, hu.nonneg, hu.fresh⟩, h1⟩
      exact Except.ok.inj (c1.symm.trans c2)
    subst e
    have t1 := trailer_set hp hl ht' (fun _ _ => rfl)
    have eb : (auth d f).getD ((p + 2) % 5) 0 = (auth (d.set (p + 2) b) f).getD ((p + 2) % 5) 0 := by
      apply byte_of_wireBit
      intro k hk
      rw [← ht.authenticator _ (by omega), ← t1.authenticator _ (by omega)]
    obtain ⟨r1, a1, -, a3⟩ := C69_columns hs d f
    obtain ⟨r2, b1, -, b3⟩ := C69_columns hs (d.set (p + 2) b) f
    rw [ha] at a1 b1
    cases a1; cases b1
    rw [a3 _ (by omega), b3 _ (by omega), List.length_set] at eb
    have ec : column (d.set (p + 2) b) ((p + 2) % 5) = column d ((p + 2) % 5) ^^^ (d.getD (p + 2) 0 ^^^ b) := by
      have := columnFrom_set 0 d (p + 2) b ((p + 2) % 5) h3
      rw [Nat.zero_add, if_pos rfl] at this
      exact this
    rw [ec, h2] at eb
    have e1 := congrArg (fun x => UInt8.ofNat (f % 253).toNat ^^^ x) eb
    simp only [xor_cancel] at e1
    have e2 := congrArg (fun x => x ^^^ column (repeated secret d.length) ((p + 2) % 5)) e1
    simp only [UInt8.xor_assoc, UInt8.xor_self, UInt8.xor_zero] at e2
    have e3 := congrArg (fun x => column d ((p + 2) % 5) ^^^ x) e2
    simp only [xor_cancel, UInt8.xor_self] at e3
    exact hb (UInt8.xor_eq_zero_iff.1 e3.symm)

/-- C69: but two bytes of the payload that are five bytes apart can be exchanged in any secured frame. -/
theorem C69_exchange_accepted {secret : Bytes} (hs : secret ≠ []) {auth : Bytes → Int → Bytes} (ha : Computes secret auth)
    (s : SecOCProps) (frame : Bytes) (f : Int) (h : verifyAuthenticator (some s) auth frame f = .ok true)
    {p : Nat} (hp : p + 5 < s.payloadLength) :
    verifyAuthenticator (some s) auth ((frame.set p (frame.getD (p + 5) 0)).set (p + 5) (frame.getD p 0)) f = .ok true := by
  obtain ⟨hu, d, hd, ht⟩ := (C24_verify_iff s auth frame f).1 h
  have hl : s.payloadLength ≤ frame.length := by have := hu.fits; omega
  obtain ⟨h1, h2, h3⟩ := authData_set (b := frame.getD (p + 5) 0) hd (p := p) (by omega) hl
  obtain ⟨h4, h5, h6⟩ := authData_set (b := frame.getD p 0) h1 (p := p + 5) hp (by rw [List.length_set]; exact hl)
  rw [C24_verify_iff]
  refine ⟨by rw [List.length_set, List.length_set]; exact hu, _, h4, ?_⟩
  have hg : (frame.set p (frame.getD (p + 5) 0)).getD (p + 5) 0 = frame.getD (p + 5) 0 := by
    rw [List.getD_eq_getElem?_getD, List.getElem?_set, if_neg (by omega), ← List.getD_eq_getElem?_getD]
  have ev : auth ((d.set (p + 2) (frame.getD (p + 5) 0)).set (p + 5 + 2) (frame.getD p 0)) f = auth d f := by
    obtain ⟨r1, a1, a2, a3⟩ := C69_columns hs d f
    obtain ⟨r2, b1, b2, b3⟩ := C69_columns hs ((d.set (p + 2) (frame.getD (p + 5) 0)).set (p + 5 + 2) (frame.getD p 0)) f
    rw [ha] at a1 b1
    cases a1; cases b1
    refine List.ext_getElem (b2.trans a2.symm) fun j hj hj' => ?_
    have e1 := a3 j (by omega)
    have e2 := b3 j (by omega)
    rw [List.getD_eq_getElem?_getD, List.getElem?_eq_getElem hj', Option.getD_some] at e1
    rw [List.getD_eq_getElem?_getD, List.getElem?_eq_getElem hj, Option.getD_some] at e2
    rw [e1, e2]
    simp only [List.length_set]
    have c1 := columnFrom_set 0 (d.set (p + 2) (frame.getD (p + 5) 0)) (p + 5 + 2) (frame.getD p 0) j h6
    rw [columnFrom_set 0 d (p + 2) (frame.getD (p + 5) 0) j h3, h5, h2, hg] at c1
    have : column ((d.set (p + 2) (frame.getD (p + 5) 0)).set (p + 5 + 2) (frame.getD p 0)) j = column d j := by
      refine Eq.trans c1 ?_
      rw [show (0 + (p + 5 + 2)) % 5 = (0 + (p + 2)) % 5 by omega]
      split
      · rw [UInt8.xor_assoc, UInt8.xor_comm (frame.getD (p + 5) 0) (frame.getD p 0), UInt8.xor_self, UInt8.xor_zero]; rfl
      · simp; rfl
    rw [this]
  rw [ev]
  constructor
  · intro i hi
    rw [← ht.freshness i hi, wireBit_set _ _ _ (by rw [List.length_set]; omega), if_neg (by omega),
      wireBit_set _ _ _ (by omega), if_neg (by omega)]
  · intro i hi
    rw [← ht.authenticator i hi, wireBit_set _ _ _ (by rw [List.length_set]; omega), if_neg (by omega),
      wireBit_set _ _ _ (by omega), if_neg (by omega)]

/-- C69: different secrets may give the same authenticator: a secret of one byte has no effect on ten bytes of data. -/
theorem C69_secret_without_effect {data : Bytes} (hd : data.length = 10) (a b : UInt8) (f : Int) :
    authenticator [a] data f = authenticator [b] data f := by
  obtain ⟨r, h1, h2, h3⟩ := C69_columns (secret := [a]) (by simp) data f
  obtain ⟨q, g1, g2, g3⟩ := C69_columns (secret := [b]) (by simp) data f
  rw [h1, g1]
  congr 1
  refine List.ext_getElem (h2.trans g2.symm) fun j hj hj' => ?_
  have e1 := h3 j (by omega)
  have e2 := g3 j (by omega)
  rw [List.getD_eq_getElem?_getD, List.getElem?_eq_getElem hj, Option.getD_some] at e1
  rw [List.getD_eq_getElem?_getD, List.getElem?_eq_getElem hj', Option.getD_some] at e2
  rw [e1, e2, hd]
  have z : ∀ c : UInt8, column (repeated [c] 10) j = 0 := by
    intro c
    have hr : repeated [c] 10 = List.replicate 10 c := by
      simp [repeated, Nat.mod_one]
      rfl
    have : j = 0 ∨ j = 1 ∨ j = 2 ∨ j = 3 ∨ j = 4 := by omega
    rw [hr]
    rcases this with rfl | rfl | rfl | rfl | rfl <;> simp [column, List.replicate, List.zipIdx]
  rw [z, z]

/-! ### Examples -/

namespace SnakeOilExample

def settings : SecOCProps := ⟨8, 0x1234, 40, 16, 8⟩

def auth : Bytes → Int → Bytes := fun d f => (authenticator [0x53, 0x65, 0x63] d f).toOption.getD []

example : Computes [0x53, 0x65, 0x63] auth := fun d f => by
  obtain ⟨r, h, -⟩ := C69_columns (secret := [0x53, 0x65, 0x63]) (by simp) d f
  unfold auth
  rw [h]; rfl

/-- A secured frame with 8 bytes of payload, a byte of the freshness value and five bytes of authenticator; one with a
changed byte and one with two bytes exchanged. -/
example : ∃ frame, applyAuthenticator (some settings) auth [1, 2, 3, 4, 5, 6, 7, 8, 0, 0, 0, 0, 0, 0] 0x321 = .ok frame ∧
    verifyAuthenticator (some settings) auth frame 0x321 = .ok true ∧
    verifyAuthenticator (some settings) auth (frame.set 3 9) 0x321 = .ok false ∧
    verifyAuthenticator (some settings) auth ((frame.set 1 7).set 6 2) 0x321 = .ok true :=
  ⟨[1, 2, 3, 4, 5, 6, 7, 8, 33, 106, 111, 43, 31, 23], by decide +kernel, by decide +kernel, by decide +kernel, by decide +kernel⟩

end SnakeOilExample

end Cantools
