import Verif.Spec.Container
import Verif.Lemmas.RoundTrip

/-
Lemmas about container messages.
-/

namespace Cantools
open Spec

theorem bytesBig_one (n : Nat) : bytesBig n 1 = [UInt8.ofNat n] := by
  simp [bytesBig, List.range_succ]

theorem bytesBig_three (n : Nat) :
    bytesBig n 3 = [UInt8.ofNat (n / 65536), UInt8.ofNat (n / 256), UInt8.ofNat n] := by
  simp [bytesBig, List.range_succ, Nat.shiftRight_eq_div_pow]

theorem wireEntry_iff {big : Bool} {id : Nat} {payload w : Bytes} :
    wireEntry big id payload = .ok w ↔
      id < 2 ^ 24 ∧ payload.length < 256 ∧ w = header big id payload.length ++ payload := by
  unfold wireEntry toBytesBig toBytesLittle header
  rw [bytesBig_one, bytesBig_three]
  have e : (256 : Nat) ^ 3 = 2 ^ 24 := by norm_num
  rw [e, pow_one]
  generalize 2 ^ 24 = K
  by_cases h1 : id < K <;> by_cases h2 : payload.length < 256 <;> cases big <;>
    simp [h1, h2, eq_comm, bind, Except.bind, pure, Except.pure]

theorem ofNat_toNat (n : Nat) : (UInt8.ofNat n).toNat = n % 256 := by simp

theorem uint8_ofNat_toNat (b : UInt8) : UInt8.ofNat b.toNat = b := by simp

theorem header_id {id len : Nat} (h : id < 2 ^ 24) :
    fromBytesBig ((header true id len).take 3) = id := by
  simp only [header, if_true, List.cons_append, List.nil_append, List.take_succ_cons,
    List.take_zero, fromBytesBig, List.foldl_cons, List.foldl_nil, ofNat_toNat]
  omega

theorem header_surj (a b c d : UInt8) :
    ∃ id len, id < 2 ^ 24 ∧ len < 256 ∧ [a, b, c, d] = header true id len ∧
      id = fromBytesBig [a, b, c] ∧ len = d.toNat := by
  refine ⟨fromBytesBig [a, b, c], d.toNat, ?_, d.toNat_lt, ?_, rfl, rfl⟩
  · have := a.toNat_lt; have := b.toNat_lt; have := c.toNat_lt
    simp only [fromBytesBig, List.foldl_cons, List.foldl_nil]; omega
  · have ha := a.toNat_lt; have hb := b.toNat_lt; have hc := c.toNat_lt
    simp only [header, if_true, fromBytesBig, List.foldl_cons, List.foldl_nil, List.cons_append,
      List.nil_append, List.cons.injEq, and_true, uint8_ofNat_toNat]
    refine ⟨?_, ?_, ?_⟩ <;> apply UInt8.toNat_inj.1 <;> rw [ofNat_toNat] <;> omega

theorem filter_unique {α : Type} {l : List α} {p : α → Bool} {R : α → α → Prop}
    (hR : l.Pairwise R) (hp : ∀ a b, p a = true → p b = true → ¬ R a b) :
    l.filter p = [] ∧ (∀ a ∈ l, p a = false) ∨ ∃ a, l.filter p = [a] ∧ a ∈ l ∧ p a = true := by
  induction l with
  | nil => left; simp
  | cons x l ih =>
    rw [List.pairwise_cons] at hR
    by_cases hx : p x = true
    · right
      refine ⟨x, ?_, by simp, hx⟩
      rw [List.filter_cons_of_pos hx]
      congr 1
      rw [List.filter_eq_nil_iff]
      intro a ha hpa
      exact hp x a hx hpa (hR.1 a ha)
    · rw [List.filter_cons_of_neg hx]
      rcases ih hR.2 with ⟨h1, h2⟩ | ⟨a, h1, h2, h3⟩
      · left
        refine ⟨h1, fun a ha => ?_⟩
        rcases List.mem_cons.1 ha with rfl | ha
        · simpa using hx
        · exact h2 a ha
      · exact .inr ⟨a, h1, List.mem_cons_of_mem _ h2, h3⟩

theorem byHeaderId_iff {c : Container} (hu : Unambiguous c) (id : Option Nat) :
    (∃ m, c.byHeaderId id = .ok (some m) ∧ m ∈ c.contained ∧ m.headerId = id ∧
      ∀ m' ∈ c.contained, m'.headerId = id → m' = m) ∨
    (c.byHeaderId id = .ok none ∧ ∀ m ∈ c.contained, m.headerId ≠ id) := by
  unfold Container.byHeaderId
  rcases filter_unique (p := fun x : Contained => x.headerId == id) hu.1 (by
    intro a b ha hb h
    exact h ((eq_of_beq ha).trans (eq_of_beq hb).symm)) with ⟨h1, h2⟩ | ⟨a, h1, h2, h3⟩
  · rw [h1]
    exact .inr ⟨rfl, fun m hm he => by have := h2 m hm; simp [he] at this⟩
  · rw [h1]
    refine .inl ⟨a, rfl, h2, eq_of_beq h3, fun m' hm' he => ?_⟩
    have : m' ∈ c.contained.filter fun x => x.headerId == id := List.mem_filter.2 ⟨hm', by simp [he]⟩
    rw [h1] at this
    simpa using this

theorem byName_iff {c : Container} (hu : Unambiguous c) (s : String) :
    (∃ m, c.byName s = .ok (some m) ∧ m ∈ c.contained ∧ m.msg.name = s ∧
      ∀ m' ∈ c.contained, m'.msg.name = s → m' = m) ∨
    (c.byName s = .ok none ∧ ∀ m ∈ c.contained, m.msg.name ≠ s) := by
  unfold Container.byName
  rcases filter_unique (p := fun x : Contained => x.msg.name == s) hu.2 (by
    intro a b ha hb h
    exact h ((eq_of_beq ha).trans (eq_of_beq hb).symm)) with ⟨h1, h2⟩ | ⟨a, h1, h2, h3⟩
  · rw [h1]
    exact .inr ⟨rfl, fun m hm he => by have := h2 m hm; simp [he] at this⟩
  · rw [h1]
    refine .inl ⟨a, rfl, h2, eq_of_beq h3, fun m' hm' he => ?_⟩
    have : m' ∈ c.contained.filter fun x => x.msg.name == s := List.mem_filter.2 ⟨hm', by simp [he]⟩
    rw [h1] at this
    simpa using this

theorem refOf_iff {c : Container} (hu : Unambiguous c) {id : Nat} {r : Ref} :
    c.refOf id = .ok r ↔ IsRef c id r := by
  unfold Container.refOf
  rcases byHeaderId_iff hu (some id) with ⟨m, h1, h2, h3, h4⟩ | ⟨h1, h2⟩
  · rw [h1]
    cases r with
    | inl m' =>
      simp only [IsRef]
      constructor
      · intro h; cases h; exact ⟨h2, h3⟩
      · rintro ⟨hm', he⟩; rw [h4 m' hm' he]
    | inr n =>
      simp only [IsRef]
      constructor
      · intro h; cases h
      · rintro ⟨_, h⟩; exact absurd h3 (h m h2)
  · rw [h1]
    cases r with
    | inl m' =>
      simp only [IsRef]
      constructor
      · intro h; cases h
      · rintro ⟨hm', he⟩; exact absurd he (h2 m' hm')
    | inr n =>
      simp only [IsRef]
      constructor
      · intro h; cases h; exact ⟨rfl, h2⟩
      · rintro ⟨rfl, _⟩; rfl

theorem refOf_ok {c : Container} (hu : Unambiguous c) (id : Nat) : ∃ r, c.refOf id = .ok r := by
  unfold Container.refOf
  rcases byHeaderId_iff hu (some id) with ⟨m, h1, _⟩ | ⟨h1, _⟩ <;> rw [h1] <;> exact ⟨_, rfl⟩

/-- The header id an entry is sent with. -/
theorem entryBytes_iff {fo : FloatOps} {c : Container} (hu : Unambiguous c) {h : Header}
    {p : Payload} {scaling padding : Bool} {id : Nat} {b : Bytes} :
    entryBytes fo c h p scaling padding = .ok (id, b) ↔
      ∃ r, Refers c h r ∧ IsRef c id r ∧ Carried fo scaling padding r p b := by
  have known : ∀ m : Contained, m ∈ c.contained →
      (∀ r, Refers c h r ↔ r = .inl m) → c.resolve h = .ok (some m) →
      (entryBytes fo c h p scaling padding = .ok (id, b) ↔
        ∃ r, Refers c h r ∧ IsRef c id r ∧ Carried fo scaling padding r p b) := by
    intro m hm hr hres
    unfold entryBytes
    rw [hres]
    simp only
    have hex : (∃ r, Refers c h r ∧ IsRef c id r ∧ Carried fo scaling padding r p b) ↔
        m.headerId = some id ∧ Carried fo scaling padding (.inl m) p b := by
      constructor
      · rintro ⟨r, h1, h2, h3⟩
        rw [hr r] at h1; subst h1
        exact ⟨h2.2, h3⟩
      · rintro ⟨h1, h2⟩
        exact ⟨.inl m, (hr _).2 rfl, ⟨hm, h1⟩, h2⟩
    rw [hex]
    cases hid : m.headerId with
    | none => simp
    | some k =>
      cases p with
      | raw x =>
        simp only [Carried, Except.ok.injEq, Prod.mk.injEq, Option.some.injEq, eq_comm]
      | signals d =>
        simp only [Carried, Except.map_eq_ok, Prod.mk.injEq, Option.some.injEq, Sum.inl.injEq]
        constructor
        · rintro ⟨x, hx, rfl, rfl⟩; exact ⟨rfl, m, rfl, hx⟩
        · rintro ⟨rfl, _, rfl, hx⟩; exact ⟨b, hx, rfl, rfl⟩
  have unknown : (∀ r, (∃ n, h = .id n ∧ r = .inr n) ∨ ¬ Refers c h r) →
      (∀ n, h = .id n → Refers c h (.inr n)) →
      c.resolve h = .ok none →
      (entryBytes fo c h p scaling padding = .ok (id, b) ↔
        ∃ r, Refers c h r ∧ IsRef c id r ∧ Carried fo scaling padding r p b) := by
    intro hr hn hres
    unfold entryBytes
    rw [hres]
    simp only
    constructor
    · intro he
      split at he
      · rename_i n x
        cases he
        exact ⟨.inr id, hn id rfl, hn id rfl, rfl⟩
      · cases he
    · rintro ⟨r, h1, h2, h3⟩
      rcases hr r with ⟨n, rfl, rfl⟩ | h4
      · cases p with
        | raw x =>
          simp only [Carried] at h3
          simp only [IsRef] at h2
          simp [h2.1, h3]
        | signals d =>
          obtain ⟨m, hm, _⟩ := h3
          cases hm
      · exact absurd h1 h4
  cases h with
  | id n =>
    rcases byHeaderId_iff hu (some n) with ⟨m, h1, h2, h3, h4⟩ | ⟨h1, h2⟩
    · refine known m h2 (fun r => ?_) h1
      cases r with
      | inl m' =>
        simp only [Refers, IsRef, Sum.inl.injEq]
        exact ⟨fun h => h4 m' h.1 h.2, fun h => h ▸ ⟨h2, h3⟩⟩
      | inr k =>
        simp only [Refers, IsRef, reduceCtorEq, iff_false, not_and]
        exact fun _ h => h m h2 h3
    · refine unknown (fun r => ?_) (fun k hk => ?_) h1
      · cases r with
        | inl m' => right; rintro ⟨hm, he⟩; exact h2 m' hm he
        | inr k =>
          by_cases hk : k = n
          · left; exact ⟨n, rfl, by rw [hk]⟩
          · right; rintro ⟨he, _⟩; exact hk he
      · cases hk; exact ⟨rfl, h2⟩
  | name s =>
    rcases byName_iff hu s with ⟨m, h1, h2, h3, h4⟩ | ⟨h1, h2⟩
    · refine known m h2 (fun r => ?_) h1
      cases r with
      | inl m' =>
        simp only [Refers, Sum.inl.injEq]
        exact ⟨fun h => h4 m' h.1 h.2, fun h => h ▸ ⟨h2, h3⟩⟩
      | inr k => simp [Refers]
    · refine unknown (fun r => .inr ?_) (fun k hk => by cases hk) h1
      cases r with
      | inl m' => rintro ⟨hm, he⟩; exact h2 m' hm he
      | inr k => exact fun h => h
  | msg x =>
    rcases byHeaderId_iff hu x.headerId with ⟨m, h1, h2, h3, h4⟩ | ⟨h1, h2⟩
    · refine known m h2 (fun r => ?_) h1
      cases r with
      | inl m' =>
        simp only [Refers, Sum.inl.injEq]
        exact ⟨fun h => h4 m' h.1 h.2, fun h => h ▸ ⟨h2, h3⟩⟩
      | inr k => simp [Refers]
    · refine unknown (fun r => .inr ?_) (fun k hk => by cases hk) h1
      cases r with
      | inl m' => rintro ⟨hm, he⟩; exact h2 m' hm he
      | inr k => exact fun h => h

theorem header_length (big : Bool) (id len : Nat) : (header big id len).length = 4 := by
  cases big <;> rfl

theorem header_len {big : Bool} {id len : Nat} (h : len < 256) (rest : Bytes) :
    ((header big id len ++ rest).getD 3 0).toNat = len := by
  cases big <;> simp [header] <;> omega

theorem unpackLoop_of_consists {c : Container} (hu : Unambiguous c) {tr : Bool} {data : Bytes}
    {es : List (Ref × Bytes)} (h : Consists c tr data es) : unpackLoop c tr data = .ok es := by
  induction h with
  | done hl => unfold unpackLoop; rw [if_pos hl]
  | @entry id r payload rest es hid hlen href _ ih =>
    unfold unpackLoop
    have hL : (header true id payload.length ++ payload ++ rest).length =
        4 + payload.length + rest.length := by
      simp [header_length]; omega
    rw [if_neg (by omega)]
    have h3 : (header true id payload.length ++ payload ++ rest).take 3 =
        (header true id payload.length).take 3 := by
      rw [List.append_assoc, List.take_append_of_le_length (by rw [header_length]; omega)]
    rw [h3, header_id hid, List.append_assoc, header_len hlen, ← List.append_assoc]
    simp only
    rw [if_neg (by rw [hL]; omega), if_neg (by rw [hL]; omega)]
    rw [(refOf_iff hu).2 href]
    have hd : (header true id payload.length ++ payload ++ rest).drop (4 + payload.length) = rest := by
      rw [List.drop_left']; simp [header_length]
    have hd4 : (header true id payload.length ++ payload ++ rest).drop 4 = payload ++ rest := by
      rw [List.append_assoc, List.drop_left']; exact header_length _ _ _
    rw [hd, ih, hd4]
    simp
  | @cut id len r payload htr hid hlen hlt href =>
    unfold unpackLoop
    have hL : (header true id len ++ payload).length = 4 + payload.length := by
      simp [header_length]
    rw [if_neg (by omega)]
    have h3 : (header true id len ++ payload).take 3 = (header true id len).take 3 := by
      rw [List.take_append_of_le_length (by rw [header_length]; omega)]
    rw [h3, header_id hid, header_len hlen]
    simp only
    rw [if_neg (by rw [htr]; simp), if_pos (by rw [hL]; omega), hL]
    rw [(refOf_iff hu).2 href]
    have hd4 : (header true id len ++ payload).drop 4 = payload := by
      rw [List.drop_left']; exact header_length _ _ _
    have hd : (header true id len ++ payload).drop (4 + (4 + payload.length - 4)) = [] := by
      apply List.drop_eq_nil_of_le; rw [hL]; omega
    rw [hd, hd4]
    unfold unpackLoop
    simp

theorem consists_of_unpackLoop {c : Container} (hu : Unambiguous c) {tr : Bool} :
    ∀ (n : Nat) (data : Bytes), data.length ≤ n →
      (∃ es, unpackLoop c tr data = .ok es ∧ Consists c tr data es) ∨
      (unpackLoop c tr data = .error .decodeError ∧ tr = false) := by
  intro n
  induction n with
  | zero =>
    intro data h
    have : data.length < 4 := by omega
    left
    refine ⟨[], ?_, .done this⟩
    unfold unpackLoop; rw [if_pos this]
  | succ n ih =>
    intro data hn
    by_cases h4 : data.length < 4
    · left
      refine ⟨[], ?_, .done h4⟩
      unfold unpackLoop; rw [if_pos h4]
    · match data, h4, hn with
      | a :: b :: c' :: d :: tail, h4, hn =>
        obtain ⟨id, len, hid, hlen, hh, e1, e2⟩ := header_surj a b c' d
        obtain ⟨r, hr⟩ := refOf_ok hu id
        have href := (refOf_iff hu).1 hr
        have hdata : a :: b :: c' :: d :: tail = header true id len ++ tail := by
          rw [← hh]; rfl
        by_cases hfit : len ≤ tail.length
        · -- a complete entry
          have hsplit : tail = tail.take len ++ tail.drop len := (List.take_append_drop _ _).symm
          have hlt : (tail.take len).length = len := by simp [hfit]
          have hrest : (tail.drop len).length ≤ n := by
            simp only [List.length_cons] at hn; simp only [List.length_drop]; omega
          rcases ih (tail.drop len) hrest with ⟨es, h1, h2⟩ | ⟨h1, h2⟩
          · left
            have hc : Consists c tr (a :: b :: c' :: d :: tail) ((r, tail.take len) :: es) := by
              rw [hdata]
              conv => lhs; rw [hsplit]
              have := Consists.entry (payload := tail.take len) hid (by omega) href h2
              rw [hlt, List.append_assoc] at this
              exact this
            exact ⟨_, unpackLoop_of_consists hu hc, hc⟩
          · right
            refine ⟨?_, h2⟩
            unfold unpackLoop
            rw [if_neg h4]
            have e3 : fromBytesBig ((a :: b :: c' :: d :: tail).take 3) = id := e1.symm
            have e4 : ((a :: b :: c' :: d :: tail).getD 3 0).toNat = len := e2.symm
            rw [e3, e4]
            simp only
            rw [if_neg (by simp only [List.length_cons]; omega),
              if_neg (by simp only [List.length_cons]; omega), hr]
            have e5 : (a :: b :: c' :: d :: tail).drop (4 + len) = tail.drop len := by
              rw [hdata, List.drop_append]
              simp [header_length]
            rw [e5, h1]
        · -- the entry is longer than the data
          cases tr with
          | true =>
            left
            have hc : Consists c true (a :: b :: c' :: d :: tail) [(r, tail)] := by
              rw [hdata]; exact .cut rfl hid hlen (by omega) href
            exact ⟨_, unpackLoop_of_consists hu hc, hc⟩
          | false =>
            right
            refine ⟨?_, rfl⟩
            unfold unpackLoop
            rw [if_neg h4]
            have e4 : ((a :: b :: c' :: d :: tail).getD 3 0).toNat = len := e2.symm
            rw [e4]
            simp only
            rw [if_pos ⟨by simp only [List.length_cons]; omega, trivial⟩]
      | [], h4, _ => simp at h4
      | [_], h4, _ => simp at h4
      | [_, _], h4, _ => simp at h4
      | [_, _, _], h4, _ => simp at h4

end Cantools
