import Verif.Lemmas.DbcMessage
import Verif.Props.Layout

/-
Messages whose signals differ in their order and in the order of their multiplexer ids only.
-/

namespace Cantools.Dbc
open Cantools Spec

theorem _root_.Cantools.Spec.SameIds.symm {a b : Signal} (h : SameIds a b) : SameIds b a := by
  refine ⟨?_, h.none_.symm, fun i => (h.ids i).symm⟩
  have := h.rest
  rw [this]

theorem forall₂_symm {α : Type} {R : α → α → Prop} (hR : ∀ a b, R a b → R b a) {l k : List α}
    (h : List.Forall₂ R l k) : List.Forall₂ R k l := by
  induction h with
  | nil => exact .nil
  | cons h1 _ ih => exact .cons (hR _ _ h1) ih

theorem hasBranch_ids {sigs sigs' : List Signal} (h : List.Forall₂ SameIds sigs sigs') {p p' : Signal}
    (hp : SameIds p p') {i : Int} (hb : HasBranch sigs' p' i) : HasBranch sigs p i := by
  rcases hb with ⟨s, hs, h1, h2⟩ | hb
  · left
    obtain ⟨a, ha, hr⟩ := forall₂_mem_right h hs
    refine ⟨a, ha, ?_, (hr.ids i).1 h2⟩
    rw [hr.rest, hp.name] at h1
    exact h1
  · right
    rw [hp.rest] at hb
    exact hb

theorem selectable_ids {sigs sigs' : List Signal} (h : List.Forall₂ SameIds sigs sigs') {sel : String → Option Int}
    (hs : Selectable sigs sel) : Selectable sigs' sel := by
  have h' := forall₂_symm (fun _ _ => SameIds.symm) h
  intro p' hp' hm ⟨i, hi⟩
  obtain ⟨p, _, hpp, hp⟩ := present_ids h hp'
  obtain ⟨k, hk, hb⟩ := hs p hp (by rw [hpp.rest] at hm; exact hm) ⟨i, hasBranch_ids h hpp hi⟩
  exact ⟨k, by rw [hpp.name]; exact hk, hasBranch_ids h' hpp.symm hb⟩

theorem requested_ids {sigs sigs' : List Signal} (h : List.Forall₂ SameIds sigs sigs') (data : List (String × Value)) :
    requested sigs' data = requested sigs data := by
  funext n
  unfold requested
  have : (sigs.find? (fun s => s.name == n) = none ∧ sigs'.find? (fun s => s.name == n) = none) ∨
      ∃ a b, sigs.find? (fun s => s.name == n) = some a ∧ sigs'.find? (fun s => s.name == n) = some b ∧ SameIds a b := by
    induction h with
    | nil => exact .inl ⟨rfl, rfl⟩
    | @cons a b _ _ h1 _ ih =>
      by_cases hn : a.name = n
      · exact .inr ⟨a, b, by simp [hn], by simp [h1.name, hn], h1⟩
      · rw [List.find?_cons_of_neg (by simpa using hn), List.find?_cons_of_neg (by simpa [h1.name] using hn)]
        exact ih
  rcases this with ⟨h1, h2⟩ | ⟨a, b, h1, h2, hr⟩
  · rw [h1, h2]
  · rw [h1, h2, hr.rest]
    cases dictGet? data n with
    | none => rfl
    | some v => cases v <;> rfl

end Cantools.Dbc

namespace Cantools
open Spec Dbc

variable {fo : FloatOps} {sigs l sigs' : List Signal} {m m' : Message} {fid fid' : Int} {name name' : String}
  {ext ext' : Bool} {pat pat' : UInt8} {len : Nat}

theorem encode_ids_half (hnd : (sigs.map (·.name)).Nodup) (hb : ∀ s ∈ sigs, Built s.conversion)
    (h : List.Forall₂ SameIds sigs sigs')
    (hm : Message.create fid name len sigs pat ext true .default = .ok m)
    (hm' : Message.create fid' name' len sigs' pat' ext' true .default = .ok m')
    {data : List (String × Value)} {scaling padding strict : Bool} {payload : Bytes}
    (hpat : padding = true → pat' = pat) (he : encode fo m data scaling padding strict = .ok payload) :
    encode fo m' data scaling padding strict = .ok payload := by
  have h' := forall₂_symm (fun _ _ => SameIds.symm) h
  have hnd' : (sigs'.map (·.name)).Nodup := by
    rw [forall₂_map_eq (fun a b hr => hr.name) h]; exact hnd
  have hb' : ∀ s ∈ sigs', Built s.conversion := by
    intro s hs
    obtain ⟨a, ha, hr⟩ := forall₂_mem_right h hs
    have := hb a ha
    rw [hr.rest]
    exact this
  have hreq := requested_ids h data
  have hex : ∃ p', encode fo m' data scaling padding strict = .ok p' := by
    cases strict with
    | false =>
      obtain ⟨c1, c2⟩ := (C10_encode_succeeds_iff hnd hb hm).1 ⟨_, he⟩
      rw [C10_encode_succeeds_iff hnd' hb' hm', hreq]
      refine ⟨selectable_ids h c1, fun s hs => ?_⟩
      obtain ⟨a, _, hr, hp⟩ := present_ids h hs
      have := c2 a hp
      rw [hr.rest]
      obtain ⟨v, r, g1, g2, g3⟩ := this
      exact ⟨v, r, g1, by cases v <;> exact g2, g3⟩
    | true =>
      obtain ⟨c1, c2, c3⟩ := (C10_strict_encode_succeeds_iff hnd hb hm).1 ⟨_, he⟩
      rw [C10_strict_encode_succeeds_iff hnd' hb' hm', hreq]
      refine ⟨selectable_ids h c1, fun n hn => ?_, fun s hs => ?_⟩
      · obtain ⟨a, hp, ha⟩ := c2 n hn
        obtain ⟨b, _, hr, hq⟩ := present_ids h' hp
        exact ⟨b, hq, by rw [← ha, hr.name]⟩
      · obtain ⟨a, _, hr, hp⟩ := present_ids h hs
        have := c3 a hp
        rw [hr.rest]
        obtain ⟨v, r, g1, g2, g3, g4⟩ := this
        exact ⟨v, r, g1, by cases v <;> exact g2, by cases v <;> exact g3, g4⟩
  obtain ⟨p', he'⟩ := hex
  rw [he']
  congr 1
  obtain ⟨l1, c1⟩ := C01_encode_bit_exact hnd hb hm he
  obtain ⟨l2, c2⟩ := C01_encode_bit_exact hnd' hb' hm' he'
  have u1 := C02_unused_bits hnd hb hm he
  have u2 := C02_unused_bits hnd' hb' hm' he'
  have hpad : ∀ x, (if padding = true then pat'.toNat.testBit (x % 8) else false) =
      (if padding = true then pat.toNat.testBit (x % 8) else false) := by
    intro x
    split
    · rw [hpat (by assumption)]
    · rfl
  simp only [hpad] at u2
  rw [hreq] at c2 u2
  refine C01_payload_unique hb l2 l1 (fun s hs => ?_) c1 (fun x hx hfree => u2 x hx fun s hs ho => ?_) u1
  · obtain ⟨b, _, hr, hq⟩ := present_ids h' hs
    have := c2 b hq
    rw [hr.rest]
    obtain ⟨v, r, g1, g2, g3⟩ := this
    exact ⟨v, r, g1, by cases v <;> exact g2, g3⟩
  · obtain ⟨a, _, hr, hp⟩ := present_ids h hs
    rw [hr.rest] at ho
    exact hfree a hp ho

theorem decode_ids_half (hnd : (sigs.map (·.name)).Nodup) (hb : ∀ s ∈ sigs, Built s.conversion)
    (hpt : ∀ s ∈ sigs, s.conversion.isFloat = true → s.conversion.choices = none)
    (h : List.Forall₂ SameIds sigs sigs')
    (hm : Message.create fid name len sigs pat ext true .default = .ok m)
    (hm' : Message.create fid' name' len sigs' pat' ext' true .default = .ok m')
    (data : Bytes) (decodeChoices scaling truncated excess : Bool) :
    (decode fo m data decodeChoices scaling truncated excess = .error .decodeError ∧
      decode fo m' data decodeChoices scaling truncated excess = .error .decodeError) ∨
    ∃ r r', decode fo m data decodeChoices scaling truncated excess = .ok r ∧
      decode fo m' data decodeChoices scaling truncated excess = .ok r' ∧ r'.Perm r := by
  have h' := forall₂_symm (fun _ _ => SameIds.symm) h
  have hnd' : (sigs'.map (·.name)).Nodup := by
    rw [forall₂_map_eq (fun a b hr => hr.name) h]; exact hnd
  have hb' : ∀ s ∈ sigs', Built s.conversion := by
    intro s hs
    obtain ⟨a, ha, hr⟩ := forall₂_mem_right h hs
    have := hb a ha
    rw [hr.rest]
    exact this
  have hpt' : ∀ s ∈ sigs', s.conversion.isFloat = true → s.conversion.choices = none := by
    intro s hs
    obtain ⟨a, ha, hr⟩ := forall₂_mem_right h hs
    have := hpt a ha
    rw [hr.rest]
    exact this
  obtain ⟨ha, hl, -⟩ := accepted_of_create hnd hm
  obtain ⟨ha', hl', -⟩ := accepted_of_create hnd' hm'
  have hpos : ∀ s ∈ sigs, 0 < s.length := fun s hs => ha.pos s ((ha.mem s).2 hs)
  cases had : adjustData data len truncated excess with
  | error e =>
    have he := adjustData_error had
    subst he
    exact .inl ⟨decodeNode_wrong_size (hl.symm ▸ had), decodeNode_wrong_size (hl'.symm ▸ had)⟩
  | ok d =>
    obtain ⟨sel, hsel⟩ := selectorsIn_exists (fo := fo) hnd hpos d decodeChoices scaling
      (receivedBytes data.length len truncated)
    have hsel' : SelectorsIn fo sigs' d decodeChoices scaling
        (receivedBytes data.length len truncated) sel := by
      intro s hs
      obtain ⟨a, ha, hr⟩ := forall₂_mem_right h hs
      have := hsel a ha
      rw [hr.rest]
      refine ⟨fun hf => ?_, this.2⟩
      obtain ⟨r, g1, g2⟩ := this.1 hf
      refine ⟨r, g1, g2.trans ?_⟩
      show selectorNumber a (shown a decodeChoices scaling r) = selectorNumber _ (shown a decodeChoices scaling r)
      cases shown a decodeChoices scaling r <;> rfl
    obtain ⟨o1, o2⟩ := ha.decode_ok (fo := fo) hb hpt (hl.symm ▸ had) (hl.symm ▸ hsel)
    obtain ⟨o1', o2'⟩ := ha'.decode_ok (fo := fo) hb' hpt' (hl'.symm ▸ had) (hl'.symm ▸ hsel')
    rw [hl] at o1
    rw [hl'] at o1'
    cases hr : decode fo m data decodeChoices scaling truncated excess with
    | error e =>
      cases ha.decode_error hb hpt hr
      left
      refine ⟨rfl, ?_⟩
      cases hr' : decode fo m' data decodeChoices scaling truncated excess with
      | error e => cases ha'.decode_error hb' hpt' hr'; rfl
      | ok r' =>
        obtain ⟨r, hr2⟩ := o2 (fun p hp hmx hbr i hi => by
          obtain ⟨q, _, hq, hpq⟩ := present_ids h' hp
          obtain ⟨j, hj⟩ := hbr
          exact hasBranch_ids h hq.symm ((o1' r' hr').2.1 q hpq (by rw [hq.rest] at hmx; exact hmx)
            ⟨j, hasBranch_ids h' hq hj⟩ i (by rw [← hq.name]; exact hi)))
        rw [hr] at hr2
        cases hr2
    | ok r =>
      right
      obtain ⟨r', hr'⟩ := o2' (fun p hp hmx hbr i hi => by
          obtain ⟨q, _, hq, hpq⟩ := present_ids h hp
          obtain ⟨j, hj⟩ := hbr
          exact hasBranch_ids h' hq.symm ((o1 r hr).2.1 q hpq (by rw [hq.rest] at hmx; exact hmx)
            ⟨j, hasBranch_ids h hq hj⟩ i (by rw [← hq.name]; exact hi)))
      refine ⟨r, r', rfl, hr', ?_⟩
      obtain ⟨n1, -, g1⟩ := o1 r hr
      obtain ⟨n2, -, g2⟩ := o1' r' hr'
      rw [List.perm_ext_iff_of_nodup (List.Nodup.of_map _ n2) (List.Nodup.of_map _ n1)]
      rintro ⟨n, v⟩
      have h1 := g1 n v
      have h2 := g2 n v
      constructor
      · intro hh
        refine dictGet?_mem (h1.2 ?_)
        obtain ⟨s, hs, k1, k2, k3⟩ := h2.1 (dictGet?_of_mem n2 hh)
        obtain ⟨q, _, hq, hpq⟩ := present_ids h hs
        rw [hq.rest] at k1 k2 k3
        exact ⟨q, hpq, k1, k2, k3⟩
      · intro hh
        refine dictGet?_mem (h2.2 ?_)
        obtain ⟨s, hs, k1, k2, k3⟩ := h1.1 (dictGet?_of_mem n1 hh)
        obtain ⟨q, _, hq, hpq⟩ := present_ids h' hs
        rw [hq.rest] at k1 k2 k3
        exact ⟨q, hpq, k1, k2, k3⟩

end Cantools
