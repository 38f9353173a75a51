import Verif.Lemmas.LayoutIds

/-
C39: the order of multiplexer ids does not matter.
-/

namespace Cantools
open Spec Dbc

section

variable {fo : FloatOps} {sigs l sigs' : List Signal} {m m' : Message} {fid fid' : Int} {name name' : String}
  {ext ext' : Bool} {pat pat' : UInt8} {len : Nat}

/-- C39: nor does the frame depend on the order of multiplexer ids: two messages made from the same
signals, in any order and with their multiplexer ids in any order, encode every dictionary to the same
payload, or both fail. -/
theorem C39_encode_ids_independent (hnd : (sigs.map (·.name)).Nodup) (hb : ∀ s ∈ sigs, Built s.conversion)
    (hperm : l.Perm sigs) (h : List.Forall₂ SameIds l sigs')
    (hm : Message.create fid name len sigs pat ext true .default = .ok m)
    (hm' : Message.create fid' name' len sigs' pat' ext' true .default = .ok m')
    {data : List (String × Value)} {scaling padding strict : Bool} {payload : Bytes}
    (hpat : padding = true → pat' = pat) :
    encode fo m data scaling padding strict = .ok payload ↔
      encode fo m' data scaling padding strict = .ok payload := by
  have hndl : (l.map (·.name)).Nodup := (hperm.map _).nodup_iff.2 hnd
  have hbl : ∀ s ∈ l, Built s.conversion := fun s hs => hb s (hperm.mem_iff.1 hs)
  have hml : ∃ k, Message.create fid name len l pat ext true .default = .ok k := by
    rw [(C05_strict_check_iff hndl (default_perm _)).1]
    obtain ⟨c1, c2, c3⟩ := (C05_strict_check_iff hnd (default_perm _)).1.1 ⟨m, hm⟩
    exact ⟨c1, fun s hs => c2 s (hperm.mem_iff.1 hs), validLayout_congr (fun s => hperm.mem_iff.symm) c3⟩
  obtain ⟨k, hk⟩ := hml
  have hnd' : (sigs'.map (·.name)).Nodup := by
    rw [forall₂_map_eq (fun a b hr => hr.name) h]; exact hndl
  have hb' : ∀ s ∈ sigs', Built s.conversion := by
    intro s hs
    obtain ⟨a, ha, hr⟩ := forall₂_mem_right h hs
    have := hbl a ha
    rw [hr.rest]
    exact this
  refine (C39_encode_order_independent hnd hb hperm hm hk (fun _ => rfl)).trans ?_
  exact ⟨encode_ids_half hndl hbl h hk hm' hpat,
    encode_ids_half hnd' hb' (forall₂_symm (fun _ _ => SameIds.symm) h) hm' hk fun hp => (hpat hp).symm⟩

/-- C39: nor does what a frame decodes to: both messages decode every frame to the same values, or both
raise `DecodeError`. -/
theorem C39_decode_ids_independent (hnd : (sigs.map (·.name)).Nodup) (hb : ∀ s ∈ sigs, Built s.conversion)
    (hpt : ∀ s ∈ sigs, s.conversion.isFloat = true → s.conversion.choices = none)
    (hperm : l.Perm sigs) (h : List.Forall₂ SameIds l sigs')
    (hm : Message.create fid name len sigs pat ext true .default = .ok m)
    (hm' : Message.create fid' name' len sigs' pat' ext' true .default = .ok m')
    (data : Bytes) (decodeChoices scaling truncated excess : Bool) :
    (decode fo m data decodeChoices scaling truncated excess = .error .decodeError ∧
      decode fo m' data decodeChoices scaling truncated excess = .error .decodeError) ∨
    ∃ r r', decode fo m data decodeChoices scaling truncated excess = .ok r ∧
      decode fo m' data decodeChoices scaling truncated excess = .ok r' ∧ r'.Perm r := by
  have hndl : (l.map (·.name)).Nodup := (hperm.map _).nodup_iff.2 hnd
  have hml : ∃ k, Message.create fid name len l pat ext true .default = .ok k := by
    rw [(C05_strict_check_iff hndl (default_perm _)).1]
    obtain ⟨c1, c2, c3⟩ := (C05_strict_check_iff hnd (default_perm _)).1.1 ⟨m, hm⟩
    exact ⟨c1, fun s hs => c2 s (hperm.mem_iff.1 hs), validLayout_congr (fun s => hperm.mem_iff.symm) c3⟩
  obtain ⟨k, hk⟩ := hml
  have d1 := C39_decode_order_independent (fo := fo) hnd hb hpt hperm hm hk data decodeChoices scaling truncated excess
  have d2 := decode_ids_half (fo := fo) hndl (fun s hs => hb s (hperm.mem_iff.1 hs))
    (fun s hs => hpt s (hperm.mem_iff.1 hs)) h hk hm' data decodeChoices scaling truncated excess
  rcases d1 with ⟨a1, a2⟩ | ⟨r, r', a1, a2, a3⟩
  · rcases d2 with ⟨b1, b2⟩ | ⟨s, s', b1, b2, b3⟩
    · exact .inl ⟨a1, b2⟩
    · rw [a2] at b1; cases b1
  · rcases d2 with ⟨b1, b2⟩ | ⟨s, s', b1, b2, b3⟩
    · rw [a2] at b1; cases b1
    · rw [a2] at b1; cases b1
      exact .inr ⟨r, s', a1, b2, b3.trans a3⟩

end

/-! ### The hypotheses can be met -/

section
open Example

/-- A signal for the ids 1 and 3, given in both orders. -/
def twoIds (ids : List Int) : List Signal := [{ a with multiplexerIds := some ids }, mux, b, p]

theorem twoIds_same : List.Forall₂ SameIds [mux, { a with multiplexerIds := some [1, 3] }, b, p]
    [mux, { a with multiplexerIds := some [3, 1] }, b, p] := by
  have hr : ∀ s : Signal, SameIds s s := fun s => ⟨rfl, Iff.rfl, fun _ => Iff.rfl⟩
  refine .cons (hr _) (.cons ⟨rfl, by simp, fun i => ?_⟩ (.cons (hr _) (.cons (hr _) .nil)))
  simp [or_comm]

example (data : List (String × Value)) (payload : Bytes) :=
  C39_encode_ids_independent (fo := fo) (sigs := twoIds [1, 3]) (data := data) (payload := payload) (scaling := true)
    (padding := true) (strict := true) (by decide +kernel)
    (by
      intro s hs
      simp only [twoIds, List.mem_cons, List.not_mem_nil, or_false] at hs
      rcases hs with rfl | rfl | rfl | rfl
      · exact built a (by decide +kernel)
      all_goals exact built _ (by decide +kernel))
    (List.Perm.swap ..) twoIds_same
    (m := get (Message.create 0x123 "Msg" 4 (twoIds [1, 3])))
    (m' := get (Message.create 0x123 "Msg" 4 [mux, { a with multiplexerIds := some [3, 1] }, b, p]))
    (fid := 0x123) (fid' := 0x123) (name := "Msg") (name' := "Msg") (len := 4) (pat := 0) (pat' := 0) (ext := false)
    (ext' := false)
    (by
      have h : (Message.create 0x123 "Msg" 4 (twoIds [1, 3])).toOption.isSome = true := by decide +kernel
      cases hc : Message.create 0x123 "Msg" 4 (twoIds [1, 3]) with
      | error e => rw [hc] at h; cases h
      | ok m' => rfl)
    (by
      have h : (Message.create 0x123 "Msg" 4
        [mux, { a with multiplexerIds := some [3, 1] }, b, p]).toOption.isSome = true := by decide +kernel
      cases hc : Message.create 0x123 "Msg" 4 [mux, { a with multiplexerIds := some [3, 1] }, b, p] with
      | error e => rw [hc] at h; cases h
      | ok m' => rfl)
    (fun _ => rfl)

end

end Cantools
