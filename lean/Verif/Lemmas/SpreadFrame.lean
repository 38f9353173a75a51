import Verif.Lemmas.Spread
import Verif.Lemmas.SignalTree

/-
The frames of a message with one selector and those of the message spread over the multiplexer ids.
-/

namespace Cantools
open Spec Dbc

section
variable {sel : Signal} {A B : List Signal} {ids : List Int} (h : OneMux sel A B ids)
include h

/-! ### Names -/

/-- Signals of the same name are the same up to their multiplexing. -/
theorem OneMux.same_name {s t : Signal} (hs : s ∈ spreadSigs sel A B ids) (ht : t ∈ spreadSigs sel A B ids)
    (hn : s.name = t.name) : Moved s t := by
  have key : ∀ s ∈ spreadSigs sel A B ids, ∃ x ∈ sel :: (A ++ B), Moved x s ∧ x.name = s.name := by
    intro s hs
    rcases List.mem_cons.1 hs with rfl | hs
    · exact ⟨s, by simp, rfl, rfl⟩
    · obtain ⟨j, -, hs⟩ := List.mem_flatMap.1 hs
      obtain ⟨x, hx, rfl⟩ := mem_branchAt.1 hs
      refine ⟨x, ?_, rfl, rfl⟩
      rcases hx with hx | hx <;> simp [hx]
  obtain ⟨x, hx, h1, h2⟩ := key s hs
  obtain ⟨y, hy, h3, h4⟩ := key t ht
  have : x = y := List.inj_on_of_nodup_map h.names hx hy (by rw [h2, h4, hn])
  subst this
  unfold Moved at *
  rw [h3, h1]

theorem OneMux.one_sub {i : Int} (hi : i ∈ ids) : ∀ s ∈ sel :: (branchAt sel A B i ++ []), s ∈ spreadSigs sel A B ids := by
  intro s hs
  rw [List.append_nil] at hs
  rcases List.mem_cons.1 hs with rfl | hs
  · simp [spreadSigs]
  · exact List.mem_cons_of_mem _ (List.mem_flatMap.2 ⟨i, hi, hs⟩)

omit h in
theorem mem_sort {l : List Signal} {s : Signal} : s ∈ sortSignalsByStartBit l ↔ s ∈ l := (sortedBy_perm _ _).mem_iff

theorem OneMux.lookup {s : Signal} (hs : s ∈ spreadSigs sel A B ids) :
    ∃ t, signalByName (sortSignalsByStartBit (spreadSigs sel A B ids)) s.name = .ok t ∧ Moved s t :=
  signalByName_moved (mem_sort.2 hs) rfl fun _ ht hn => h.same_name hs (mem_sort.1 ht) hn.symm

theorem OneMux.lookup_sel : signalByName (sortSignalsByStartBit (spreadSigs sel A B ids)) sel.name = .ok sel := by
  obtain ⟨t, h1, h2⟩ := signalByName_moved (sigs := sortSignalsByStartBit (spreadSigs sel A B ids)) (s := sel)
    (R := fun s t => t = s) (n := sel.name) (mem_sort.2 (by simp [spreadSigs])) rfl (fun t ht hn => by
      rcases List.mem_cons.1 (mem_sort.1 ht) with e | ht
      · exact e
      · obtain ⟨j, -, hs⟩ := List.mem_flatMap.1 ht
        obtain ⟨x, hx, rfl⟩ := mem_branchAt.1 hs
        exact absurd hn (h.name_ne (s := x) (by rcases hx with hx | hx <;> simp [hx])))
  rw [h1, h2]

theorem OneMux.muxNumber {i : Int} (hi : i ∈ ids) (data : List (String × Value)) :
    getMuxNumber (sortSignalsByStartBit (spreadSigs sel A B ids)) data sel.name =
      getMuxNumber (sortSignalsByStartBit (sel :: (branchAt sel A B i ++ []))) data sel.name := by
  have h1 := h.lookup_sel
  have h2 := (h.one hi).lookup_sel
  rw [spread_one] at h2
  unfold getMuxNumber
  rw [h1, h2]

theorem OneMux.lookup_both {i : Int} (hi : i ∈ ids) {s : Signal} (hs : s ∈ sel :: (branchAt sel A B i ++ [])) :
    ∃ t t', signalByName (sortSignalsByStartBit (spreadSigs sel A B ids)) s.name = .ok t ∧
      signalByName (sortSignalsByStartBit (sel :: (branchAt sel A B i ++ []))) s.name = .ok t' ∧ Moved t t' := by
  obtain ⟨t, h1, h2⟩ := h.lookup (h.one_sub hi s hs)
  obtain ⟨t', h3, h4⟩ := (h.one hi).lookup (spread_one (sel := sel) i ▸ hs)
  rw [spread_one] at h3
  refine ⟨t, t', h1, h3, ?_⟩
  unfold Moved at *
  rw [h4, h2]

/-! ### The check of the layout -/

omit h in
theorem checkTree_leaves {sigs sigs' : List Signal} {l : List Signal}
    (hl : ∀ s ∈ l, ∃ t t', signalByName sigs s.name = .ok t ∧ signalByName sigs' s.name = .ok t' ∧ Moved t t')
    (bits : List (Option String)) :
    checkTree sigs bits (treeOfSignals [] l) = checkTree sigs' bits (treeOfSignals [] l) := by
  induction l generalizing bits with
  | nil => simp only [treeOfSignals, checkTree]
  | cons s l ih =>
    obtain ⟨t, t', h1, h2, h3⟩ := hl s (by simp)
    simp only [treeOfSignals, dictGet?_nil, checkTree, h1, h2, bind, Except.bind, h3.checkSignal bits]
    cases checkSignal bits t with
    | error e => rfl
    | ok b => exact ih (fun s hs => hl s (List.mem_cons_of_mem _ hs)) b

omit h in
theorem checkBranches_leaves {sigs : List Signal} {children : List (Option String)} {l : List Int}
    (hl : ∀ i ∈ l, ∃ r, checkTree sigs children (treeOfCodec (leafCodec sel A B i)) = .ok r) (bits : List (Option String)) :
    ∃ r, checkBranches sigs children bits (treeOfBranches (Branches.ofList (l.map fun i => (i, leafCodec sel A B i)))) = .ok r := by
  induction l generalizing bits with
  | nil => exact ⟨bits, by simp only [List.map_nil, Branches.ofList, treeOfBranches, checkBranches]⟩
  | cons i l ih =>
    obtain ⟨r, hr⟩ := hl i (by simp)
    obtain ⟨r', hr'⟩ := ih (fun i hi => hl i (List.mem_cons_of_mem _ hi)) (mergeBits bits r)
    refine ⟨r', ?_⟩
    rw [List.map_cons, Branches.ofList, treeOfBranches, checkBranches]
    exact (bind_of_ok hr).trans hr'

omit h in
theorem spread_tree (l : List Int) : treeOfCodec (spreadCodec sel A B l) =
    .mux sel.name (treeOfBranches (Branches.ofList (l.map fun i => (i, leafCodec sel A B i)))) .nil := by
  simp only [spreadCodec, treeOfCodec, treeOfMuxes, treeOfSignals]
  simp [dictGet?_cons]

omit h in
theorem leaf_tree (i : Int) : treeOfCodec (leafCodec sel A B i) = treeOfSignals [] (sortSignalsByStartBit (branchAt sel A B i)) := by
  simp only [leafCodec, treeOfCodec, treeOfMuxes]

variable {m : Message} {fid : Int} {name : String} {ext : Bool} {pat : UInt8} {len : Nat} {O : List Signal}

theorem OneMux.create_one (hO : O.Perm (sel :: (A ++ B)))
    (hm : Message.create fid name len O pat ext true .default = .ok m) {i : Int} (hi : i ∈ ids) (pat' : UInt8) :
    ∃ m', Message.create fid name len (sel :: (branchAt sel A B i ++ [])) pat' ext true .default = .ok m' := by
  have hnd : (O.map (·.name)).Nodup := (hO.map _).nodup_iff.2 h.names
  obtain ⟨h1, h2, h3⟩ := (C05_strict_check_iff hnd (default_perm _)).1.1 ⟨m, hm⟩
  refine (C05_strict_check_iff (h.one hi).names (default_perm _)).1.2 ⟨h1, ?_, ?_⟩
  · intro s hs
    rw [List.append_nil] at hs
    rcases List.mem_cons.1 hs with rfl | hs
    · exact h2 s (hO.mem_iff.2 (by simp))
    · obtain ⟨x, hx, rfl⟩ := mem_branchAt.1 hs
      exact h2 x (hO.mem_iff.2 (by rcases hx with hx | hx <;> simp [hx]))
  · exact h.valid_one hi (validLayout_congr (fun s => hO.mem_iff) h3)

omit h in
theorem eq_singleton {l : List Int} {i : Int} (hn : l.Nodup) (hl : ∀ j, j ∈ l ↔ j = i) : l = [i] := by
  have : l.Perm [i] := (List.perm_ext_iff_of_nodup hn (by simp)).2 fun j => by simp [hl]
  exact List.perm_singleton.1 this

theorem OneMux.codec_one {i : Int} (hi : i ∈ ids) :
    createCodec (sortSignalsByStartBit (sel :: (branchAt sel A B i ++ [])))
      ((sortSignalsByStartBit (sel :: (branchAt sel A B i ++ []))).length + 1) none none = some (spreadCodec sel A B [i]) := by
  have := (h.one hi).spread_codec
  rw [eq_singleton (childrenIds_nodup _ _) (i := i) (fun j => by rw [(h.one hi).spread_ids, List.mem_singleton]),
    spreadCodec_one, spread_one] at this
  exact this

theorem OneMux.create_spread (hO : O.Perm (sel :: (A ++ B)))
    (hm : Message.create fid name len O pat ext true .default = .ok m) (pat' : UInt8) (strict : Bool) :
    ∃ m', Message.create fid name len (spreadSigs sel A B ids) pat' ext strict .default = .ok m' := by
  obtain ⟨h1, -, -⟩ := create_ok_iff.1 hm
  refine ⟨_, create_ok_iff.2 ⟨h1, ?_, _, h.spread_codec, fun _ => ?_, rfl⟩⟩
  · intro s hs
    have hs : s ∈ spreadSigs sel A B ids := mem_sort.1 hs
    have hin : ∃ i ∈ ids, s ∈ sel :: (branchAt sel A B i ++ []) := by
      rcases List.mem_cons.1 hs with rfl | hs
      · obtain ⟨j, hj⟩ := List.exists_mem_of_ne_nil _ h.ne
        exact ⟨j, hj, by simp⟩
      · obtain ⟨j, hj, hs⟩ := List.mem_flatMap.1 hs
        exact ⟨j, hj, by simp [hs]⟩
    obtain ⟨i, hi, hs⟩ := hin
    obtain ⟨m', hm'⟩ := h.create_one hO hm hi pat
    exact (create_ok_iff.1 hm').2.1 s (mem_sort.2 hs)
  · have hone : ∀ i ∈ ids, ∃ b r, checkSignal (List.replicate (8 * len) none) sel = .ok b ∧
        checkTree (sortSignalsByStartBit (spreadSigs sel A B ids)) b (treeOfCodec (leafCodec sel A B i)) = .ok r := by
      intro i hi
      obtain ⟨m', hm'⟩ := h.create_one hO hm hi pat
      obtain ⟨-, -, c, hc, hk, -⟩ := create_ok_iff.1 hm'
      rw [show SortSignals.default.apply (sel :: (branchAt sel A B i ++ [])) =
        sortSignalsByStartBit (sel :: (branchAt sel A B i ++ [])) from rfl] at hc hk
      rw [h.codec_one hi] at hc
      cases hc
      obtain ⟨r, hr⟩ := hk rfl
      have hl := (h.one hi).lookup_sel
      rw [spread_one] at hl
      rw [spread_tree] at hr
      simp only [checkTree, hl, bind, Except.bind, List.map_cons, List.map_nil, Branches.ofList, treeOfBranches, checkBranches] at hr
      cases hb : checkSignal (List.replicate (8 * len) none) sel with
      | error e => rw [hb] at hr; cases hr
      | ok b =>
        rw [hb] at hr
        dsimp only at hr
        rw [leaf_tree] at hr ⊢
        have hcl := checkTree_leaves (sigs := sortSignalsByStartBit (spreadSigs sel A B ids))
          (sigs' := sortSignalsByStartBit (sel :: (branchAt sel A B i ++ []))) (l := sortSignalsByStartBit (branchAt sel A B i))
          (fun s hs => h.lookup_both hi (by simp [mem_sort.1 hs])) b
        cases ht : checkTree (sortSignalsByStartBit (sel :: (branchAt sel A B i ++ []))) b
            (treeOfSignals [] (sortSignalsByStartBit (branchAt sel A B i))) with
        | error e => rw [ht] at hr; cases hr
        | ok t => exact ⟨b, t, rfl, hcl.trans ht⟩
    obtain ⟨j, hj⟩ := List.exists_mem_of_ne_nil _ h.ne
    obtain ⟨b, -, hb, -⟩ := hone j hj
    rw [show SortSignals.default.apply (spreadSigs sel A B ids) = sortSignalsByStartBit (spreadSigs sel A B ids) from rfl, spread_tree]
    obtain ⟨r, hr⟩ := checkBranches_leaves (sel := sel) (A := A) (B := B) (sigs := sortSignalsByStartBit (spreadSigs sel A B ids))
      (children := b) (l := childrenIds (sortSignalsByStartBit (spreadSigs sel A B ids)) sel) (fun i hi => by
        obtain ⟨b', r, h2, h3⟩ := hone i (h.spread_ids.1 hi)
        rw [hb] at h2
        cases h2
        exact ⟨r, h3⟩) b
    refine ⟨r, ?_⟩
    simp only [checkTree, h.lookup_sel, bind, Except.bind, hb, hr]

/-! ### Encoding -/

variable {fo : FloatOps} {m' : Message} {pat' : UInt8}

omit h in
theorem bind_ok_iff {α β : Type} {x : Except Err α} {f : α → Except Err β} {b : β} :
    (x >>= f) = .ok b ↔ ∃ a, x = .ok a ∧ f a = .ok b := by
  cases x with
  | error e => exact ⟨nofun, nofun⟩
  | ok a => exact ⟨fun h => ⟨a, rfl, h⟩, fun ⟨_, h1, h2⟩ => by cases h1; exact h2⟩

omit h in
theorem forM_congr {α : Type} {l : List α} {f g : α → Except Err Unit} (hfg : ∀ a ∈ l, f a = g a) : l.forM f = l.forM g := by
  induction l with
  | nil => rfl
  | cons a l ih =>
    change (f a >>= fun _ => l.forM f) = (g a >>= fun _ => l.forM g)
    rw [hfg a (by simp), ih fun b hb => hfg b (List.mem_cons_of_mem _ hb)]

/-- A frame of the spread message is one of a branch. -/
theorem OneMux.encode_spread (hb : ∀ s ∈ sel :: (A ++ B), Built s.conversion) (hO : O.Perm (sel :: (A ++ B)))
    (hm : Message.create fid name len O pat ext true .default = .ok m)
    (hm' : Message.create fid name len (spreadSigs sel A B ids) pat' ext true .default = .ok m')
    {data : List (String × Value)} {scaling padding strict : Bool} {payload : Bytes} :
    encode fo m' data scaling padding strict = .ok payload ↔ ∃ i ∈ ids, ∃ mi,
      Message.create fid name len (sel :: (branchAt sel A B i ++ [])) pat' ext true .default = .ok mi ∧
        encode fo mi data scaling padding strict = .ok payload := by
  obtain ⟨-, -, c, hc, -, rfl⟩ := create_ok_iff.1 hm'
  rw [show SortSignals.default.apply (spreadSigs sel A B ids) = sortSignalsByStartBit (spreadSigs sel A B ids) from rfl] at hc ⊢
  rw [h.spread_codec] at hc
  cases hc
  have hbi : ∀ i, ∀ s ∈ sel :: (branchAt sel A B i ++ []), Built s.conversion := by
    intro i s hs
    rw [List.append_nil] at hs
    rcases List.mem_cons.1 hs with rfl | hs
    · exact hb s (by simp)
    · obtain ⟨x, hx, rfl⟩ := mem_branchAt.1 hs
      exact hb x (by rcases hx with hx | hx <;> simp [hx])
  -- the message of a branch
  have hone : ∀ i ∈ ids, ∀ mi, Message.create fid name len (sel :: (branchAt sel A B i ++ [])) pat' ext true .default = .ok mi →
      mi = { frameId := fid, name, length := len, signals := sortSignalsByStartBit (sel :: (branchAt sel A B i ++ [])),
             unusedBitPattern := pat', isExtendedFrame := ext, codec := spreadCodec sel A B [i] } := by
    intro i hi mi hmi
    obtain ⟨-, -, c, hc, -, rfl⟩ := create_ok_iff.1 hmi
    rw [show SortSignals.default.apply (sel :: (branchAt sel A B i ++ [])) =
      sortSignalsByStartBit (sel :: (branchAt sel A B i ++ [])) from rfl] at hc ⊢
    rw [h.codec_one hi] at hc
    cases hc
    rfl
  -- the values are checked in the same way
  have hval : ∀ i ∈ ids, ∀ mi, Message.create fid name len (sel :: (branchAt sel A B i ++ [])) pat' ext true .default = .ok mi →
      ∀ used, gatherSignals mi data = .ok used →
        used.forM (fun nv => do
          let s ← signalByName (sortSignalsByStartBit (spreadSigs sel A B ids)) nv.1
          assertValueValid s nv.2 scaling) =
        used.forM (fun nv => do
          let s ← signalByName (sortSignalsByStartBit (sel :: (branchAt sel A B i ++ []))) nv.1
          assertValueValid s nv.2 scaling) := by
    intro i hi mi hmi used hu
    obtain ⟨ha, -, -⟩ := accepted_of_create (h.one hi).names hmi
    obtain ⟨-, -, g3, g4⟩ := (ha.gather (h.one hi).names (hbi i) data).1 used hu
    refine forM_congr fun nv hnv => ?_
    obtain ⟨-, s, hs, hn⟩ := (g3 nv.1 nv.2).1 (dictGet?_of_mem g4 hnv)
    obtain ⟨t, t', h1, h2, h3⟩ := h.lookup_both hi hs.mem
    rw [hn] at h1 h2
    rw [h1, h2]
    exact (h3.assertValueValid nv.2 scaling).symm
  rw [encode_encodeRaw]
  constructor
  · rintro ⟨hs, hr⟩
    unfold encodeRaw at hr
    dsimp only at hr
    obtain ⟨x, h1, h2⟩ := bind_ok_iff.1 hr
    obtain ⟨j, hj⟩ := List.exists_mem_of_ne_nil _ h.ne
    obtain ⟨i, hi, g1, g2⟩ := (encode_spreadCodec (sigs' := sortSignalsByStartBit (spreadSigs sel A B ids)) rfl).1 h1
    have hi : i ∈ ids := h.spread_ids.1 hi
    have hmu := h.muxNumber hi data
    obtain ⟨mi, hmi⟩ := h.create_one hO hm hi pat'
    refine ⟨i, hi, mi, hmi, ?_⟩
    have e := hone i hi mi hmi
    rw [encode_encodeRaw]
    constructor
    · intro hst
      have := hs hst
      unfold assertSignalsEncodable at this ⊢
      obtain ⟨used, k1, k2⟩ := bind_ok_iff.1 this
      obtain ⟨i', -, k3, k4⟩ := (gather_spreadCodec (sigs' := sortSignalsByStartBit (sel :: (branchAt sel A B i ++ []))) hmu).1 k1
      rw [g1] at k3
      cases k3
      have k5 : gatherSignals mi data = .ok used := by rw [e]; exact k4
      refine (bind_of_ok k5).trans ?_
      refine Eq.trans ?_ k2
      have := hval i hi mi hmi used k5
      unfold assertSignalValuesValid
      rw [this, e]
    · unfold encodeRaw
      rw [e]
      obtain ⟨i', -, k1, k2⟩ := (encode_spreadCodec (sigs' := sortSignalsByStartBit (sel :: (branchAt sel A B i ++ []))) hmu).1 h1
      rw [g1] at k1
      cases k1
      exact (bind_of_ok k2).trans h2
  · rintro ⟨i, hi, mi, hmi, he⟩
    have e := hone i hi mi hmi
    have hmu := h.muxNumber hi data
    rw [encode_encodeRaw] at he
    obtain ⟨hs, hr⟩ := he
    have hil : i ∈ childrenIds (sortSignalsByStartBit (spreadSigs sel A B ids)) sel := h.spread_ids.2 hi
    unfold encodeRaw at hr
    obtain ⟨x, h1, h2⟩ := bind_ok_iff.1 hr
    rw [e] at h1 h2
    dsimp only at h1 h2
    have g1 : getMuxNumber (sortSignalsByStartBit (spreadSigs sel A B ids)) data sel.name = .ok i := by
      obtain ⟨k, hk, g1, -⟩ := (encode_spreadCodec (sigs' := sortSignalsByStartBit (sel :: (branchAt sel A B i ++ []))) rfl).1 h1
      rw [List.mem_singleton] at hk
      subst hk
      rw [hmu, g1]
    constructor
    · intro hst
      have := hs hst
      unfold assertSignalsEncodable at this ⊢
      obtain ⟨used, k1, k2⟩ := bind_ok_iff.1 this
      have k3 : gatherNode (sortSignalsByStartBit (sel :: (branchAt sel A B i ++ []))) data (spreadCodec sel A B [i]) = .ok used := by
        rw [e] at k1; exact k1
      refine (bind_of_ok ((gather_spreadCodec hmu).2 ⟨i, hil, g1, k3⟩)).trans ?_
      refine Eq.trans ?_ k2
      have := hval i hi mi hmi used k1
      unfold assertSignalValuesValid
      dsimp only
      rw [this, e]
    · unfold encodeRaw
      exact (bind_of_ok ((encode_spreadCodec hmu).2 ⟨i, hil, g1, h1⟩)).trans h2

end

end Cantools
