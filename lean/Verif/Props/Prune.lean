import Verif.Lemmas.Prune
import Verif.Props.Conversion
import Verif.Props.Example

/-
Property C16: shortening the names of value tables.
-/

namespace Cantools
open Spec

/-- C16: from the names of a table with several entries one common prefix is removed: nothing, or a
prefix that ends with an underscore and leaves identifiers; no longer prefix would do (a lone
leading underscore is not counted). -/
theorem C16_prune_several (names : List (List Char)) (hlen : 2 ≤ names.length)
    (hnl : ∀ n ∈ names, '\n' ∉ n) :
    ∃ p, (p = [] ∨ Strippable names p) ∧ (∀ n ∈ names, p <+: n) ∧
      names = (pruneNames names).map (p ++ ·) ∧
      ∀ q, Strippable names q → q ≠ ['_'] → q.length ≤ p.length := by
  have hne : names ≠ [] := by intro h; rw [h] at hlen; simp at hlen
  have hp : pruneNames names = names.map fun x => x.drop (pruneLength names) := by
    match names, hlen with
    | a :: b :: r, _ => rfl
  obtain ⟨h1, h2⟩ := pruneLength_spec hne hnl
  have hmap : ∀ p : List Char, pruneLength names = p.length → (∀ n ∈ names, p <+: n) →
      names = (pruneNames names).map (p ++ ·) := by
    intro p hpl hpre
    rw [hp, List.map_map]
    conv => lhs; rw [← List.map_id names]
    apply List.map_congr_left
    intro n hn
    obtain ⟨t, rfl⟩ := hpre n hn
    simp [hpl]
  rcases h1 with h1 | ⟨p, hs, hl⟩
  · exact ⟨[], .inl rfl, fun n _ => List.nil_prefix, hmap [] h1 (fun n _ => List.nil_prefix),
      fun q hq hq1 => by have := h2 q hq hq1; rw [h1] at this; simpa using this⟩
  · have hpre : ∀ n ∈ names, p <+: n := fun n hn => by
      obtain ⟨t, ht, _⟩ := hs.2 n hn
      exact ⟨t, ht.symm⟩
    exact ⟨p, .inr hs, hpre, hmap p hl hpre, fun q hq hq1 => hl ▸ h2 q hq hq1⟩

/-- C16: the name of a table with one entry is cut after the first underscore that is followed only
by letters and underscores (and preceded only by letters, digits and underscores); otherwise it
stays. -/
theorem C16_prune_single (x t : List Char) (hnl : '\n' ∉ x) :
    pruneNames [x] = [t] ↔
      (∃ p, x = p ++ '_' :: t ∧ (∀ c ∈ p, Word c) ∧ t ≠ [] ∧ (∀ c ∈ t, Letter c) ∧
        ∀ p' t', x = p' ++ '_' :: t' → t' ≠ [] → (∀ c ∈ t', Letter c) → p.length ≤ p'.length) ∨
      (t = x ∧ ¬ ∃ p t', x = p ++ '_' :: t' ∧ (∀ c ∈ p, Word c) ∧ t' ≠ [] ∧
        ∀ c ∈ t', Letter c) := by
  change [(singleSuffix x).getD x] = [t] ↔ _
  rw [show ([(singleSuffix x).getD x] = [t]) ↔ ((singleSuffix x).getD x = t) by simp]
  cases h : singleSuffix x with
  | some s =>
    have h1 := singleSuffix_some hnl (t := t)
    rw [h] at h1
    rw [← h1]
    obtain ⟨p, e, hw, hs, hl, _⟩ := (singleSuffix_some hnl).1 h
    constructor
    · intro he; left; simpa using he
    · rintro (he | ⟨_, hn⟩)
      · simpa using he
      · exact absurd ⟨p, s, e, hw, hs, hl⟩ hn
  | none =>
    rw [← singleSuffix_some hnl, h]
    have hn : ¬ ∃ p t', x = p ++ '_' :: t' ∧ (∀ c ∈ p, Word c) ∧ t' ≠ [] ∧ ∀ c ∈ t', Letter c := by
      rintro ⟨p, t', he, hw, ht, hl⟩
      -- take the shortest such prefix
      classical
      let P : Nat → Prop := fun k => ∃ p t', p.length = k ∧ x = p ++ '_' :: t' ∧ t' ≠ [] ∧
        ∀ c ∈ t', Letter c
      have hex : ∃ k, P k := ⟨p.length, p, t', rfl, he, ht, hl⟩
      obtain ⟨p1, t1, hk, he1, ht1, hl1⟩ := Nat.find_spec hex
      have hle : p1.length ≤ p.length := by
        rw [hk]; exact Nat.find_min' hex ⟨p, t', rfl, he, ht, hl⟩
      have hsub : ∀ c ∈ p1, Word c := by
        have : p1 <+: p := List.prefix_of_prefix_length_le ⟨_, he1.symm⟩ ⟨_, he.symm⟩ hle
        intro c hc
        exact hw c (this.subset hc)
      have := (singleSuffix_some hnl (t := t1)).2 ⟨p1, he1, hsub, ht1, hl1, fun p' t'' e' n' l' => by
        rw [hk]; exact Nat.find_min' hex ⟨p', t'', rfl, e', n', l'⟩⟩
      rw [h] at this; cases this
    simp only [Option.getD_none, reduceCtorEq, false_or]
    exact ⟨fun he => ⟨he.symm, hn⟩, fun he => he.1.symm⟩

/-- C16: pruning again changes nothing in a table with several entries. -/
theorem C16_idempotent (names : List (List Char)) (hlen : 2 ≤ names.length)
    (hnl : ∀ n ∈ names, '\n' ∉ n) : pruneNames (pruneNames names) = pruneNames names := by
  obtain ⟨p, hp, hpre, hmap, hmax⟩ := C16_prune_several names hlen hnl
  set new := pruneNames names with hnew
  have hnl' : ∀ n ∈ new, '\n' ∉ n := by
    intro n hn hm
    refine hnl (p ++ n) ?_ (List.mem_append_right p hm)
    rw [hmap]; exact List.mem_map.2 ⟨n, hn, rfl⟩
  have hlen' : 2 ≤ new.length := by
    have := congrArg List.length hmap
    rw [List.length_map] at this; omega
  obtain ⟨p2, hp2, _, hmap2, _⟩ := C16_prune_several new hlen' hnl'
  have hnil : p2 = [] := by
    rcases hp2 with h | hs2
    · exact h
    · exfalso
      have hs : Strippable names (p ++ p2) := by
        have hne : p2 ≠ [] := by intro h; rw [h] at hs2; cases hs2.1
        refine ⟨by rw [List.getLast?_append_of_ne_nil _ hne]; exact hs2.1, fun n hn => ?_⟩
        rw [hmap] at hn
        obtain ⟨m, hm, rfl⟩ := List.mem_map.1 hn
        obtain ⟨t, ht, hi⟩ := hs2.2 m hm
        exact ⟨t, by rw [ht]; simp, hi⟩
      have hpos : 0 < p2.length := by
        cases p2 with
        | nil => cases hs2.1
        | cons => simp
      by_cases hpn : p = []
      · -- nothing was removed the first time, so nothing is removed the second time
        subst hpn
        have he : names = new := by simpa using hmap
        have h2 : pruneNames new = new := by rw [← he]; exact hnew.symm.trans he.symm
        rw [h2] at hmap2
        have h3 := congrArg (fun l => (l.map List.length).sum) hmap2
        simp only [List.map_map] at h3
        match new, hlen', h3 with
        | a :: r, _, h3 =>
          simp only [List.map_cons, List.sum_cons, Function.comp, List.length_append] at h3
          have : ∀ l : List (List Char), (l.map List.length).sum ≤
              (l.map ((fun x => x.length) ∘ fun x => p2 ++ x)).sum := by
            intro l
            induction l with
            | nil => simp
            | cons x l ih => simp only [List.map_cons, List.sum_cons, Function.comp,
                List.length_append] at ih ⊢; omega
          have := this r
          simp only [Function.comp_def, List.length_append] at this h3
          omega
      · have hne1 : p ++ p2 ≠ ['_'] := by
          intro h
          have := congrArg List.length h
          have hp1 : 0 < p.length := List.length_pos_iff.2 hpn
          simp at this; omega
        have := hmax _ hs hne1
        simp at this
        rw [this] at hpos; simp at hpos
  subst hnil
  simpa using hmap2.symm

/-- C16: distinct names stay distinct. -/
theorem C16_distinct (names : List (List Char)) (hnl : ∀ n ∈ names, '\n' ∉ n)
    (hd : names.Nodup) : (pruneNames names).Nodup := by
  match names, hd with
  | [], _ => exact List.nodup_nil
  | [x], _ => exact List.nodup_singleton _
  | a :: b :: r, hd =>
    obtain ⟨p, _, _, hmap, _⟩ := C16_prune_several (a :: b :: r) (by simp) hnl
    rw [hmap] at hd
    exact List.Nodup.of_map _ hd

theorem pruneNames_length (names : List (List Char)) : (pruneNames names).length = names.length := by
  unfold pruneNames
  split
  · rfl
  · simp

theorem toStr_setName (c : Choice) (s : String) : (c.setName s).toStr = s := by
  cases c <;> rfl

theorem pruneTable_keys (cs : Choices) : (pruneTable cs).map (·.1) = cs.map (·.1) := by
  unfold pruneTable
  rw [List.map_map]
  have h : (pruneNames (cs.map fun e => e.2.toStr.toList)).length = cs.length := by
    rw [pruneNames_length]; simp
  have : ((fun x : Int × Choice => x.1) ∘ fun p : (Int × Choice) × List Char =>
      (p.1.1, p.1.2.setName (String.ofList p.2))) = (·.1) ∘ Prod.fst := rfl
  rw [this, ← List.map_map, List.map_fst_zip (by rw [h])]

theorem pruneTable_names (cs : Choices) :
    (pruneTable cs).map (fun e => e.2.toStr.toList) =
      pruneNames (cs.map fun e => e.2.toStr.toList) := by
  unfold pruneTable
  rw [List.map_map]
  have h : (pruneNames (cs.map fun e => e.2.toStr.toList)).length = cs.length := by
    rw [pruneNames_length]; simp
  have : ((fun e : Int × Choice => e.2.toStr.toList) ∘ fun p : (Int × Choice) × List Char =>
      (p.1.1, p.1.2.setName (String.ofList p.2))) = Prod.snd := by
    funext p
    simp [toStr_setName]
  rw [this, List.map_snd_zip (by rw [h])]

/-- C16: pruning keeps the numbers of a table, and the names stay distinct if they were. -/
theorem C16_table (cs : Choices) (hnl : ∀ e ∈ cs, '\n' ∉ e.2.toStr.toList) :
    (pruneTable cs).map (·.1) = cs.map (·.1) ∧
    ((cs.map (·.2.toStr)).Nodup → ((pruneTable cs).map (·.2.toStr)).Nodup) := by
  refine ⟨pruneTable_keys cs, fun hd => ?_⟩
  have hinj : Function.Injective String.toList := fun a b h => String.toList_inj.1 h
  have h1 : (cs.map fun e => e.2.toStr.toList).Nodup := by
    have : (cs.map fun e => e.2.toStr.toList) = (cs.map (·.2.toStr)).map String.toList := by
      rw [List.map_map]; rfl
    rw [this]; exact hd.map hinj
  have h2 := C16_distinct _ (by
    intro n hn
    obtain ⟨e, he, rfl⟩ := List.mem_map.1 hn
    exact hnl e he) h1
  rw [← pruneTable_names] at h2
  have : ((pruneTable cs).map fun e => e.2.toStr.toList) =
      ((pruneTable cs).map (·.2.toStr)).map String.toList := by
    rw [List.map_map]; rfl
  rw [this] at h2
  exact List.Nodup.of_map _ h2

/-- C16: after pruning, a raw number in the table is shown with a name that is an end of the old
name. -/
theorem C16_decode_shows_pruned (scale offset : Rat) (cs : Choices) (isFloat : Bool)
    (hkeys : (cs.map (·.1)).Nodup) (hnl : ∀ e ∈ cs, '\n' ∉ e.2.toStr.toList) (i : Int) (ch : Choice)
    (hm : (i, ch) ∈ cs) :
    ∃ ch' : Choice, (Conversion.factory scale offset (some cs) isFloat).prune.rawToScaled i true =
        ch'.toValue ∧ ch'.toStr.toList <:+ ch.toStr.toList ∧
        (i, ch') ∈ pruneTable cs := by
  obtain ⟨k, hk, he⟩ := List.getElem_of_mem hm
  have hl : (pruneTable cs).length = cs.length := by
    have := congrArg List.length (pruneTable_keys cs)
    simpa using this
  have hk' : k < (pruneTable cs).length := by omega
  set e' := (pruneTable cs)[k] with he'
  have hfst : e'.1 = i := by
    have h1 : ((pruneTable cs).map (·.1))[k]? = (cs.map (·.1))[k]? := by rw [pruneTable_keys]
    rw [List.getElem?_map, List.getElem?_map, List.getElem?_eq_getElem hk,
      List.getElem?_eq_getElem hk', he] at h1
    simpa using h1
  have hmem : (i, e'.2) ∈ pruneTable cs := by
    rw [← hfst]; exact List.getElem_mem hk'
  refine ⟨e'.2, ?_, ?_, hmem⟩
  · have hg := dictGet?_of_mem (by rw [pruneTable_keys]; exact hkeys) hmem
    simp only [Conversion.factory, Conversion.prune, Conversion.rawToScaled, if_true, pyInt_int, hg]
  · have hn := pruneTable_names cs
    have h1 : ((pruneTable cs).map fun e => e.2.toStr.toList)[k]? =
        (pruneNames (cs.map fun e => e.2.toStr.toList))[k]? := by rw [hn]
    rw [List.getElem?_map, List.getElem?_eq_getElem hk'] at h1
    have hold : (cs.map fun e => e.2.toStr.toList)[k]? = some ch.toStr.toList := by
      rw [List.getElem?_map, List.getElem?_eq_getElem hk, he]; rfl
    have hnl' : ∀ n ∈ (cs.map fun e => e.2.toStr.toList), '\n' ∉ n := by
      intro n hn
      obtain ⟨e, he, rfl⟩ := List.mem_map.1 hn
      exact hnl e he
    generalize (cs.map fun e => e.2.toStr.toList) = names at h1 hold hnl'
    match names, h1, hold, hnl' with
    | [], _, hold, _ => simp at hold
    | [x], h1, hold, hnl' =>
      have hk0 : k = 0 := by
        rcases Nat.eq_zero_or_pos k with h | h
        · exact h
        · rw [List.getElem?_eq_none (by simp only [List.length_singleton]; omega)] at hold; cases hold
      subst hk0
      change _ = some ((singleSuffix x).getD x) at h1
      simp only [List.getElem?_cons_zero, Option.some.injEq] at hold
      simp only [Option.map_some, Option.some.injEq] at h1
      rw [h1, ← hold]
      cases hs : singleSuffix x with
      | none => exact List.suffix_refl _
      | some t =>
        obtain ⟨p, he, _⟩ := (singleSuffix_some (hnl' x (by simp))).1 hs
        exact ⟨p ++ ['_'], by rw [he]; simp⟩
    | a :: b :: r, h1, hold, hnl' =>
      change _ = ((a :: b :: r).map fun x => x.drop (pruneLength (a :: b :: r)))[k]? at h1
      rw [List.getElem?_map, hold] at h1
      simp only [Option.map_some, Option.some.injEq] at h1
      rw [h1]
      exact List.drop_suffix _ _

/-- C16: encoding accepts the same names, with the same raw numbers, as before pruning. -/
theorem C16_encode_old_names (c : Conversion) (n : String) :
    c.prune.scaledToRaw (.str n) = c.scaledToRaw (.str n) := by
  cases c <;> rfl

/-- C16, negative part: a name that pruning has shortened is rejected with `KeyError` when encoding,
unless it was a name before, although decoding shows it.  (The table used for encoding is not
updated.) -/
theorem C16_pruned_name_rejected (scale offset : Rat) (cs : Choices) (isFloat : Bool)
    (n : String) (hn : n ∉ cs.map (·.2.toStr)) :
    (Conversion.factory scale offset (some cs) isFloat).prune.scaledToRaw (.str n) =
      .error .keyError := by
  rw [C16_encode_old_names]
  have hg : dictGet? (inverseChoices cs) n = none := by
    rw [inverse_get, Option.map_eq_none_iff, List.find?_eq_none]
    intro e he
    simp only [beq_iff_eq]
    intro h
    exact hn (List.mem_map.2 ⟨e, List.mem_reverse.1 he, h⟩)
  simp only [Conversion.factory, Conversion.scaledToRaw, Conversion.choiceToNumber, hg]
  rfl

/-! ### The hypotheses can be met; claims that fail -/

namespace PruneExample

def table : Choices := [(0, .str "Gear_Drive_Slow"), (1, .named { value := 1, name := "Gear_Drive_Fast" })]

example : pruneTable table = [(0, .str "Slow"), (1, .named { value := 1, name := "Fast" })] := by
  decide +kernel
example := C16_prune_several (table.map fun e => e.2.toStr.toList) (by decide) (by decide +kernel)
example := C16_idempotent (table.map fun e => e.2.toStr.toList) (by decide) (by decide +kernel)
example := C16_table table (by decide +kernel)
example := C16_decode_shows_pruned 1 0 table false (by decide) (by decide +kernel) 1 _
  (List.mem_cons_of_mem _ (List.mem_singleton.2 rfl))
example := C16_pruned_name_rejected 1 0 table false "Fast" (by decide +kernel)
/-- The prefix must leave identifiers. -/
example : pruneNames ["A_B_1x".toList, "A_B_2x".toList] = ["B_1x".toList, "B_2x".toList] := by
  decide +kernel
example := (C16_prune_single "Msg_Sig_U32_NotAvailable".toList "NotAvailable".toList
  (by decide +kernel)).1 (by decide +kernel)

/-- A selector whose table is pruned. -/
def mux : Signal :=
  { name := "Mux", start := 0, length := 4, isMultiplexer := true
    conversion := .factory 1 0 (some table) false }
def a : Signal :=
  { name := "A", start := 4, length := 4, multiplexerIds := some [1], multiplexerSignal := some "Mux" }

def plain : Message := Example.get (Message.create 1 "M" 1 [{ mux with isMultiplexer := false }])
def muxed : Message := Example.get (Message.create 1 "M" 1 [mux, a])

end PruneExample

/-- Pruning a table with one entry twice may shorten the name twice. -/
theorem C16_single_not_idempotent :
    ∃ names, pruneNames (pruneNames names) ≠ pruneNames names :=
  ⟨["A_B_c".toList], by decide +kernel⟩

/-- C16 does not hold for messages: after pruning, what decoding returns cannot be encoded. -/
theorem C16_pruned_message_not_reencodable :
    ∃ (m : Message) (data : Bytes) (v : List (String × Value)),
      decode Example.fo m.prune data true true false false = .ok v ∧
      encode Example.fo m.prune v true true true = .error .keyError ∧
      ∃ v', decode Example.fo m data true true false false = .ok v' ∧ encode Example.fo m v' true true true = .ok data :=
  ⟨PruneExample.plain, [0], [("Mux", .str "Slow")], by decide +kernel, by decide +kernel,
    [("Mux", .str "Gear_Drive_Slow")], by decide +kernel, by decide +kernel⟩

/-- After pruning the value table of a selector, decoding a valid message raises `EncodeError` or
`KeyError`. -/
theorem C16_pruned_selector_breaks_decoding :
    ∃ (m : Message) (data : Bytes), (∃ v, decode Example.fo m data true true false false = .ok v) ∧
      ∃ e, decode Example.fo m.prune data true true false false = .error e ∧ e ≠ .decodeError :=
  ⟨PruneExample.muxed, [0x51], ⟨_, show _ = Except.ok [("Mux", .named { value := 1, name := "Gear_Drive_Fast" }), ("A", .num 5)] by decide +kernel⟩,
    ⟨.encodeError, by decide +kernel, by decide⟩⟩

end Cantools
