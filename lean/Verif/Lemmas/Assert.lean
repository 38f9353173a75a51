import Verif.Lemmas.Gather

namespace Cantools
open Spec

theorem pyAbs_eq (q : Rat) : pyAbs q = |q| := by
  unfold pyAbs
  split
  · rename_i h; rw [abs_of_neg h]
  · rename_i h; rw [abs_of_nonneg (not_lt.1 h)]

theorem numericScaledToRaw_iff {s : Signal} (h : Built s.conversion) {q r : Rat} :
    s.conversion.numericScaledToRaw q = .ok r ↔ RawOf s true (.num q) r := by
  rw [← encodeSignalValue_iff h]; rfl

theorem inTable_iff {s : Signal} {raw : Rat} :
    inTable s raw = true ↔ ∃ e ∈ table s, (e.1 : Rat) = raw := by
  simp [inTable, table]

theorem checkNumber_ok {s : Signal} {raw scaled : Rat} :
    checkNumber s raw scaled = .ok () ↔ (∃ e ∈ table s, (e.1 : Rat) = raw) ∨
      ((∀ mn, s.minimum = some mn → mn - |s.conversion.scale| / 1000000 ≤ scaled) ∧
        ∀ mx, s.maximum = some mx → scaled ≤ mx + |s.conversion.scale| / 1000000) := by
  have htol : tolerance s = |s.conversion.scale| / 1000000 := by
    unfold tolerance; rw [pyAbs_eq, mul_one_div]
  have hmin : belowMinimum s scaled = true ↔
      ¬ ∀ mn, s.minimum = some mn → mn - |s.conversion.scale| / 1000000 ≤ scaled := by
    unfold belowMinimum
    cases s.minimum <;> simp [htol, -tsub_le_iff_right]
  have hmax : aboveMaximum s scaled = true ↔
      ¬ ∀ mx, s.maximum = some mx → scaled ≤ mx + |s.conversion.scale| / 1000000 := by
    unfold aboveMaximum
    cases s.maximum <;> simp [htol]
  unfold checkNumber
  by_cases h1 : inTable s raw = true
  · rw [if_pos h1]; simp only [true_iff]; exact .inl (inTable_iff.1 h1)
  · rw [if_neg h1]
    rw [inTable_iff] at h1
    by_cases h2 : belowMinimum s scaled = true
    · rw [if_pos h2]
      rw [hmin] at h2
      constructor
      · intro h; cases h
      · rintro (h | h)
        · exact absurd h h1
        · exact absurd h.1 h2
    · rw [if_neg h2]
      rw [hmin, not_not] at h2
      by_cases h3 : aboveMaximum s scaled = true
      · rw [if_pos h3]
        rw [hmax] at h3
        constructor
        · intro h; cases h
        · rintro (h | h)
          · exact absurd h h1
          · exact absurd h.2 h3
      · rw [if_neg h3]
        rw [hmax, not_not] at h3
        simp only [true_iff]; exact .inr ⟨h2, h3⟩

theorem checkNumber_error {s : Signal} {raw scaled : Rat} {e : Err}
    (h : checkNumber s raw scaled = .error e) : e = .encodeError := by
  unfold checkNumber at h
  split at h
  · cases h
  · split at h
    · cases h; rfl
    · split at h
      · cases h; rfl
      · cases h

theorem assertValueValid_ok {s : Signal} (h : Built s.conversion) {v : Value} {sc : Bool} :
    assertValueValid s v sc = .ok () ↔ ValidValue s sc v := by
  cases v with
  | str c =>
    simp only [assertValueValid, ValidValue, Except.map_eq_ok, choiceToNumber_ok h]
    simp
  | named nv =>
    simp only [assertValueValid, ValidValue, Except.map_eq_ok, choiceToNumber_ok h]
    simp
  | num q =>
    have hsc := built_scale h
    have hr := rawToScaled_eq s.conversion.inner q
    rw [hsc.1, hsc.2] at hr
    simp only [assertValueValid, ValidValue]
    cases sc with
    | false =>
      simp only [Bool.false_eq_true, if_false, checkNumber_ok, false_implies, true_and, hr]
      simp
    | true =>
      simp only [if_true, true_implies]
      cases hn : s.conversion.numericScaledToRaw q with
      | error e =>
        constructor
        · intro h'; cases h'
        · rintro ⟨h0, _⟩
          unfold Conversion.numericScaledToRaw at hn
          rw [scaledToRaw_eq, hsc.1, if_neg h0] at hn
          cases hn
      | ok raw =>
        have h1 := (numericScaledToRaw_iff h).1 hn
        simp only [checkNumber_ok]
        constructor
        · intro h'
          refine ⟨h1.1 rfl, ?_⟩
          rcases h' with h' | h'
          · exact .inl ⟨raw, h1, h'⟩
          · exact .inr ⟨_, _, rfl, rfl, h'⟩
        · rintro ⟨_, ⟨raw', h2, h3⟩ | ⟨_, _, rfl, rfl, h3⟩⟩
          · have := (numericScaledToRaw_iff h).2 h2
            rw [hn] at this; cases this
            exact .inl h3
          · exact .inr h3

/-- The exceptions of the check of one value. -/
theorem assertValueValid_error {s : Signal} (h : Built s.conversion) {v : Value} {sc : Bool} {e : Err}
    (he : assertValueValid s v sc = .error e) :
    e = .encodeError ∨
    (e = .keyError ∧ ∃ n, (v = .str n ∨ ∃ nv, v = .named nv ∧ nv.name = n) ∧
      numberNamed s n = none) ∨
    (e = .zeroDivisionError ∧ sc = true ∧ s.conversion.scale = 0) := by
  have hch : ∀ n e, s.conversion.choiceToNumber n = .error e → e = .keyError ∧
      numberNamed s n = none := by
    intro n e h'
    have h1 := toOption_choiceToNumber h n
    rw [h'] at h1
    refine ⟨?_, h1.symm⟩
    unfold Conversion.choiceToNumber at h'
    split at h'
    · cases h'; rfl
    · split at h' <;> cases h'; rfl
  cases v with
  | str c =>
    simp only [assertValueValid] at he
    cases hc : s.conversion.choiceToNumber c with
    | ok i => rw [hc] at he; cases he
    | error e' =>
      rw [hc] at he; cases he
      exact .inr (.inl ⟨(hch _ _ hc).1, c, .inl rfl, (hch _ _ hc).2⟩)
  | named nv =>
    simp only [assertValueValid] at he
    cases hc : s.conversion.choiceToNumber nv.name with
    | ok i => rw [hc] at he; cases he
    | error e' =>
      rw [hc] at he; cases he
      exact .inr (.inl ⟨(hch _ _ hc).1, nv.name, .inr ⟨nv, rfl, rfl⟩, (hch _ _ hc).2⟩)
  | num q =>
    simp only [assertValueValid] at he
    split at he
    · rename_i hsc
      split at he
      · rename_i e' hr
        cases he
        right; right
        unfold Conversion.numericScaledToRaw at hr
        rw [scaledToRaw_eq] at hr
        split at hr
        · rename_i h0; cases hr; exact ⟨rfl, hsc, by rw [← (built_scale h).1]; exact h0⟩
        · cases hr
      · exact .inl (checkNumber_error he)
    · exact .inl (checkNumber_error he)

/-- `forM` over a list in `Except` succeeds iff every step does. -/
theorem forM_ok {α : Type} {l : List α} {f : α → Except Err Unit} :
    l.forM f = .ok () ↔ ∀ a ∈ l, f a = .ok () := by
  induction l with
  | nil => simp only [List.not_mem_nil, false_implies, implies_true, iff_true]; rfl
  | cons a r ih =>
    change (f a >>= fun _ => r.forM f) = _ ↔ _
    simp only [Except.bind_eq_ok, ih, List.mem_cons, forall_eq_or_imp]
    constructor
    · rintro ⟨⟨⟩, h1, h2⟩; exact ⟨h1, h2⟩
    · rintro ⟨h1, h2⟩; exact ⟨(), h1, h2⟩

theorem forM_error {α : Type} {l : List α} {f : α → Except Err Unit} {e : Err}
    (h : l.forM f = .error e) : ∃ a ∈ l, f a = .error e := by
  induction l with
  | nil => cases h
  | cons a r ih =>
    change (f a >>= fun _ => r.forM f) = _ at h
    cases hf : f a with
    | error e' => rw [hf] at h; cases h; exact ⟨a, by simp, hf⟩
    | ok u =>
      rw [hf] at h
      obtain ⟨b, hb, h'⟩ := ih h
      exact ⟨b, by simp [hb], h'⟩

theorem Accepted.signalByName {sigs : List Signal} {m : Message} (h : Accepted sigs m) {s : Signal}
    (hs : s ∈ sigs) : Cantools.signalByName m.signals s.name = .ok s := by
  unfold Cantools.signalByName
  have hnd : (m.signals.reverse.map (·.name)).Nodup := by
    rw [List.map_reverse]; exact List.nodup_reverse.2 h.nodup
  rw [find?_name hnd (by simpa using (h.mem s).2 hs)]

theorem keysEq {used data : List (String × Value)} :
    (used.all (fun nv => data.any (fun d => d.1 == nv.1)) &&
        data.all (fun d => used.any (fun nv => d.1 == nv.1))) = true ↔
      ∀ n, n ∈ used.map (·.1) ↔ n ∈ data.map (·.1) := by
  simp only [Bool.and_eq_true, List.all_eq_true, List.any_eq_true, beq_iff_eq, List.mem_map]
  constructor
  · rintro ⟨h1, h2⟩ n
    constructor
    · rintro ⟨a, ha, rfl⟩; exact h1 a ha
    · rintro ⟨a, ha, rfl⟩
      obtain ⟨b, hb, hab⟩ := h2 a ha
      exact ⟨b, hb, hab.symm⟩
  · intro h
    constructor
    · intro a ha; exact (h a.1).1 ⟨a, ha, rfl⟩
    · intro a ha
      obtain ⟨b, hb, hab⟩ := (h a.1).2 ⟨a, ha, rfl⟩
      exact ⟨b, hb, hab.symm⟩

theorem assert_ok_iff {sigs : List Signal} {m : Message} {sc vv ak : Bool}
    {data : List (String × Value)} (h : Accepted sigs m)
    (hnd : (sigs.map (·.name)).Nodup) (hb : ∀ s ∈ sigs, Built s.conversion) :
    assertSignalsEncodable m data sc vv ak = .ok () ↔
      Selectable sigs (requested sigs data) ∧
      (∀ s, Present sigs (requested sigs data) s → (dictGet? data s.name).isSome) ∧
      (ak = true → ∀ n, (dictGet? data n).isSome →
        ∃ s, Present sigs (requested sigs data) s ∧ s.name = n) ∧
      (vv = true → ∀ s v, Present sigs (requested sigs data) s → dictGet? data s.name = some v →
        ValidValue s sc v) := by
  obtain ⟨g1, g2⟩ := h.gather hnd hb data
  have hkey : ∀ (d : List (String × Value)) (n : String),
      n ∈ d.map (·.1) ↔ (dictGet? d n).isSome = true := by
    intro d n
    rw [← not_iff_not, ← dictGet?_eq_none_iff]
    simp
  -- checks after gathering
  have key : ∀ used, gatherSignals m data = .ok used →
      (assertSignalsEncodable m data sc vv ak = .ok () ↔
        (ak = true → ∀ n, (dictGet? data n).isSome →
          ∃ s, Present sigs (requested sigs data) s ∧ s.name = n) ∧
        (vv = true → ∀ s v, Present sigs (requested sigs data) s → dictGet? data s.name = some v →
          ValidValue s sc v)) := by
    intro used hu
    obtain ⟨k1, k2, k3, k4⟩ := g1 used hu
    have hknown : (ak && !(used.all (fun nv => data.any (fun d => d.1 == nv.1)) &&
        data.all (fun d => used.any (fun nv => d.1 == nv.1)))) = true ↔
        ¬ (ak = true → ∀ n, (dictGet? data n).isSome →
          ∃ s, Present sigs (requested sigs data) s ∧ s.name = n) := by
      rw [Bool.and_eq_true, Bool.not_eq_true', ← Bool.not_eq_true, keysEq, Classical.not_imp]
      apply and_congr_right
      intro _
      rw [not_iff_not]
      simp only [hkey]
      constructor
      · intro h' n hn
        obtain ⟨v, hv⟩ := Option.isSome_iff_exists.1 ((h' n).2 hn)
        exact ((k3 n v).1 hv).2
      · intro h' n
        constructor
        · intro hn
          obtain ⟨v, hv⟩ := Option.isSome_iff_exists.1 hn
          rw [((k3 n v).1 hv).1]; rfl
        · intro hn
          obtain ⟨v, hv⟩ := Option.isSome_iff_exists.1 hn
          rw [(k3 n v).2 ⟨hv, h' n hn⟩]; rfl
    have hvalid : assertSignalValuesValid m used sc = .ok () ↔
        ∀ s v, Present sigs (requested sigs data) s → dictGet? data s.name = some v →
          ValidValue s sc v := by
      unfold assertSignalValuesValid
      rw [forM_ok]
      constructor
      · intro h' s v hs hv
        have hmem := dictGet?_mem ((k3 s.name v).2 ⟨hv, s, hs, rfl⟩)
        have := h' _ hmem
        have hss := Present.mem hs
        rw [h.signalByName hss] at this
        exact (assertValueValid_ok (hb s hss)).1 this
      · rintro h' ⟨n, v⟩ hnv
        obtain ⟨hv, s, hs, rfl⟩ := (k3 n v).1 (dictGet?_of_mem k4 hnv)
        have hss := Present.mem hs
        simp only
        rw [h.signalByName hss]
        exact (assertValueValid_ok (hb s hss)).2 (h' s v hs hv)
    unfold assertSignalsEncodable
    rw [hu]
    change (if _ then _ else if _ then _ else _) = _ ↔ _
    by_cases hk : ak = true → ∀ n, (dictGet? data n).isSome →
          ∃ s, Present sigs (requested sigs data) s ∧ s.name = n
    · rw [if_neg (by rw [hknown]; exact not_not.2 hk)]
      cases vv with
      | true =>
        rw [if_pos rfl, hvalid]; exact ⟨fun h' => ⟨hk, fun _ => h'⟩, fun h' => h'.2 rfl⟩
      | false =>
        rw [if_neg (by decide)]
        exact ⟨fun _ => ⟨hk, fun h' => by cases h'⟩, fun _ => rfl⟩
    · rw [if_pos (hknown.2 hk)]
      constructor
      · intro h'; cases h'
      · intro h'; exact absurd h'.1 hk
  constructor
  · intro ha
    cases hu : gatherSignals m data with
    | error e => unfold assertSignalsEncodable at ha; rw [hu] at ha; cases ha
    | ok used =>
      obtain ⟨k1, k2, _, _⟩ := g1 used hu
      exact ⟨k1, k2, (key used hu).1 ha⟩
  · rintro ⟨h1, h2, h3⟩
    obtain ⟨used, hu⟩ := g2 h1 h2
    exact (key used hu).2 h3

theorem assert_error {sigs : List Signal} {m : Message} {sc vv ak : Bool}
    {data : List (String × Value)} {e : Err} (h : Accepted sigs m)
    (hnd : (sigs.map (·.name)).Nodup) (hb : ∀ s ∈ sigs, Built s.conversion)
    (he : assertSignalsEncodable m data sc vv ak = .error e) :
    e = .encodeError ∨
    (vv = true ∧ Selectable sigs (requested sigs data) ∧
      (∀ s, Present sigs (requested sigs data) s → (dictGet? data s.name).isSome) ∧
      ∃ s v, Present sigs (requested sigs data) s ∧ dictGet? data s.name = some v ∧
      ((e = .keyError ∧ ∃ n, (v = .str n ∨ ∃ nv, v = .named nv ∧ nv.name = n) ∧
          numberNamed s n = none) ∨
        (e = .zeroDivisionError ∧ sc = true ∧ s.conversion.scale = 0))) := by
  obtain ⟨g1, g2⟩ := h.gather hnd hb data
  obtain ⟨fuel, hc⟩ := h.codec
  unfold assertSignalsEncodable at he
  cases hu : gatherSignals m data with
  | error e' =>
    rw [hu] at he; cases he
    exact .inl ((gatherNode_only m.codec (createCodec_WF hc)).1 _ hu)
  | ok used =>
    obtain ⟨k1, k2, k3, k4⟩ := g1 used hu
    rw [hu] at he
    change (if _ then _ else if _ then _ else _) = _ at he
    split at he
    · cases he; exact .inl rfl
    · split at he
      · rename_i hvv
        obtain ⟨⟨n, v⟩, hnv, hf⟩ := forM_error he
        obtain ⟨hv, s, hs, rfl⟩ := (k3 n v).1 (dictGet?_of_mem k4 hnv)
        have hss := Present.mem hs
        simp only at hf
        rw [h.signalByName hss] at hf
        rcases assertValueValid_error (hb s hss) hf with h' | h'
        · exact .inl h'
        · exact .inr ⟨hvv, k1, k2, s, v, hs, hv, h'⟩
      · cases he

theorem encode_encodeRaw {fo : FloatOps} {m : Message} {data : List (String × Value)}
    {sc pad strict : Bool} {p : Bytes} :
    encode fo m data sc pad strict = .ok p ↔
      (strict = true → assertSignalsEncodable m data sc true true = .ok ()) ∧
      encodeRaw fo m data sc pad = .ok p := by
  unfold encode
  cases strict with
  | false => simp
  | true =>
    simp only [if_true, forall_const]
    change (assertSignalsEncodable m data sc true true >>= fun _ => _) = _ ↔ _
    simp only [Except.bind_eq_ok]
    constructor
    · rintro ⟨⟨⟩, h1, h2⟩; exact ⟨h1, h2⟩
    · rintro ⟨h1, h2⟩; exact ⟨(), h1, h2⟩

end Cantools
