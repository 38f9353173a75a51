import Verif.Spec.TesterInit
import Verif.Lemmas.TesterInit
import Verif.Props.TesterFrame
import Verif.Props.Encode

/-
Properties of the initial values of the messages of a tester: C46.
-/

namespace Cantools
open Spec Tester

section
variable {fo : FloatOps} {fid : Int} {name : String} {len : Nat} {sigs : List Signal} {pat : UInt8}
  {ext : Bool} {m : Message} {raw : Signal → Option Rat}

namespace Tester

theorem startValue (hnd : (sigs.map (·.name)).Nodup)
    (hm : Message.create fid name len sigs pat ext true .default = .ok m)
    (raw : Signal → Option Rat) {s : Signal} (hs : s ∈ sigs) :
    dictGet? (initialValues m raw) s.name = some (initialValue (mplexSettings m) (raw s) s) := by
  obtain ⟨ha, -, -⟩ := accepted_of_create hnd hm
  exact dictGet?_initialValues ha.nodup raw ((ha.mem s).2 hs)

/-- Gathering does not change which signals are there. -/
theorem gathered_present {data r : List (String × Value)} (hnd : (sigs.map (·.name)).Nodup)
    (hr : ∀ n v, dictGet? r n = some v ↔ dictGet? data n = some v ∧
        ∃ s, Present sigs (requested sigs data) s ∧ s.name = n) :
    (∀ s, Present sigs (requested sigs data) s → dictGet? r s.name = dictGet? data s.name) ∧
    (∀ s, Present sigs (requested sigs data) s →
      requested sigs r s.name = requested sigs data s.name) ∧
    ∀ s, Present sigs (requested sigs r) s ↔ Present sigs (requested sigs data) s := by
  have h1 : ∀ s, Present sigs (requested sigs data) s → dictGet? r s.name = dictGet? data s.name := by
    intro s hs
    cases h : dictGet? data s.name with
    | some v => exact (hr _ _).2 ⟨h, s, hs, rfl⟩
    | none =>
      cases h' : dictGet? r s.name with
      | none => rfl
      | some v => rw [((hr _ _).1 h').1] at h; cases h
  have h2 : ∀ s, Present sigs (requested sigs data) s →
      requested sigs r s.name = requested sigs data s.name := by
    intro s hs
    rw [requested_eq hnd (Present.mem hs), requested_eq hnd (Present.mem hs), h1 s hs]
  refine ⟨h1, h2, fun s => ⟨fun h => ?_, fun h => ?_⟩⟩
  · induction h with
    | root s hs hp => exact .root s hs hp
    | child s p i ids hs hp hm _ hsel hids hi ih =>
      exact .child s p i ids hs hp hm ih (h2 p ih ▸ hsel) hids hi
  · induction h with
    | root s hs hp => exact .root s hs hp
    | child s p i ids hs hp hm hpar hsel hids hi ih =>
      exact .child s p i ids hs hp hm ih ((h2 p hpar).trans hsel) hids hi

theorem newMessage_ok {sc pad st : Bool} {t : TMessage} :
    newMessage fo m raw sc pad st = .ok t ↔
      Tester.update fo { database := m, scaling := sc, padding := pad, strict := st }
        (initialValues m raw) = (.ok (), t) := by
  unfold newMessage
  constructor
  · intro h
    split at h
    · rename_i h'; cases h; exact h'
    · cases h
  · intro h; rw [h]

theorem dictGet?_update_nil {d : List (String × Value)} (hd : (d.map (·.1)).Nodup) (n : String) :
    dictGet? (dictUpdate [] d) n = dictGet? d n := by
  rw [dictGet?_update]
  cases h : dictGet? d n with
  | some v =>
    have h' := dictGet?_of_mem (d := d.reverse) (by rw [List.map_reverse]; exact List.nodup_reverse.2 hd)
      (List.mem_reverse.2 (dictGet?_mem h))
    rw [h']
  | none =>
    have : dictGet? d.reverse n = none := by
      rw [dictGet?_eq_none_iff, List.map_reverse, List.mem_reverse]
      exact (dictGet?_eq_none_iff _ _).1 h
    rw [this]; rfl

theorem initialValues_nodup (m : Message) (raw : Signal → Option Rat) :
    ((initialValues m raw).map (·.1)).Nodup := by
  unfold initialValues
  generalize mplexSettings m = st
  have : ∀ (l : List Signal) (d : List (String × Value)), (d.map (·.1)).Nodup →
      ((l.foldl (fun d s => dictSet d s.name (initialValue st (raw s) s)) d).map (·.1)).Nodup := by
    intro l
    induction l with
    | nil => intro d hd; exact hd
    | cons x r ih => intro d hd; exact ih _ (dictSet_nodup _ _ hd)
  exact this _ _ List.nodup_nil

theorem initialValue_within (σ : Setting) {s : Signal} {r : Option Rat} (hraw : r = none)
    (hmux : s.isMultiplexer = false) (hl : SaneLimits s) :
    ∃ q, some (initialValue σ r s) = some (.num q) ∧ Within s q ∧ (Within s 0 → q = 0) ∧
      (q = 0 ∨ s.minimum = some q) := by
  subst hraw
  unfold initialValue initialOf
  simp only [Option.map_none, Option.filter_none, hmux, Bool.false_eq_true, if_false, Option.some.injEq]
  by_cases h0 : s.minimum.getD 0 ≤ 0 ∧ 0 ≤ s.maximum.getD 0
  · refine ⟨0, by rw [if_pos h0], ⟨fun mn h => ?_, fun mx h => ?_⟩, fun _ => rfl, .inl rfl⟩
    · rw [h] at h0; exact h0.1
    · rw [h] at h0; exact h0.2
  · rw [if_neg h0]
    cases hmn : s.minimum with
    | none =>
      exfalso
      apply h0
      rw [hmn]
      refine ⟨le_refl _, ?_⟩
      cases hmx : s.maximum with
      | none => exact le_refl _
      | some mx => exact (hl mx hmx).1 hmn
    | some mn =>
      refine ⟨mn, rfl, ⟨fun mn' h => ?_, fun mx h => (hl mx h).2 mn hmn⟩, fun hw => ?_, .inr rfl⟩
      · rw [hmn] at h; cases h; exact le_refl _
      · have h1 := hw.1 mn hmn
        rcases lt_or_eq_of_le h1 with h1' | h1'
        · exfalso
          apply h0
          rw [hmn]
          refine ⟨h1, ?_⟩
          cases hmx : s.maximum with
          | none => exact le_refl _
          | some mx => exact hw.2 mx hmx
        · exact h1'

end Tester

/-- C46: every signal of a new message has a value, and nothing else has one. -/
theorem C46_all_signals {sc pad st : Bool} {t : TMessage} (hnd : (sigs.map (·.name)).Nodup)
    (hm : Message.create fid name len sigs pat ext true .default = .ok m)
    (h : newMessage fo m raw sc pad st = .ok t) (n : String) :
    (dictGet? t.data n).isSome = true ↔ ∃ s ∈ sigs, s.name = n := by
  obtain ⟨ha, -, -⟩ := accepted_of_create hnd hm
  have hd := (C35_update_partial (newMessage_ok.1 h)).1
  simp only at hd
  rw [hd, dictGet?_update_nil (initialValues_nodup m raw)]
  constructor
  · intro hx
    obtain ⟨v, hv⟩ := Option.isSome_iff_exists.1 hx
    obtain ⟨s, hs, he⟩ := initialValues_known m raw (dictGet?_mem hv)
    exact ⟨s, (ha.mem s).1 hs, he⟩
  · rintro ⟨s, hs, rfl⟩
    rw [startValue hnd hm raw hs]; rfl

/-- C46: a signal whose initial value is not zero starts with it, shown by its name if it has one. -/
theorem C46_initial_value {sc pad st : Bool} {t : TMessage} (hnd : (sigs.map (·.name)).Nodup)
    (hb : ∀ s ∈ sigs, Built s.conversion)
    (hm : Message.create fid name len sigs pat ext true .default = .ok m)
    (h : newMessage fo m raw sc pad st = .ok t) {s : Signal} (hs : s ∈ sigs) {r : Rat}
    (hraw : raw s = some r) (hden : r.den = 1 ∨ s.conversion.choices = none)
    (h0 : shown s true true r ≠ .num 0) (he : shown s true true r ≠ .str "") :
    dictGet? t.data s.name = some (shown s true true r) := by
  have hd := (C35_update_partial (newMessage_ok.1 h)).1
  simp only at hd
  rw [hd, dictGet?_update_nil (initialValues_nodup m raw), startValue hnd hm raw hs]
  have hv : s.conversion.rawToScaled r true = shown s true true r :=
    decodeSignalValue_eq (dc := true) (sc := true) (hb s hs) hden
  have ht : truthy (shown s true true r) = true := by
    cases hx : shown s true true r with
    | num q => rw [hx] at h0; simpa [truthy] using h0
    | str c => rw [hx] at he; simpa [truthy] using he
    | named nv => rfl
  unfold initialValue initialOf
  rw [hraw, Option.map_some, hv, Option.filter_some, if_pos ht]

/-- C46, the part that holds: a signal without initial value that is not a selector starts within its
limits, at 0 if 0 is within them. -/
theorem C46_within_limits_partial {sc pad st : Bool} {t : TMessage} (hnd : (sigs.map (·.name)).Nodup)
    (hm : Message.create fid name len sigs pat ext true .default = .ok m)
    (h : newMessage fo m raw sc pad st = .ok t) {s : Signal} (hs : s ∈ sigs)
    (hraw : raw s = none) (hmux : s.isMultiplexer = false) (hl : SaneLimits s) :
    ∃ q, dictGet? t.data s.name = some (.num q) ∧ Within s q ∧ (Within s 0 → q = 0) := by
  have hd := (C35_update_partial (newMessage_ok.1 h)).1
  simp only at hd
  rw [hd, dictGet?_update_nil (initialValues_nodup m raw), startValue hnd hm raw hs]
  obtain ⟨q, h1, h2, h3, -⟩ := initialValue_within (mplexSettings m) hraw hmux hl
  exact ⟨q, h1, h2, h3⟩

/-- C46: when a message can be created: the initial values of the selectors have branches, and the
initial values of the signals they select can be sent. -/
theorem C46_created_iff {sc pad : Bool} (hnd : (sigs.map (·.name)).Nodup)
    (hb : ∀ s ∈ sigs, Built s.conversion)
    (hm : Message.create fid name len sigs pat ext true .default = .ok m) :
    (∃ t, newMessage fo m raw sc pad true = .ok t) ↔
      Selectable sigs (requested sigs (initialValues m raw)) ∧
      ∀ s, Present sigs (requested sigs (initialValues m raw)) s →
        ∃ v, dictGet? (initialValues m raw) s.name = some v ∧ Sendable fo s sc v := by
  obtain ⟨ha, -, -⟩ := accepted_of_create hnd hm
  have hup : ∀ n, dictGet? (dictUpdate [] (initialValues m raw)) n = dictGet? (initialValues m raw) n :=
    dictGet?_update_nil (initialValues_nodup m raw)
  have hreq : requested sigs (dictUpdate [] (initialValues m raw)) =
      requested sigs (initialValues m raw) := by
    funext n; unfold requested; rw [hup]
  obtain ⟨g1, -, g3⟩ := C08_gather_signals (fo := fo) hnd hb hm (dictUpdate [] (initialValues m raw))
  rw [hreq] at g1 g3
  have key : ∀ r, gatherSignals m (dictUpdate [] (initialValues m raw)) = .ok r →
      ((∃ f, encode fo m r sc pad true = .ok f) ↔
        Selectable sigs (requested sigs (initialValues m raw)) ∧
        ∀ s, Present sigs (requested sigs (initialValues m raw)) s →
          ∃ v, dictGet? (initialValues m raw) s.name = some v ∧ Sendable fo s sc v) := by
    intro r hr
    obtain ⟨k1, -⟩ := g1 r hr
    simp only [hup] at k1
    obtain ⟨p1, p2, p3⟩ := gathered_present hnd k1
    rw [C10_strict_encode_succeeds_iff (fo := fo) hnd hb hm]
    simp only [p3]
    constructor
    · rintro ⟨h1, -, h3⟩
      refine ⟨fun p hp hmux hbr => ?_, fun s hs => ?_⟩
      · obtain ⟨i, hi⟩ := h1 p ((p3 p).2 hp) hmux hbr
        exact ⟨i, p2 p hp ▸ hi.1, hi.2⟩
      · obtain ⟨v, r', hv, h4, h5, h6⟩ := h3 s hs
        exact ⟨v, p1 s hs ▸ hv, h4, r', h5, h6⟩
    · rintro ⟨h1, h3⟩
      refine ⟨fun p hp hmux hbr => ?_, fun n hn => ?_, fun s hs => ?_⟩
      · obtain ⟨i, hi⟩ := h1 p ((p3 p).1 hp) hmux hbr
        exact ⟨i, (p2 p ((p3 p).1 hp)).trans hi.1, hi.2⟩
      · obtain ⟨v, hv⟩ := Option.isSome_iff_exists.1 hn
        exact ((k1 n v).1 hv).2
      · obtain ⟨v, hv, h4, r', h5, h6⟩ := h3 s hs
        exact ⟨v, r', (p1 s hs).trans hv, h4, h5, h6⟩
  have hnew : (∃ t, newMessage fo m raw sc pad true = .ok t) ↔
      ∃ r, gatherSignals m (dictUpdate [] (initialValues m raw)) = .ok r ∧
        ∃ f, encode fo m r sc pad true = .ok f := by
    simp only [newMessage_ok]
    have hall : ((initialValues m raw).all fun kv => m.signals.any fun s => s.name == kv.1) = true := by
      rw [List.all_eq_true]
      rintro ⟨n, v⟩ hx
      obtain ⟨s, hs, he⟩ := initialValues_known m raw hx
      exact List.any_eq_true.2 ⟨s, hs, by simpa using he⟩
    constructor
    · rintro ⟨t, ht⟩
      obtain ⟨h1, ⟨g, f, h2, h3, -⟩, -⟩ := C35_update_partial ht
      unfold Tester.update at ht
      rw [if_pos hall] at ht
      obtain ⟨-, h4, ⟨g, f, h5, h6, -⟩, -⟩ := afterChange_ok ht
      simp only at h4 h5
      have : t.scaling = sc ∧ t.padding = pad ∧ t.strict = true := by
        unfold afterChange updateCanMessage at ht
        split at ht
        · rename_i t2 hx
          cases ht
          simp only [Except.bind_eq_ok, Except.pure_eq_ok] at hx
          obtain ⟨_, _, rfl⟩ := hx
          exact ⟨rfl, rfl, rfl⟩
        · cases ht
      rw [this.1, this.2.1, this.2.2, h4] at h6
      rw [h4] at h5
      exact ⟨g, h5, f, h6⟩
    · rintro ⟨r, hr, f, hf⟩
      unfold Tester.update
      rw [if_pos hall]
      have : newFrame fo (TMessage.mk m sc pad true (dictUpdate [] (initialValues m raw)) none none) =
          .ok f := newFrame_ok.2 ⟨r, hr, hf⟩
      have h2 : afterChange fo
          (TMessage.mk m sc pad true (dictUpdate [] (initialValues m raw)) none none) =
          (.ok (), TMessage.mk m sc pad true (dictUpdate [] (initialValues m raw)) (some f) none) := by
        unfold afterChange updateCanMessage
        rw [this]
        rfl
      exact ⟨_, h2⟩
  rw [hnew]
  constructor
  · rintro ⟨r, hr, hf⟩
    exact (key r hr).1 hf
  · intro h
    obtain ⟨r, hr⟩ := g3.2 ⟨h.1, fun s hs => by
      obtain ⟨v, hv, -⟩ := h.2 s hs
      rw [hup, hv]; rfl⟩
    exact ⟨r, hr, (key r hr).2 h⟩

/-- C46, the part that holds: a message without initial values can be created if every selector
selects some signal, the limits of its signals make sense, the numbers used for selecting can be sent,
and so can 0 and the minimum of the signals as far as they are within the limits. -/
theorem C46_created_partial {sc pad : Bool} (hnd : (sigs.map (·.name)).Nodup)
    (hb : ∀ s ∈ sigs, Built s.conversion)
    (hm : Message.create fid name len sigs pat ext true .default = .ok m)
    (hraw : ∀ s ∈ sigs, raw s = none) (hsel : SelectorsHaveSignals sigs)
    (hplain : ∀ s ∈ sigs, s.isMultiplexer = false → SaneLimits s ∧
      ∀ q, Within s q → (q = 0 ∨ s.minimum = some q) → Sendable fo s sc (.num q))
    (hmux : ∀ p ∈ sigs, p.isMultiplexer = true → ∀ i : Int,
      ((∃ c ∈ sigs, c.multiplexerSignal = some p.name ∧ i ∈ c.multiplexerIds.getD []) ∨
        (i = 0 ∧ ¬ SelectsSome sigs p)) → Sendable fo p sc (.num i)) :
    ∃ t, newMessage fo m raw sc pad true = .ok t ∧
      SendsEncodingOf fo t t.data := by
  obtain ⟨ha, -, -⟩ := accepted_of_create hnd hm
  obtain ⟨fuel, hc⟩ := ha.codec
  obtain ⟨c1, c2⟩ := mplexSettings_spec ha.nodup hc
  have hss : ∀ p, SelectsSome m.signals p ↔ SelectsSome sigs p := by
    intro p
    unfold SelectsSome HasBranch
    simp only [ha.mem]
  simp only [hss, ha.mem] at c1 c2
  have hval : ∀ p ∈ sigs, p.isMultiplexer = true → dictGet? (initialValues m raw) p.name =
      some (.num (((dictGet? (mplexSettings m) p.name).getD 0 : Int) : Rat)) := by
    intro p hp hpm
    rw [startValue hnd hm raw hp, hraw p hp]
    unfold initialValue initialOf
    simp [hpm]
  have hmain : ∃ t, newMessage fo m raw sc pad true = .ok t := by
    rw [C46_created_iff hnd hb hm]
    refine ⟨fun p hp hpm hbr => ?_, fun s hs => ?_⟩
    · have hpm' := Present.mem hp
      obtain ⟨i, hi⟩ := c2 hsel p _ (present_congr (fun s h => (ha.mem s).2 h) (fun _ _ => rfl) hp)
        ⟨hpm, hbr⟩
      refine ⟨i, ?_, .inl (c1 _ _ hi)⟩
      rw [requested_eq hnd hpm', hval p hpm' hpm, hi]
      simp [selectorNumber, pyInt_int]
    · have hs' := Present.mem hs
      cases hsm : s.isMultiplexer with
      | false =>
        obtain ⟨h1, h2⟩ := hplain s hs' hsm
        obtain ⟨q, h3, h4, -, h6⟩ := initialValue_within (mplexSettings m) (hraw s hs') hsm h1
        exact ⟨.num q, (startValue hnd hm raw hs').trans h3, h2 q h4 h6⟩
      | true =>
        refine ⟨_, hval s hs' hsm, hmux s hs' hsm _ ?_⟩
        cases hg : dictGet? (mplexSettings m) s.name with
        | some i => exact .inl (c1 _ _ hg)
        | none =>
          right
          refine ⟨rfl, fun hS => ?_⟩
          obtain ⟨i, hi⟩ := c2 hsel s _
            (present_congr (fun s h => (ha.mem s).2 h) (fun _ _ => rfl) hs) hS
          rw [hi] at hg; cases hg
  obtain ⟨t, ht⟩ := hmain
  exact ⟨t, ht, (C35_update_partial (newMessage_ok.1 ht)).2.1⟩

end

/-! ### The example -/

namespace Example

/-- No initial values, and an initial value of the signal `P`. -/
def noInitial : Signal → Option Rat := fun _ => none
def someInitial : Signal → Option Rat := fun s => if s.name = "P" then some 9 else none

/-- The message is created, with a selector value that has a branch. -/
example : (newMessage fo msg noInitial true true true).toOption.map (·.data) =
    some [("Mux", .num 2), ("P", .num 0), ("B", .num 0), ("A", .num 0)] := by decide +kernel

example : (newMessage fo msg someInitial true true true).toOption.map (·.frame) =
    some (some [0x92, 0x01, 0x80, 0xa5]) := by decide +kernel

theorem sendable {s : Signal} (hf : s.conversion.isFloat = false) (h0 : s.conversion.scale ≠ 0)
    {q : Rat} (i : Int) (hi : (q - s.conversion.offset) / s.conversion.scale = i) (hr : InRange s i)
    (hw : Within s q) : Sendable fo s true (.num q) := by
  have ht : 0 ≤ |s.conversion.scale| / 1000000 := div_nonneg (abs_nonneg _) (by norm_num)
  refine ⟨⟨fun _ => h0, .inr ⟨q, _, rfl, rfl, fun mn h => ?_, fun mx h => ?_⟩⟩, i,
    ⟨fun _ => h0, _, rfl, ?_⟩, ?_⟩
  · exact le_trans (sub_le_self _ ht) (hw.1 mn h)
  · exact le_trans (hw.2 mx h) (le_add_of_nonneg_right ht)
  · rw [if_neg (by rw [hf]; simp)]
    refine ⟨i, rfl, ?_⟩
    rw [if_pos rfl, hi]
    unfold NearestEven
    norm_num
  · unfold Representable
    rw [if_neg (by rw [hf]; simp)]
    exact ⟨i, rfl, hr⟩

/-- The example message meets the hypotheses of `C46_created_partial`. -/
example : ∃ t, newMessage fo msg noInitial true true true = .ok t ∧ SendsEncodingOf fo t t.data := by
  refine C46_created_partial nodup built msg_ok (fun _ _ => rfl) ?_ ?_ ?_
  · rintro q hq ⟨hqm, -⟩
    simp only [sigs, List.mem_cons, List.not_mem_nil, or_false] at hq
    rcases hq with rfl | rfl | rfl | rfl
    · cases hqm
    · cases hqm
    · cases hqm
    · exact ⟨b, by simp [sigs], rfl, by simp [b]⟩
  · intro s hs hsm
    simp only [sigs, List.mem_cons, List.not_mem_nil, or_false] at hs
    rcases hs with rfl | rfl | rfl | rfl
    · refine ⟨(fun _ h => by cases h), fun q hw h => ?_⟩
      rcases h with rfl | h
      · exact sendable (by decide +kernel) (by decide +kernel) 0 (by decide +kernel) (by unfold InRange; decide +kernel) hw
      · cases h
    · refine ⟨?_, fun q hw h => ?_⟩
      · intro mx h
        cases h
        exact ⟨(fun h => by cases h), fun mn h => by cases h; norm_num⟩
      · rcases h with rfl | h
        · exact sendable (by decide +kernel) (by decide +kernel) (-6) (by decide +kernel) (by unfold InRange; decide +kernel) hw
        · cases h
          exact sendable (by decide +kernel) (by decide +kernel) (-206) (by decide +kernel) (by unfold InRange; decide +kernel) hw
    · refine ⟨(fun _ h => by cases h), fun q hw h => ?_⟩
      rcases h with rfl | h
      · exact sendable (by decide +kernel) (by decide +kernel) 0 (by decide +kernel) (by unfold InRange; decide +kernel) hw
      · cases h
    · cases hsm
  · intro q hq hqm i hi
    simp only [sigs, List.mem_cons, List.not_mem_nil, or_false] at hq
    rcases hq with rfl | rfl | rfl | rfl
    · cases hqm
    · cases hqm
    · cases hqm
    · have hw : Within mux i := ⟨(fun _ h => by cases h), fun _ h => by cases h⟩
      have h3 : i = 0 ∨ i = 1 ∨ i = 2 := by
        rcases hi with ⟨c, hc, hc1, hc2⟩ | ⟨rfl, -⟩
        · simp only [sigs, List.mem_cons, List.not_mem_nil, or_false] at hc
          rcases hc with rfl | rfl | rfl | rfl
          · simp [b] at hc2; omega
          · simp [a] at hc2; omega
          · cases hc1
          · cases hc1
        · exact .inl rfl
      rcases h3 with rfl | rfl | rfl
      · exact sendable (by decide +kernel) (by decide +kernel) 0 (by decide +kernel) (by unfold InRange; decide +kernel) hw
      · exact sendable (by decide +kernel) (by decide +kernel) 1 (by decide +kernel) (by unfold InRange; decide +kernel) hw
      · exact sendable (by decide +kernel) (by decide +kernel) 2 (by decide +kernel) (by unfold InRange; decide +kernel) hw

/-- A new message of a one signal database. -/
def single (s : Signal) (initial : Option Rat) : Except Err (Option Value) := do
  let m ← Message.create 1 "M" 1 [s]
  let t ← newMessage fo m (fun _ => initial) true true true
  pure (dictGet? t.data s.name)

/-- No minimum and the maximum -5, the offset 10, a selector that only has a value table. -/
def lowMax : Signal := { name := "S", start := 0, length := 8, isSigned := true, maximum := some (-5) }
def shifted : Signal :=
  { name := "S", start := 0, length := 8, conversion := .factory 1 10 none false }
def tableOnly : Signal :=
  { name := "S", start := 0, length := 8, isMultiplexer := true
    conversion := .factory 1 0 (some [(1, .str "on")]) false }

/-- A selector without value table. -/
def plainMux : Signal := { name := "Mux", start := 0, length := 4, isMultiplexer := true }
def zeroSigs : List Signal := [b, a, p, plainMux]
def zeroMsg : Message := get (Message.create 0x123 "Msg" 4 zeroSigs 0xa5)

end Example

open Example in
/-- C46 is false in general: a tester for a message with a signal that is never more than -5 cannot be
created (its initial value is 0), nor one for a message with an unsigned signal with offset 10, nor
one with a selector that has a value table without 0 and selects no signal.  All these messages can be
created and sent with other values. -/
theorem C46_not_created :
    single lowMax none = .error .encodeError ∧ single lowMax (some (-7)) = .ok (some (.num (-7))) ∧
    single shifted none = .error .packError ∧ single shifted (some 3) = .ok (some (.num 13)) ∧
    single tableOnly none = .error .encodeError ∧
    single tableOnly (some 1) = .ok (some (.str "on")) := by
  refine ⟨?_, ?_, ?_, ?_, ?_, ?_⟩ <;> decide +kernel

open Example in
/-- C46: an initial value of 0 is ignored: the selector of the message starts with 2. -/
theorem C46_zero_initial_ignored :
    (Message.create 0x123 "Msg" 4 zeroSigs 0xa5).isOk = true ∧
    ((newMessage fo zeroMsg (fun s => if s.name = "Mux" then some 0 else none) true true true).toOption.map
      fun t => dictGet? t.data "Mux") = some (some (.num 2)) ∧
    shown plainMux true true 0 = .num 0 := by
  refine ⟨?_, ?_, ?_⟩ <;> decide +kernel

end Cantools
