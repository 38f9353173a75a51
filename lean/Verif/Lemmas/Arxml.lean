import Verif.Spec.Arxml
import Verif.Lemmas.Basic
import Verif.Lemmas.DbcLoaded
import Verif.Lemmas.SpreadFrame
import Verif.Lemmas.Accepted

/-
The signals that are loaded for a tree of PDUs (C50).
-/

namespace Cantools.Arxml
open Cantools Spec

/-- The signal without multiplexing. -/
def bareSignal (s : Signal) : Signal := { s with multiplexerIds := none, multiplexerSignal := none }

theorem bare_of_plain {s : Signal} (h : PlainSignal s) : bareSignal s = s := by
  obtain ⟨-, h1, h2, -⟩ := h
  cases s
  simp only [bareSignal] at *
  subst h1 h2
  rfl

theorem bare_claim (n : String) (c : Int) (s : Signal) : bareSignal (claim n c s) = bareSignal s := by
  unfold claim
  split <;> rfl

theorem claim_name (n : String) (c : Int) (s : Signal) : (claim n c s).name = s.name := by
  unfold claim; split <;> rfl

theorem claim_isMultiplexer (n : String) (c : Int) (s : Signal) : (claim n c s).isMultiplexer = s.isMultiplexer := by
  unfold claim; split <;> rfl

theorem selectorSignal_eq (frame : String) (i pos len : Nat) (order : ByteOrder) (names : Choices) :
    selectorSignal frame i pos len order names = selectorAt frame i pos len order names := by
  unfold selectorSignal selectorAt
  cases names with
  | nil => rfl
  | cons a l => rfl

theorem bare_selector (frame : String) (i pos len : Nat) (order : ByteOrder) (names : Choices) :
    bareSignal (selectorAt frame i pos len order names) = selectorAt frame i pos len order names := rfl

theorem filter_bare (p : Nat → Bool) (l : List Signal) :
    (l.map bareSignal).filter (fun s => p s.start) = (l.filter fun s => p s.start).map bareSignal := by
  rw [List.filter_map]; rfl

/-- What the body of the loop over the alternatives does. -/
theorem addAlternative_ok {sel : String} {pos len : Nat} {code : Int} {init : Bool} {st st' : AltState}
    {loaded : Nat × List Signal} (h : addAlternative sel pos len code init st loaded = .ok st') :
    st'.idx = loaded.1 ∧ st'.signals = st.signals ++ ((loaded.2.filter fun s => s.start != pos).map (claim sel code)) ∧
    ∃ f, (loaded.2.filter fun s => s.start == pos) = [f] ∧ f.length = len ∧ st'.choices = dictUpdate st.choices (table f) := by
  have h' : ∃ i, (match loaded.2.filter fun s => s.start == pos with
      | [f] => if f.length ≠ len then Except.error Err.assertionError
        else Except.ok { idx := loaded.1, initial := i
                         choices := match f.conversion.choices with
                           | some c => dictUpdate st.choices c
                           | none => st.choices
                         signals := st.signals ++ ((loaded.2.filter fun s => s.start != pos).map (claim sel code)) }
      | _ => Except.error Err.assertionError) = Except.ok st' := by
    unfold addAlternative at h
    cases init with
    | false =>
      obtain ⟨i, -, h⟩ := bind_ok_iff.1 h
      exact ⟨i, h⟩
    | true =>
      obtain ⟨i, -, h⟩ := bind_ok_iff.1 h
      exact ⟨i, h⟩
  clear h
  obtain ⟨i, h⟩ := h'
  cases hf : loaded.2.filter fun s => s.start == pos with
  | nil => rw [hf] at h; cases h
  | cons f l =>
    cases l with
    | cons _ _ => rw [hf] at h; cases h
    | nil =>
      rw [hf] at h
      dsimp only at h
      by_cases hl : f.length = len
      · rw [if_neg (by simpa using hl)] at h
        cases h
        refine ⟨rfl, rfl, f, rfl, hl, ?_⟩
        unfold table
        cases f.conversion.choices <;> rfl
      · rw [if_pos (by simpa using hl)] at h
        cases h

mutual
/-- The index is handed back unchanged, and the loaded signals are all signals of the tree. -/
theorem loadPdu_contents {frame : String} : ∀ (p : Pdu) {i j : Nat} {L : List Signal}, CleanPdu frame p i →
    loadPdu frame p i = .ok (j, L) → j = i ∧ L.map bareSignal = signalsIn frame (fun _ _ => true) p i
  | .plain signals, i, j, L, hc, h => by
    cases h
    rw [CleanPdu] at hc
    rw [signalsIn]
    exact ⟨rfl, (List.map_congr_left fun s hs => bare_of_plain (hc s hs)).trans (List.map_id _)⟩
  | .secured p, i, j, L, hc, h => by
    rw [CleanPdu] at hc
    rw [loadPdu] at h
    rw [signalsIn]
    exact loadPdu_contents p hc h
  | .multiplexed signals pos len order alts statics, i, j, L, hc, h => by
    rw [CleanPdu] at hc
    obtain ⟨h1, h2, h3⟩ := hc
    rw [loadPdu] at h
    obtain ⟨st, hst, h⟩ := bind_ok_iff.1 h
    obtain ⟨stat, hstat, h⟩ := bind_ok_iff.1 h
    cases h
    obtain ⟨k1, ⟨A, k2, k3⟩, k4⟩ := loadAlts_contents alts (order := order) h2 rfl hst
    rw [k1] at hstat
    obtain ⟨B, k5, k6⟩ := loadStatics_contents statics h3 hstat
    refine ⟨rfl, ?_⟩
    rw [signalsIn, List.map_append, List.map_cons, selectorSignal_eq, bare_selector, List.map_append,
      (List.map_congr_left fun s hs => bare_of_plain (h1 s hs)).trans (List.map_id _), k4, k2, k5, List.nil_append,
      List.nil_append, k3, k6]

theorem loadAlts_contents {frame sel : String} {pos len : Nat} {order : ByteOrder} : ∀ (alts : Alts) {d : Nat} {st st' : AltState},
    CleanAlts frame pos alts d → st.idx = d → loadAlts frame sel pos len alts st = .ok st' →
    st'.idx = d ∧ (∃ A, st'.signals = st.signals ++ A ∧
      A.map bareSignal = alternativeSignals frame (fun _ _ => true) (selectorField pos len order) alts d) ∧
    st'.choices = selectorNames frame pos alts d st.choices
  | .nil, d, st, st', _, hd, h => by
    cases h
    refine ⟨hd, ⟨[], by simp, ?_⟩, ?_⟩
    · rw [alternativeSignals]; rfl
    · rw [selectorNames]
  | .cons code init p rest, d, st, st', hc, hd, h => by
    rw [CleanAlts] at hc
    obtain ⟨h1, -, h2⟩ := hc
    rw [loadAlts] at h
    obtain ⟨⟨j, L⟩, hL, h⟩ := bind_ok_iff.1 h
    obtain ⟨st1, hst1, h⟩ := bind_ok_iff.1 h
    rw [hd] at hL
    obtain ⟨rfl, k1⟩ := loadPdu_contents p h1 hL
    obtain ⟨m1, m2, f, m3, m4, m5⟩ := addAlternative_ok hst1
    obtain ⟨n1, ⟨A, n2, n3⟩, n4⟩ := loadAlts_contents rest (order := order) h2 m1 h
    dsimp only at m2 m3
    refine ⟨n1, ⟨_, by rw [n2, m2, List.append_assoc], ?_⟩, ?_⟩
    · rw [alternativeSignals, if_pos rfl, List.map_append, n3, ← k1]
      congr 1
      rw [show (selectorField pos len order).start = pos from rfl, filter_bare (fun n => n != pos), List.map_map]
      exact List.map_congr_left fun s _ => bare_claim _ _ s
    · rw [n4, selectorNames, m5, ← k1, filter_bare (fun n => n == pos), m3]
      rfl

theorem loadStatics_contents {frame : String} : ∀ (statics : Pdus) {d : Nat} {acc L : List Signal},
    CleanPdus frame statics d → loadStatics frame statics d acc = .ok L →
    ∃ B, L = acc ++ B ∧ B.map bareSignal = staticSignals frame (fun _ _ => true) statics d
  | .nil, d, acc, L, _, h => by
    cases h
    exact ⟨[], by simp, by rw [staticSignals]; rfl⟩
  | .cons p rest, d, acc, L, hc, h => by
    rw [CleanPdus] at hc
    rw [loadStatics] at h
    obtain ⟨⟨j, L1⟩, hL, h'⟩ := bind_ok_iff.1 h
    obtain ⟨rfl, k1⟩ := loadPdu_contents p hc.1 hL
    obtain ⟨B, k2, k3⟩ := loadStatics_contents rest (acc := acc ++ L1) (L := L) hc.2 h'
    exact ⟨_, by rw [k2, List.append_assoc], by rw [staticSignals, List.map_append, k3, k1]⟩
end

/-! ### Presence -/

/-- Selectors of signals in the list are in the list. -/
def Closed (L : List Signal) : Prop :=
  ∀ s ∈ L, ∀ n, s.multiplexerSignal = some n → ∃ p ∈ L, p.name = n ∧ p.isMultiplexer = true

/-- Names of selectors are distinct. -/
def DistinctSelectors (S : List Signal) : Prop := ((S.filter (·.isMultiplexer)).map (·.name)).Nodup

theorem DistinctSelectors.inj {S : List Signal} (h : DistinctSelectors S) {p q : Signal} (hp : p ∈ S) (hq : q ∈ S)
    (hpm : p.isMultiplexer = true) (hqm : q.isMultiplexer = true) (hn : p.name = q.name) : p = q :=
  List.inj_on_of_nodup_map h (List.mem_filter.2 ⟨hp, hpm⟩) (List.mem_filter.2 ⟨hq, hqm⟩) hn

theorem present_sub {S L : List Signal} {sel : String → Option Int} (hL : L ⊆ S) (hc : Closed L) (hS : DistinctSelectors S)
    {s : Signal} (hs : s ∈ L) : Present S sel s ↔ Present L sel s := by
  constructor
  · intro h
    induction h with
    | root s _ hp => exact .root s hs hp
    | child s p i ids _ hp hm hpar hsel hids hi ih =>
      obtain ⟨q, hq, hqn, hqm⟩ := hc s hs _ hp
      have : q = p := hS.inj (hL hq) hpar.mem hqm hm hqn
      subst this
      exact .child s q i ids hs hp hm (ih hq) hsel hids hi
  · intro h
    clear hs
    induction h with
    | root s hs hp => exact .root s (hL hs) hp
    | child s p i ids hs hp hm hpar hsel hids hi ih => exact .child s p i ids (hL hs) hp hm ih hsel hids hi

theorem claim_root {n : String} {c : Int} {s : Signal} (h : s.multiplexerSignal = none) :
    claim n c s = { s with multiplexerSignal := some n, multiplexerIds := some [c] } := by
  unfold claim; rw [if_pos h]

theorem claim_child {n : String} {c : Int} {s : Signal} {m : String} (h : s.multiplexerSignal = some m) : claim n c s = s := by
  unfold claim; rw [if_neg (by rw [h]; nofun)]

theorem present_claim {S L : List Signal} {sel : String → Option Int} {q : Signal} {code : Int}
    (hL : ∀ s ∈ L, claim q.name code s ∈ S) (hq : q ∈ S) (hqm : q.isMultiplexer = true) (hc : Closed L)
    (hS : DistinctSelectors S) {s : Signal} (hs : s ∈ L) :
    Present S sel (claim q.name code s) ↔ Present S sel q ∧ sel q.name = some code ∧ Present L sel s := by
  constructor
  · intro h
    generalize ht : claim q.name code s = t at h
    induction h generalizing s with
    | root t _ hp =>
      exfalso
      cases hm : s.multiplexerSignal with
      | none => rw [claim_root hm] at ht; subst ht; cases hp
      | some m => rw [claim_child hm] at ht; subst ht; rw [hm] at hp; cases hp
    | child t p i ids _ hp hm hpar hsel hids hi ih =>
      cases hms : s.multiplexerSignal with
      | none =>
        rw [claim_root hms] at ht
        subst ht
        simp only [Option.some.injEq] at hp hids
        have : q = p := hS.inj hq hpar.mem hqm hm hp
        subst this
        subst hids
        rw [List.mem_singleton] at hi
        subst hi
        exact ⟨hpar, hsel, .root s hs hms⟩
      | some m =>
        rw [claim_child hms] at ht
        subst ht
        obtain ⟨p', hp', hpn, hpm⟩ := hc s hs _ hp
        have : claim q.name code p' = p := hS.inj (hL p' hp') hpar.mem ((claim_isMultiplexer ..).trans hpm) hm
          ((claim_name ..).trans hpn)
        obtain ⟨k1, k2, k3⟩ := ih hp' this
        exact ⟨k1, k2, .child s p' i ids hs (hp.trans (by rw [hpn])) hpm k3 (by rw [hpn]; exact hsel) hids hi⟩
  · rintro ⟨h1, h2, h3⟩
    clear hs
    induction h3 with
    | root s hs hp =>
      rw [claim_root hp]
      exact .child _ q code [code] (claim_root hp ▸ hL s hs) rfl hqm h1 h2 rfl (by simp)
    | child s p i ids hs hp hm hpar hsel hids hi ih =>
      rw [claim_child hp]
      exact .child s (claim q.name code p) i ids (claim_child hp ▸ hL s hs) (hp.trans (by rw [claim_name]))
        ((claim_isMultiplexer ..).trans hm) ih (by rw [claim_name]; exact hsel) hids hi

/-! ### The signals of a frame -/

open Classical in
/-- The signals of `L` that are in the frame, without multiplexing. -/
noncomputable def presentOf (S : List Signal) (sel : String → Option Int) (L : List Signal) : List Signal :=
  (L.filter fun s => decide (Present S sel s)).map bareSignal

theorem presentOf_append (S : List Signal) (sel : String → Option Int) (L M : List Signal) :
    presentOf S sel (L ++ M) = presentOf S sel L ++ presentOf S sel M := by
  unfold presentOf
  rw [List.filter_append, List.map_append]

theorem presentOf_all {S L : List Signal} {sel : String → Option Int} (h : ∀ s ∈ L, Present S sel s) :
    presentOf S sel L = L.map bareSignal := by
  unfold presentOf
  rw [List.filter_eq_self.2 fun s hs => by simpa using h s hs]

theorem presentOf_none {S L : List Signal} {sel : String → Option Int} (h : ∀ s ∈ L, ¬Present S sel s) :
    presentOf S sel L = [] := by
  unfold presentOf
  rw [List.filter_eq_nil_iff.2 fun s hs => by simpa using h s hs]
  rfl

theorem presentOf_sub {S L : List Signal} {sel : String → Option Int} (hL : L ⊆ S) (hc : Closed L) (hS : DistinctSelectors S) :
    presentOf S sel L = presentOf L sel L := by
  unfold presentOf
  congr 1
  exact List.filter_congr fun s hs => decide_eq_decide.2 (present_sub hL hc hS hs)

/-- The selectors in the frame choose the alternatives that `chosen` says. -/
def Chooses (S : List Signal) (sel : String → Option Int) (chosen : Signal → Int → Bool) : Prop :=
  ∀ q ∈ S, q.isMultiplexer = true → Present S sel q → ∀ code, sel q.name = some code ↔
    chosen (selectorField q.start q.length q.byteOrder) code = true

theorem DistinctSelectors.sublist {S L : List Signal} (h : DistinctSelectors S) (hL : L.Sublist S) : DistinctSelectors L :=
  List.Nodup.sublist ((hL.filter _).map _) h

theorem Chooses.sub {S L : List Signal} {sel : String → Option Int} {chosen : Signal → Int → Bool} (h : Chooses S sel chosen)
    (hL : L ⊆ S) (hc : Closed L) (hS : DistinctSelectors S) : Chooses L sel chosen :=
  fun q hq hqm hp => h q (hL hq) hqm ((present_sub hL hc hS hq).2 hp)

theorem distinct_claim {n : String} {c : Int} {L : List Signal} (h : DistinctSelectors (L.map (claim n c))) : DistinctSelectors L := by
  unfold DistinctSelectors at *
  rw [List.filter_map, List.map_map] at h
  have e : ((fun s : Signal => s.isMultiplexer) ∘ claim n c) = fun s => s.isMultiplexer := funext fun s => claim_isMultiplexer ..
  have e' : ((fun s : Signal => s.name) ∘ claim n c) = fun s => s.name := funext fun s => claim_name ..
  rwa [e, e'] at h

/-- Signals of the alternatives hang below the selector or below one of themselves. -/
def ClosedBelow (n : String) (A : List Signal) : Prop :=
  ∀ s ∈ A, ∀ m, s.multiplexerSignal = some m → m = n ∨ ∃ p ∈ A, p.name = m ∧ p.isMultiplexer = true

theorem closed_filter {L : List Signal} (hc : Closed L) {pos : Nat} (hm : ∀ s ∈ L, s.start = pos → s.isMultiplexer = false) :
    Closed (L.filter fun s => s.start != pos) := by
  intro s hs m hsm
  obtain ⟨p, hp, hpn, hpm⟩ := hc s (List.mem_filter.1 hs).1 m hsm
  refine ⟨p, List.mem_filter.2 ⟨hp, ?_⟩, hpn, hpm⟩
  have : p.start ≠ pos := fun e => by rw [hm p hp e] at hpm; cases hpm
  simpa using this

theorem closed_claim {L : List Signal} (hc : Closed L) (n : String) (c : Int) : ClosedBelow n (L.map (claim n c)) := by
  intro s hs m hsm
  obtain ⟨t, ht, rfl⟩ := List.mem_map.1 hs
  cases h : t.multiplexerSignal with
  | none => rw [claim_root h] at hsm; cases hsm; exact .inl rfl
  | some m' =>
    rw [claim_child h] at hsm
    obtain ⟨p, hp, hpn, hpm⟩ := hc t ht m hsm
    exact .inr ⟨_, List.mem_map_of_mem hp, (claim_name ..).trans hpn, (claim_isMultiplexer ..).trans hpm⟩

theorem claim_field (n : String) (c : Int) (s : Signal) :
    (claim n c s).start = s.start ∧ (claim n c s).length = s.length ∧ (claim n c s).byteOrder = s.byteOrder := by
  unfold claim; split <;> exact ⟨rfl, rfl, rfl⟩

theorem mux_of_bare {frame : String} {p : Pdu} {d : Nat} {L : List Signal} {pos : Nat}
    (e : L.map bareSignal = signalsIn frame (fun _ _ => true) p d)
    (h : ∀ s ∈ signalsIn frame (fun _ _ => true) p d, s.start = pos → s.isMultiplexer = false) :
    ∀ s ∈ L, s.start = pos → s.isMultiplexer = false := fun s hs hp =>
  h (bareSignal s) (e ▸ List.mem_map_of_mem hs) hp

/-- One alternative. -/
theorem presentOf_alternative {S L : List Signal} {sel : String → Option Int} {chosen : Signal → Int → Bool} {q : Signal}
    {code : Int} {pos : Nat} {R : List Signal} (hq : q ∈ S) (hqm : q.isMultiplexer = true) (hqp : Present S sel q)
    (hsub : ((L.filter fun s => s.start != pos).map (claim q.name code)).Sublist S) (hS : DistinctSelectors S)
    (hC : Chooses S sel chosen) (hc : Closed L) (hm : ∀ s ∈ L, s.start = pos → s.isMultiplexer = false)
    (ih : DistinctSelectors L → Chooses L sel chosen → presentOf L sel L = R) :
    presentOf S sel ((L.filter fun s => s.start != pos).map (claim q.name code)) =
      if chosen (selectorField q.start q.length q.byteOrder) code then R.filter (fun s => s.start != pos) else [] := by
  have hc' := closed_filter hc hm
  have hmem : ∀ s ∈ L.filter fun s => s.start != pos, claim q.name code s ∈ S := fun s hs => hsub.subset (List.mem_map_of_mem hs)
  have hcl : ∀ s ∈ L.filter fun s => s.start != pos, Present S sel (claim q.name code s) ↔
      Present S sel q ∧ sel q.name = some code ∧ Present (L.filter fun s => s.start != pos) sel s :=
    fun s hs => present_claim hmem hq hqm hc' hS hs
  have hdL' : DistinctSelectors (L.filter fun s => s.start != pos) := distinct_claim (hS.sublist hsub)
  have hdL : DistinctSelectors L := by
    unfold DistinctSelectors at *
    rwa [List.filter_filter, List.filter_congr (q := fun s => s.isMultiplexer)] at hdL'
    intro s hs
    by_cases e : s.start = pos
    · simp [hm s hs e]
    · simp [e]
  cases hch : chosen (selectorField q.start q.length q.byteOrder) code with
  | false =>
    rw [if_neg (by simp)]
    refine presentOf_none fun s hs hp => ?_
    obtain ⟨t, ht, rfl⟩ := List.mem_map.1 hs
    have := (hC q hq hqm hqp code).1 ((hcl t ht).1 hp).2.1
    rw [hch] at this
    cases this
  | true =>
    rw [if_pos rfl]
    have hsel := (hC q hq hqm hqp code).2 hch
    have hCL : Chooses L sel chosen := by
      intro r hr hrm hrp c
      have hr' : r ∈ L.filter fun s => s.start != pos := List.mem_filter.2 ⟨hr, by
        have : r.start ≠ pos := fun e => by rw [hm r hr e] at hrm; cases hrm
        simpa using this⟩
      have := hC _ (hmem r hr') ((claim_isMultiplexer ..).trans hrm) ((hcl r hr').2 ⟨hqp, hsel,
        (present_sub (List.filter_sublist.subset) hc' hdL hr').1 hrp⟩) c
      rwa [claim_name, (claim_field ..).1, (claim_field ..).2.1, (claim_field ..).2.2] at this
    rw [← ih hdL hCL]
    unfold presentOf
    rw [filter_bare (fun n => n != pos), List.filter_map, List.map_map, List.filter_filter, List.filter_filter]
    rw [show (bareSignal ∘ claim q.name code) = bareSignal from funext fun s => bare_claim ..]
    congr 1
    refine List.filter_congr fun s hs => ?_
    by_cases e : s.start = pos
    · simp [e]
    · have hs' : s ∈ L.filter fun s => s.start != pos := List.mem_filter.2 ⟨hs, by simpa using e⟩
      have e1 := hcl s hs'
      rw [← present_sub (List.filter_sublist.subset) hc' hdL hs'] at e1
      simp only [hqp, hsel, true_and] at e1
      rw [Bool.and_comm]
      exact congrArg (s.start != pos && ·) (decide_eq_decide.2 e1)

mutual
theorem loadPdu_present {frame : String} : ∀ (p : Pdu) {i j : Nat} {L : List Signal}, CleanPdu frame p i →
    loadPdu frame p i = .ok (j, L) → Closed L ∧ ∀ sel chosen, DistinctSelectors L → Chooses L sel chosen →
      presentOf L sel L = signalsIn frame chosen p i
  | .plain signals, i, j, L, hc, h => by
    cases h
    rw [CleanPdu] at hc
    refine ⟨fun s hs n hn => ?_, fun sel chosen _ _ => ?_⟩
    · rw [(hc s hs).2.1] at hn; cases hn
    · rw [signalsIn, presentOf_all fun s hs => .root s hs (hc s hs).2.1]
      exact (List.map_congr_left fun s hs => bare_of_plain (hc s hs)).trans (List.map_id _)
  | .secured p, i, j, L, hc, h => by
    rw [CleanPdu] at hc
    rw [loadPdu] at h
    obtain ⟨h1, h2⟩ := loadPdu_present p hc h
    refine ⟨h1, fun sel chosen hd hC => ?_⟩
    rw [signalsIn]
    exact h2 sel chosen hd hC
  | .multiplexed signals pos len order alts statics, i, j, L, hc, h => by
    rw [CleanPdu] at hc
    obtain ⟨h1, h2, h3⟩ := hc
    rw [loadPdu] at h
    obtain ⟨st, hst, h⟩ := bind_ok_iff.1 h
    obtain ⟨stat, hstat, h⟩ := bind_ok_iff.1 h
    cases h
    obtain ⟨k1, -, k4⟩ := loadAlts_contents alts (order := order) h2 rfl hst
    rw [k1] at hstat
    obtain ⟨A, a1, a2, a3⟩ := loadAlts_present alts (order := order) h2 rfl hst
    obtain ⟨B, b1, b2, b3⟩ := loadStatics_present statics h3 hstat
    rw [List.nil_append] at a1 b1
    rw [selectorSignal_eq, k4, a1, b1]
    rw [selectorSignal_eq] at a2 a3
    generalize hq : selectorAt frame i pos len order (selectorNames frame pos alts (i + 1) []) = q
    have hqn : (selectorAt frame i pos len order []).name = q.name := by rw [← hq]; rfl
    have hqm : q.isMultiplexer = true := by rw [← hq]; rfl
    have hqr : q.multiplexerSignal = none := by rw [← hq]; rfl
    have hqf : selectorField q.start q.length q.byteOrder = selectorField pos len order := by rw [← hq]; rfl
    have hqb : bareSignal q = q := by rw [← hq]; rfl
    rw [hqn] at a2 a3
    refine ⟨?_, fun sel chosen hd hC => ?_⟩
    · intro s hs n hn
      rcases List.mem_append.1 hs with hs | hs
      · rw [(h1 s hs).2.1] at hn; cases hn
      · rcases List.mem_cons.1 hs with rfl | hs
        · rw [hqr] at hn; cases hn
        · rcases List.mem_append.1 hs with hs | hs
          · rcases a2 s hs n hn with rfl | ⟨p, hp, hpn, hpm⟩
            · exact ⟨q, by simp, rfl, hqm⟩
            · exact ⟨p, by simp [hp], hpn, hpm⟩
          · obtain ⟨p, hp, hpn, hpm⟩ := b2 s hs n hn
            exact ⟨p, by simp [hp], hpn, hpm⟩
    · have hqS : q ∈ signals ++ q :: (A ++ B) := by simp
      have hqp : Present (signals ++ q :: (A ++ B)) sel q := .root q hqS hqr
      rw [presentOf_append, ← List.singleton_append, presentOf_append, presentOf_append, signalsIn, hq]
      rw [← List.singleton_append (l := A ++ B)] at *
      congr 1
      · rw [presentOf_all fun s hs => .root s (by simp [hs]) (h1 s hs).2.1]
        exact (List.map_congr_left fun s hs => bare_of_plain (h1 s hs)).trans (List.map_id _)
      · rw [presentOf_all (L := [q]) fun s hs => by rw [List.mem_singleton.1 hs]; exact hqp]
        rw [List.map_singleton, hqb, List.singleton_append]
        congr 2
        · exact a3 _ q sel chosen hqS rfl hqm hqp hqf
            (((List.sublist_append_left A B).trans (List.sublist_append_right [q] _)).trans (List.sublist_append_right signals _)) hd hC
        · have hBs : B.Sublist (signals ++ ([q] ++ (A ++ B))) :=
            ((List.sublist_append_right A B).trans (List.sublist_append_right [q] _)).trans (List.sublist_append_right signals _)
          rw [presentOf_sub hBs.subset b2 hd]
          exact b3 sel chosen (hd.sublist hBs) (hC.sub hBs.subset b2 hd)

theorem loadAlts_present {frame n : String} {pos len : Nat} {order : ByteOrder} : ∀ (alts : Alts) {d : Nat} {st st' : AltState},
    CleanAlts frame pos alts d → st.idx = d → loadAlts frame n pos len alts st = .ok st' →
    ∃ A, st'.signals = st.signals ++ A ∧ ClosedBelow n A ∧
      ∀ S q sel chosen, q ∈ S → q.name = n → q.isMultiplexer = true → Present S sel q →
        selectorField q.start q.length q.byteOrder = selectorField pos len order → A.Sublist S → DistinctSelectors S →
        Chooses S sel chosen → presentOf S sel A = alternativeSignals frame chosen (selectorField pos len order) alts d
  | .nil, d, st, st', _, hd, h => by
    cases h
    refine ⟨[], by simp, fun s hs => absurd hs List.not_mem_nil, fun S q sel chosen _ _ _ _ _ _ _ _ => ?_⟩
    rw [alternativeSignals]; rfl
  | .cons code init p rest, d, st, st', hc, hd, h => by
    rw [CleanAlts] at hc
    obtain ⟨h1, hm, h2⟩ := hc
    rw [loadAlts] at h
    obtain ⟨⟨j, L⟩, hL, h⟩ := bind_ok_iff.1 h
    obtain ⟨st1, hst1, h⟩ := bind_ok_iff.1 h
    rw [hd] at hL
    obtain ⟨rfl, k1⟩ := loadPdu_contents p h1 hL
    obtain ⟨c1, c2⟩ := loadPdu_present p h1 hL
    have hm' := mux_of_bare k1 hm
    obtain ⟨m1, m2, -⟩ := addAlternative_ok hst1
    obtain ⟨A, n2, n3, n4⟩ := loadAlts_present rest (order := order) h2 m1 h
    dsimp only at m2
    refine ⟨(L.filter fun s => s.start != pos).map (claim n code) ++ A, by rw [n2, m2, List.append_assoc], ?_, ?_⟩
    · intro s hs m hsm
      rcases List.mem_append.1 hs with hs | hs
      · rcases closed_claim (closed_filter c1 hm') n code s hs m hsm with e | ⟨p, hp, e⟩
        · exact .inl e
        · exact .inr ⟨p, List.mem_append_left _ hp, e⟩
      · rcases n3 s hs m hsm with e | ⟨p, hp, e⟩
        · exact .inl e
        · exact .inr ⟨p, List.mem_append_right _ hp, e⟩
    · intro S q sel chosen hq hqn hqm hqp hqf hsub hS hC
      subst hqn
      rw [presentOf_append, alternativeSignals, n4 S q sel chosen hq rfl hqm hqp hqf
        ((List.sublist_append_right _ A).trans hsub) hS hC,
        presentOf_alternative hq hqm hqp ((List.sublist_append_left _ A).trans hsub) hS hC c1 hm' (c2 sel chosen), hqf]
      rfl

theorem loadStatics_present {frame : String} : ∀ (statics : Pdus) {d : Nat} {acc L : List Signal},
    CleanPdus frame statics d → loadStatics frame statics d acc = .ok L →
    ∃ B, L = acc ++ B ∧ Closed B ∧ ∀ sel chosen, DistinctSelectors B → Chooses B sel chosen →
      presentOf B sel B = staticSignals frame chosen statics d
  | .nil, d, acc, L, _, h => by
    cases h
    exact ⟨[], by simp, fun s hs => absurd hs List.not_mem_nil, fun sel chosen _ _ => by rw [staticSignals]; rfl⟩
  | .cons p rest, d, acc, L, hc, h => by
    rw [CleanPdus] at hc
    rw [loadStatics] at h
    obtain ⟨⟨j, L1⟩, hL, h'⟩ := bind_ok_iff.1 h
    obtain ⟨rfl, k1⟩ := loadPdu_contents p hc.1 hL
    obtain ⟨c1, c2⟩ := loadPdu_present p hc.1 hL
    obtain ⟨B, k2, k3, k4⟩ := loadStatics_present rest (acc := acc ++ L1) (L := L) hc.2 h'
    refine ⟨L1 ++ B, by rw [k2, List.append_assoc], ?_, fun sel chosen hd hC => ?_⟩
    · intro s hs n hn
      rcases List.mem_append.1 hs with hs | hs
      · obtain ⟨p, hp, e⟩ := c1 s hs n hn
        exact ⟨p, List.mem_append_left _ hp, e⟩
      · obtain ⟨p, hp, e⟩ := k3 s hs n hn
        exact ⟨p, List.mem_append_right _ hp, e⟩
    · have s1 : L1.Sublist (L1 ++ B) := List.sublist_append_left ..
      have s2 : B.Sublist (L1 ++ B) := List.sublist_append_right ..
      rw [presentOf_append, staticSignals, presentOf_sub s1.subset c1 hd, presentOf_sub s2.subset k3 hd,
        c2 sel chosen (hd.sublist s1) (hC.sub s1.subset c1 hd), k4 sel chosen (hd.sublist s2) (hC.sub s2.subset k3 hd)]
end

/-- A signal of a tree is one that was read from its element, or the selector of a multiplexed PDU. -/
def TreeSignal (frame : String) (s : Signal) : Prop :=
  PlainSignal s ∨ ∃ depth pos len order names, s = selectorAt frame depth pos len order names

mutual
theorem signalsIn_kind {frame : String} {chosen : Signal → Int → Bool} : ∀ (p : Pdu) {d : Nat}, CleanPdu frame p d →
    ∀ s ∈ signalsIn frame chosen p d, TreeSignal frame s
  | .plain signals, d, hc, s, hs => by
    rw [CleanPdu] at hc
    rw [signalsIn] at hs
    exact .inl (hc s hs)
  | .secured p, d, hc, s, hs => by
    rw [CleanPdu] at hc
    rw [signalsIn] at hs
    exact signalsIn_kind p hc s hs
  | .multiplexed signals pos len order alts statics, d, hc, s, hs => by
    rw [CleanPdu] at hc
    rw [signalsIn] at hs
    rcases List.mem_append.1 hs with hs | hs
    · exact .inl (hc.1 s hs)
    · rcases List.mem_cons.1 hs with rfl | hs
      · exact .inr ⟨_, _, _, _, _, rfl⟩
      · rcases List.mem_append.1 hs with hs | hs
        · exact alternativeSignals_kind alts hc.2.1 s hs
        · exact staticSignals_kind statics hc.2.2 s hs

theorem alternativeSignals_kind {frame : String} {chosen : Signal → Int → Bool} {pos : Nat} {field : Signal} :
    ∀ (alts : Alts) {d : Nat}, CleanAlts frame pos alts d → ∀ s ∈ alternativeSignals frame chosen field alts d, TreeSignal frame s
  | .nil, d, _, s, hs => by rw [alternativeSignals] at hs; cases hs
  | .cons code init p rest, d, hc, s, hs => by
    rw [CleanAlts] at hc
    rw [alternativeSignals] at hs
    rcases List.mem_append.1 hs with hs | hs
    · split at hs
      · exact signalsIn_kind p hc.1 s (List.mem_filter.1 hs).1
      · cases hs
    · exact alternativeSignals_kind rest hc.2.2 s hs

theorem staticSignals_kind {frame : String} {chosen : Signal → Int → Bool} : ∀ (l : Pdus) {d : Nat}, CleanPdus frame l d →
    ∀ s ∈ staticSignals frame chosen l d, TreeSignal frame s
  | .nil, d, _, s, hs => by rw [staticSignals] at hs; cases hs
  | .cons p rest, d, hc, s, hs => by
    rw [CleanPdus] at hc
    rw [staticSignals] at hs
    rcases List.mem_append.1 hs with hs | hs
    · exact signalsIn_kind p hc.1 s hs
    · exact staticSignals_kind rest hc.2 s hs
end

theorem TreeSignal.built {frame : String} {s : Signal} (h : TreeSignal frame s) : Built s.conversion := by
  rcases h with h | ⟨_, _, _, _, _, rfl⟩
  · exact h.2.2.2.1
  · exact ⟨_, _, _, _, rfl⟩

theorem selectorAt_float (frame : String) (d pos len : Nat) (order : ByteOrder) (names : Choices) :
    (selectorAt frame d pos len order names).conversion.isFloat = false := by
  cases names <;> rfl

theorem selectorAt_scale (frame : String) (d pos len : Nat) (order : ByteOrder) (names : Choices) :
    (selectorAt frame d pos len order names).conversion.scale = 1 ∧
      (selectorAt frame d pos len order names).conversion.offset = 0 := by
  cases names <;> exact ⟨rfl, rfl⟩

theorem TreeSignal.float {frame : String} {s : Signal} (h : TreeSignal frame s) :
    s.conversion.isFloat = true → s.conversion.choices = none := by
  rcases h with h | ⟨_, _, _, _, _, rfl⟩
  · exact h.2.2.2.2
  · rw [selectorAt_float]; nofun

/-- A selector reads its field. -/
theorem TreeSignal.selector {frame : String} {s : Signal} (h : TreeSignal frame (bareSignal s)) (hm : s.isMultiplexer = true) :
    s.conversion.isFloat = false ∧ s.conversion.scale = 1 ∧ s.conversion.offset = 0 ∧ ∀ data i, ReadsAs s data i ↔
      ReadsAs (selectorField s.start s.length s.byteOrder) data i := by
  rcases h with h | ⟨d, pos, len, order, names, e⟩
  · have := h.1.symm.trans hm; cases this
  · have e1 : (bareSignal s).conversion = (selectorAt frame d pos len order names).conversion := by rw [e]
    have e2 : (bareSignal s).isSigned = false := by rw [e]; rfl
    change s.conversion = _ at e1
    change s.isSigned = _ at e2
    rw [e1]
    refine ⟨selectorAt_float .., (selectorAt_scale ..).1, (selectorAt_scale ..).2, fun data i => ?_⟩
    cases s
    dsimp only at e2
    subst e2
    exact Iff.rfl

/-! ### Secured frames -/

theorem trailer_plain {name : String} {t : Option Trailer} : ∀ s ∈ trailerIn name t, PlainSignal s := by
  intro s hs
  cases t with
  | none => cases hs
  | some t =>
    have h := (List.mem_filter.1 hs).1
    simp only [List.mem_cons, List.not_mem_nil, or_false] at h
    rcases h with rfl | rfl <;> exact ⟨rfl, rfl, rfl, ⟨1, 0, none, false, rfl⟩, fun h => by cases h⟩

/-- The added signals are those of the trailer. -/
theorem trailerSignals_ok {name : String} {t : Option Trailer} {l : List Signal} (h : trailerSignals name t = .ok l) :
    l = trailerIn name t := by
  cases t with
  | none => exact (Except.ok.inj h).symm
  | some t =>
    obtain ⟨auth, h1, h2⟩ := bind_ok_iff.1 h
    obtain rfl := Except.ok.inj h2
    obtain ⟨p, f, a⟩ := t
    have hf : freshnessSignal name ⟨p, f, a⟩ =
        [wireField (name ++ "_Freshness") (8 * p) (f.getD 0)].filter fun s => 0 < s.length := by
      unfold freshnessSignal wireField
      cases f with
      | none => rfl
      | some f =>
        by_cases hf : 0 < f
        · simp only [if_pos hf, Option.getD_some, List.filter_cons, decide_eq_true hf, if_true, List.filter_nil]
          congr 2
          omega
        · obtain rfl : f = 0 := by omega
          rfl
    have ha : auth =
        [wireField (name ++ "_Authenticator") (8 * p + f.getD 0) (a.getD 0)].filter fun s => 0 < s.length := by
      unfold authSignal at h1
      dsimp only at h1
      cases a with
      | none => exact (Except.ok.inj h1).symm
      | some a =>
        by_cases ha : 0 < a
        · dsimp only at h1
          rw [if_pos ha] at h1
          cases f with
          | none => cases h1
          | some f =>
            obtain rfl := Except.ok.inj h1
            unfold wireField
            simp only [Option.getD_some, List.filter_cons, decide_eq_true ha, if_true, List.filter_nil]
            congr 2
            omega
        · dsimp only at h1
          rw [if_neg ha] at h1
          obtain rfl := Except.ok.inj h1
          obtain rfl : a = 0 := by omega
          rfl
    rw [hf, ha, ← List.filter_append]
    rfl

end Cantools.Arxml
