import Verif.Lemmas.Cdd
import Verif.Lemmas.ArxmlRef
import Verif.Model.EcuExtract
import Verif.Spec.EcuExtract

/-!
Lemmas about ECU extracts.
-/

namespace Cantools.Extract

open Kcd (Xml readInt)
open ArxmlRef (splitSlash)
open Spec Spec.Extract
open Cdd (bind_of_ok findAll_kids find_kids readInt_decimal)

/-! ### Ways -/

theorem step_none (x : Xml) (t : String) : step x t none = kids x t := by
  unfold step kids
  apply List.filter_congr
  intro c _
  simp [beq_eq_decide]

theorem hasName_iff (x : Xml) (n : String) : hasName x n = true ↔ Named x n := by
  unfold hasName Named
  rw [findAll_kids]
  simp

theorem step_some (x : Xml) (t n : String) : step x t (some n) = (kids x t).filter (Named · n) := by
  unfold step kids
  rw [List.filter_filter]
  apply List.filter_congr
  intro c _
  have := hasName_iff c n
  by_cases h : Named c n
  · simp [h, this.2 h, beq_eq_decide]
  · have h' : hasName c n = false := by
      cases e : hasName c n with
      | false => rfl
      | true => exact absurd (this.1 e) h
    simp [h, h']

theorem findSteps_way {x y : Xml} {s : List (String × Option String)} (h : Way x s y) : findSteps x s = [y] := by
  induction h with
  | here => rfl
  | tag h _ ih => simp [findSteps, step_none, h, ih]
  | name h _ ih => simp [findSteps, step_some, h, ih]

theorem findSteps_append (x : Xml) (s r : List (String × Option String)) :
    findSteps x (s ++ r) = (findSteps x s).flatMap fun c => findSteps c r := by
  induction s generalizing x with
  | nil => simp [findSteps]
  | cons a s ih => obtain ⟨t, n⟩ := a; simp [findSteps, ih, List.flatMap_assoc]

theorem findSteps_one (x : Xml) (t : String) : findSteps x [(t, none)] = kids x t := by
  simp [findSteps, step_none]

/-! ### Texts -/

theorem textAt_of {x d : Xml} {tag t : String} (h : kids x tag = [d]) (ht : d.text = some t) :
    textAt x tag = .ok t := by
  simp [textAt, find_kids, h, ht]

theorem textAt?_of {x d : Xml} {tag : String} (h : kids x tag = [d]) : textAt? x tag = .ok d.text := by
  simp [textAt?, find_kids, h]

theorem entriesOf_of {x d : Xml} {tag : String} (h : kids x tag = [d]) : entriesOf x tag = .ok d.children := by
  simp [entriesOf, find_kids, h]

theorem splitSlash_ne (t : Chars) : splitSlash t ≠ [] := by
  cases t with
  | nil => simp [splitSlash]
  | cons c r => unfold splitSlash; split <;> [simp; (split <;> simp)]

theorem splitSlash_plain {w : Chars} (h : '/' ∉ w) : splitSlash w = [w] := by
  have := ArxmlRef.splitSlash_word h []
  simpa [splitSlash] using this

theorem splitSlash_last {w : Chars} (h : '/' ∉ w) (p : Chars) :
    (splitSlash (p ++ '/' :: w)).getLast? = some w := by
  induction p with
  | nil => simp [splitSlash, splitSlash_plain h]
  | cons c p ih =>
    rw [List.cons_append, splitSlash]
    split
    · rw [List.getLast?_cons, ih]; rfl
    · split
      · rename_i e; exact absurd e (splitSlash_ne _)
      · rename_i a t e
        rw [e] at ih
        cases t with
        | nil =>
          -- a text with a slash has at least two parts
          exfalso
          clear ih
          have : ∀ q : Chars, 2 ≤ (splitSlash (q ++ '/' :: w)).length := by
            intro q
            induction q with
            | nil => simp [splitSlash, splitSlash_plain h]
            | cons c q ih =>
              rw [List.cons_append, splitSlash]
              split
              · simp; omega
              · split
                · rename_i e; exact absurd e (splitSlash_ne _)
                · rename_i e; rw [e] at ih; simpa using ih
          have := this p
          rw [e] at this
          simp at this
        | cons b t => rw [List.getLast?_cons_cons] at ih ⊢; exact ih

theorem lastOf_of {t n : String} (h : EndsIn t n) : lastOf t = n := by
  obtain ⟨hn, p, hp⟩ := h
  unfold lastOf
  rw [hp, splitSlash_last hn]
  exact String.ofList_toList

theorem endsWith_iff {t d n : String} (h : EndsIn t d) (hn : '/' ∉ n.toList) :
    endsWith t n = true ↔ n.toList <:+ d.toList := by
  obtain ⟨-, p, hp⟩ := h
  unfold endsWith
  rw [List.isSuffixOf_iff_suffix, hp]
  constructor
  · intro h
    have h2 : '/' :: d.toList <:+ p ++ '/' :: d.toList := ⟨p, rfl⟩
    rcases List.suffix_or_suffix_of_suffix h h2 with h3 | h3
    · rcases List.suffix_cons_iff.1 h3 with h4 | h4
      · exact absurd (h4 ▸ List.mem_cons_self) hn
      · exact h4
    · exact absurd (h3.subset List.mem_cons_self) hn
  · rintro ⟨q, hq⟩
    exact ⟨p ++ '/' :: q, by rw [← hq]; simp⟩

theorem endsWith_distinct {t d n : String} {names defs : List String} (h : EndsIn t d) (hn : '/' ∉ n.toList)
    (hd : Distinct names defs) (hm : n ∈ names) (hdm : d ∈ defs) : endsWith t n = true ↔ d = n := by
  rw [endsWith_iff h hn]
  exact ⟨hd n hm d hdm, fun e => e ▸ List.suffix_rfl⟩

theorem packageOf_path {t p : String} {ps : List String} (h : t.toList = pathText (p :: ps))
    (hp : ∀ q ∈ p :: ps, '/' ∉ q.toList) : packageOf t = .ok p := by
  unfold packageOf
  rw [h, ArxmlRef.splitSlash_path hp]
  simp

theorem lastOf_path {t n : String} {ps : List String} (h : t.toList = pathText (ps ++ [n]))
    (hn : '/' ∉ n.toList) : lastOf t = n := by
  refine lastOf_of ⟨hn, pathText ps, ?_⟩
  rw [h]
  simp [pathText]

/-! ### Entries -/

theorem entry_of {tag : String} {x : Xml} {e : String × String} (h : EntrySays tag x e) :
    entry tag x = .ok (e.1, some e.2) := by
  obtain ⟨⟨d, t, hd, ht, he⟩, k, hk, hv⟩ := h
  unfold entry
  rw [bind_of_ok (textAt_of hd ht), bind_of_ok (textAt?_of hk), lastOf_of he, hv]
  rfl

theorem firstOf_of {tag name v : String} {xs : List Xml} {l : List (String × String)}
    (h : List.Forall₂ (EntrySays tag) xs l) (hv : ValueOf l name v) : firstOf tag name xs = .ok (some v) := by
  unfold ValueOf at hv
  induction h with
  | nil => simp at hv
  | @cons x e xs l hx _ ih =>
    unfold firstOf
    rw [bind_of_ok (entry_of hx)]
    dsimp only
    by_cases he : e.1 = name
    · rw [if_pos he]
      rw [List.filter_cons_of_pos (by simpa using he)] at hv
      have := (List.cons.inj hv).1
      rw [this]
      rfl
    · rw [if_neg he]
      rw [List.filter_cons_of_neg (by simpa using he)] at hv
      exact ih hv

theorem valueOf_mem {l : List (String × String)} {n v : String} (h : ValueOf l n v) : n ∈ l.map (·.1) := by
  have : (n, v) ∈ l.filter fun e => e.1 = n := by rw [h]; simp
  exact List.mem_map_of_mem (List.mem_of_mem_filter this)

theorem valueOf_eq {l : List (String × String)} {n v w : String} (h : ValueOf l n v) (hw : (n, w) ∈ l) : w = v := by
  have : (n, w) ∈ l.filter fun e => e.1 = n := List.mem_filter.2 ⟨hw, by simp⟩
  rw [h] at this
  simpa using this

theorem if_other {α : Type} {n v a : String} {l : List (String × String)} (h : a ≠ n) (c : Prop) [Decidable c] (x y : α) :
    (if a ∈ ((n, v) :: l).map (·.1) ∧ c then x else y) = if a ∈ l.map (·.1) ∧ c then x else y :=
  if_congr (by rw [List.map_cons, List.mem_cons, or_iff_right h]) rfl rfl

theorem if_other' {α : Type} {n v a : String} {l : List (String × String)} (h : a ≠ n) (x y : α) :
    (if a ∈ ((n, v) :: l).map (·.1) then x else y) = if a ∈ l.map (·.1) then x else y :=
  if_congr (by rw [List.map_cons, List.mem_cons, or_iff_right h]) rfl rfl

theorem if_this {α : Type} {n v : String} {l : List (String × String)} (x y : α) :
    (if n ∈ ((n, v) :: l).map (·.1) then x else y) = x := if_pos (by simp)

theorem if_this' {α : Type} {n v : String} {l : List (String × String)} (c : Prop) [Decidable c] (x y : α) :
    (if n ∈ ((n, v) :: l).map (·.1) ∧ c then x else y) = if c then x else y :=
  if_congr (by simp) rfl rfl

/-! ### Signals -/

theorem signal_fold {pos size order type : String} {start len : Nat} (hp : DecimalText pos start)
    (hs : DecimalText size len) {xs : List Xml} {l : List (String × String)}
    (h : List.Forall₂ (EntrySays "VALUE") xs l) (f : Found)
    (h1 : ∀ v, ("ComBitPosition", v) ∈ l → v = pos) (h2 : ∀ v, ("ComBitSize", v) ∈ l → v = size)
    (h3 : ∀ v, ("ComSignalEndianness", v) ∈ l → v = order) (h4 : ∀ v, ("ComSignalType", v) ∈ l → v = type) :
    xs.foldlM signalStep f = .ok
      { position := if "ComBitPosition" ∈ l.map (·.1) then some start else f.position
        size := if "ComBitSize" ∈ l.map (·.1) then some len else f.size
        order := if "ComSignalEndianness" ∈ l.map (·.1) then some order.toLower else f.order
        isSigned := if "ComSignalType" ∈ l.map (·.1) ∧ type ∈ ["SINT8", "SINT16", "SINT32"] then true else f.isSigned
        isFloat := if "ComSignalType" ∈ l.map (·.1) ∧ type ∈ ["FLOAT32", "FLOAT64"] then true else f.isFloat } := by
  induction h generalizing f with
  | nil => simp [pure, Except.pure]
  | @cons x e xs l hx _ ih =>
    replace ih := fun g => ih g (fun v hv => h1 v (List.mem_cons_of_mem _ hv)) (fun v hv => h2 v (List.mem_cons_of_mem _ hv))
      (fun v hv => h3 v (List.mem_cons_of_mem _ hv)) (fun v hv => h4 v (List.mem_cons_of_mem _ hv))
    obtain ⟨n, v⟩ := e
    rw [List.foldlM_cons]
    have hstep : ∀ g, signalStep f x = .ok g → (signalStep f x >>= fun s' => xs.foldlM signalStep s') = xs.foldlM signalStep g :=
      fun g hg => bind_of_ok hg
    have he := entry_of hx
    by_cases e1 : n = "ComBitPosition"
    · subst e1
      have hv := h1 v (by simp)
      subst hv
      rw [hstep { f with position := some start }, ih]
      · simp (decide := true) only [if_this, if_other', if_other, ne_eq, not_false_eq_true, ite_self]
      · unfold signalStep
        rw [bind_of_ok he]
        dsimp only
        rw [if_pos rfl]
        rw [show intOf (some v) = readInt v from rfl, bind_of_ok (readInt_decimal hp)]
        rfl
    · by_cases e2 : n = "ComBitSize"
      · subst e2
        have hv := h2 v (by simp)
        subst hv
        rw [hstep { f with size := some len }, ih]
        · simp (decide := true) only [if_this, if_other', if_other, ne_eq, not_false_eq_true, ite_self]
        · unfold signalStep
          rw [bind_of_ok he]
          dsimp only
          rw [if_neg e1, if_pos rfl]
          rw [show intOf (some v) = readInt v from rfl, bind_of_ok (readInt_decimal hs)]
          rfl
      · by_cases e3 : n = "ComSignalEndianness"
        · subst e3
          have hv := h3 v (by simp)
          subst hv
          rw [hstep { f with order := some v.toLower }, ih]
          · simp (decide := true) only [if_this, if_other', if_other, ne_eq, not_false_eq_true, ite_self]
          · unfold signalStep
            rw [bind_of_ok he]
            dsimp only
            rw [if_neg e1, if_neg e2, if_pos rfl]
            rfl
        · by_cases e4 : n = "ComSignalType"
          · subst e4
            have hv := h4 v (by simp)
            subst hv
            by_cases hi : v ∈ ["SINT8", "SINT16", "SINT32"]
            · have hf : v ∉ ["FLOAT32", "FLOAT64"] := by
                intro hf
                simp only [List.mem_cons, List.not_mem_nil, or_false] at hi hf
                rcases hi with rfl | rfl | rfl <;> revert hf <;> decide
              rw [hstep { f with isSigned := true }, ih]
              · simp (decide := true) only [if_this', if_other', if_this, if_pos hi, if_neg hf, and_iff_left hi, iff_false_intro hf, and_false, ite_self, if_false, if_true, ne_eq, not_false_eq_true]
              · unfold signalStep
                rw [bind_of_ok he]
                dsimp only
                rw [if_neg e1, if_neg e2, if_neg e3, if_pos rfl, if_pos (by simpa using hi)]
                rfl
            · by_cases hf : v ∈ ["FLOAT32", "FLOAT64"]
              · rw [hstep { f with isFloat := true }, ih]
                · simp (decide := true) only [if_this', if_other', if_pos hf, if_neg hi, iff_false_intro hi, and_false, ite_self, if_false, if_true, ne_eq, not_false_eq_true]
                · unfold signalStep
                  rw [bind_of_ok he]
                  dsimp only
                  rw [if_neg e1, if_neg e2, if_neg e3, if_pos rfl, if_neg (by simpa using hi), if_pos (by simpa using hf)]
                  rfl
              · rw [hstep f, ih]
                · simp (decide := true) only [if_this', if_other', if_other, hi, hf, ne_eq, not_false_eq_true, ite_self, if_true, if_false, and_true, and_false]
                · unfold signalStep
                  rw [bind_of_ok he]
                  dsimp only
                  rw [if_neg e1, if_neg e2, if_neg e3, if_pos rfl, if_neg (by simpa using hi), if_neg (by simpa using hf)]
                  rfl
          · rw [hstep f, ih]
            · simp only [if_other' (Ne.symm e1), if_other' (Ne.symm e2), if_other' (Ne.symm e3), if_other (Ne.symm e4)]
            · unfold signalStep
              rw [bind_of_ok he]
              dsimp only
              rw [if_neg e1, if_neg e2, if_neg e3, if_neg e4]
              rfl

theorem factory_identity (b : Bool) : Conversion.factory 1 0 none b = .base (.identity b) := by
  cases b <;> decide +kernel

theorem moduleSteps_com (p : String) : moduleSteps [p] "Com" "ComConfig" = comSteps p := rfl

theorem moduleSteps_canIf (q : String) :
    moduleSteps [q] "CanIf" "CanIfInitCfg" ++ [("ECUC-CONTAINER-VALUE", none)] = canIfSteps q := rfl

theorem loadSignal_of {root : Xml} {p ref : String} {s : SignalContent} (h : SignalAt root [p] ref s)
    (h64 : s.type ≠ "SINT64") : loadSignal root ref = .ok (some (fieldOf s)) := by
  obtain ⟨c, ⟨hns, href, hway⟩, ⟨k, hk, hkt⟩, l, pos, size, ⟨w, hw, hl⟩, v1, d1, v2, d2, v3, v4, htype⟩ := h
  have hfv : findValue root ref = .ok (some c) := by
    unfold findValue
    rw [bind_of_ok (packageOf_path (p := p) (ps := ["Com", "ComConfig", s.name]) (by simpa using href) (by
      intro q hq
      simp only [List.mem_cons, List.not_mem_nil, or_false] at hq
      rcases hq with rfl | rfl | rfl | rfl
      · exact hns _ (by simp)
      · decide
      · decide
      · exact hns _ (by simp)))]
    rw [lastOf_path (ps := [p, "Com", "ComConfig"]) (n := s.name) (by simpa using href) (hns _ (by simp))]
    rw [← moduleSteps_com, findSteps_way hway]
    rfl
  unfold loadSignal
  rw [bind_of_ok hfv]
  dsimp only
  rw [bind_of_ok (textAt?_of hk), bind_of_ok (entriesOf_of hw),
    bind_of_ok (signal_fold d1 d2 hl {} (fun v hv => valueOf_eq v1 hv) (fun v hv => valueOf_eq v2 hv)
      (fun v hv => valueOf_eq v3 hv) (fun v hv => valueOf_eq v4 hv))]
  rw [if_pos (valueOf_mem v1), if_pos (valueOf_mem v2), if_pos (valueOf_mem v3), hkt]
  have hm := valueOf_mem v4
  have hsg : (if "ComSignalType" ∈ l.map (·.1) ∧ s.type ∈ ["SINT8", "SINT16", "SINT32"] then true else false) = s.signed := by
    unfold SignalContent.signed
    simp [hm, h64]
  have hfl : (if "ComSignalType" ∈ l.map (·.1) ∧ s.type ∈ ["FLOAT32", "FLOAT64"] then true else false) = s.float := by
    unfold SignalContent.float
    simp [hm]
  dsimp only
  rw [hsg, hfl]
  unfold Found.signal fieldOf
  rw [← factory_identity]
  cases hb : s.big with
  | true => simp [show "BIG_ENDIAN".toLower = "big_endian" by decide +kernel, pure, Except.pure]
  | false => simp [show "LITTLE_ENDIAN".toLower = "little_endian" by decide +kernel, pure, Except.pure]

theorem loadSignals_of {root : Xml} {p : String} {xs : List Xml} {rs : List (String × String)} {ss : List SignalContent}
    (h : List.Forall₂ (EntrySays "VALUE-REF") xs rs) (hd : Distinct ["ComIPduSignalRef"] (rs.map (·.1)))
    (hs : List.Forall₂ (SignalAt root [p]) ((rs.filter fun e => e.1 = "ComIPduSignalRef").map (·.2)) ss)
    (h64 : ∀ s ∈ ss, s.type ≠ "SINT64") : loadSignals root xs = .ok (ss.map fieldOf) := by
  induction h generalizing ss with
  | nil => cases hs; rfl
  | @cons x e xs rs hx _ ih =>
    obtain ⟨⟨d, t, hdr, ht, hend⟩, k, hk, hv⟩ := hx
    have hd' : Distinct ["ComIPduSignalRef"] (rs.map (·.1)) := fun n hn d hd1 => hd n hn d (List.mem_cons_of_mem _ hd1)
    have hiff := endsWith_distinct (n := "ComIPduSignalRef") hend (by decide) hd (by simp) (by simp)
    unfold loadSignals
    rw [bind_of_ok (textAt_of hdr ht)]
    by_cases he : e.1 = "ComIPduSignalRef"
    · rw [if_pos (hiff.2 he)]
      rw [List.filter_cons_of_pos (by simpa using he), List.map_cons] at hs
      cases hs with
      | cons hs1 hs2 =>
        rw [bind_of_ok (textAt_of hk hv), bind_of_ok (loadSignal_of hs1 (h64 _ (by simp))),
          bind_of_ok (ih hd' hs2 fun s hs => h64 s (List.mem_cons_of_mem _ hs))]
        rfl
    · rw [if_neg (fun h => he (hiff.1 h))]
      rw [List.filter_cons_of_neg (by simpa using he)] at hs
      exact ih hd' hs h64

/-! ### Headers -/

theorem header_fold {id dlc type idv lenv ty : String} {fid len : Nat} (hi : DecimalText idv fid)
    (hl : DecimalText lenv len) (n1 : id ≠ dlc) (n2 : id ≠ type) (n3 : dlc ≠ type)
    {xs : List Xml} {l : List (String × String)} (h : List.Forall₂ (EntrySays "VALUE") xs l) (f : Header)
    (h1 : ∀ v, (id, v) ∈ l → v = idv) (h2 : ∀ v, (dlc, v) ∈ l → v = lenv) (h3 : ∀ v, (type, v) ∈ l → v = ty) :
    xs.foldlM (headerStep id dlc type) f = .ok
      { frameId := if id ∈ l.map (·.1) then some (fid : Int) else f.frameId
        length := if dlc ∈ l.map (·.1) then some len else f.length
        isExtended := if type ∈ l.map (·.1) then some (ty == "EXTENDED_CAN") else f.isExtended } := by
  induction h generalizing f with
  | nil => simp [pure, Except.pure]
  | @cons x e xs l hx _ ih =>
    replace ih := fun g => ih g (fun v hv => h1 v (List.mem_cons_of_mem _ hv)) (fun v hv => h2 v (List.mem_cons_of_mem _ hv))
      (fun v hv => h3 v (List.mem_cons_of_mem _ hv))
    obtain ⟨n, v⟩ := e
    rw [List.foldlM_cons]
    have hstep : ∀ g, headerStep id dlc type f x = .ok g →
        (headerStep id dlc type f x >>= fun s' => xs.foldlM (headerStep id dlc type) s') = xs.foldlM (headerStep id dlc type) g :=
      fun g hg => bind_of_ok hg
    have he := entry_of hx
    by_cases e1 : n = id
    · subst e1
      have hv := h1 v (by simp)
      subst hv
      rw [hstep { f with frameId := some (fid : Int) }, ih]
      · simp only [if_this, if_other' n1.symm, if_other' n2.symm, ite_self]
      · unfold headerStep
        rw [bind_of_ok he]
        dsimp only
        rw [if_pos rfl, show intOf (some v) = readInt v from rfl, bind_of_ok (readInt_decimal hi)]
        rfl
    · by_cases e2 : n = dlc
      · subst e2
        have hv := h2 v (by simp)
        subst hv
        rw [hstep { f with length := some len }, ih]
        · simp only [if_this, if_other' n1, if_other' n3.symm, ite_self]
        · unfold headerStep
          rw [bind_of_ok he]
          dsimp only
          rw [if_neg e1, if_pos rfl, show intOf (some v) = readInt v from rfl, bind_of_ok (readInt_decimal hl)]
          rfl
      · by_cases e3 : n = type
        · subst e3
          have hv := h3 v (by simp)
          subst hv
          rw [hstep { f with isExtended := some (v == "EXTENDED_CAN") }, ih]
          · simp only [if_this, if_other' n2, if_other' n3, ite_self]
          · unfold headerStep
            rw [bind_of_ok he]
            dsimp only
            rw [if_neg e1, if_neg e2, if_pos rfl]
            rfl
        · rw [hstep f, ih]
          · simp only [if_other' (Ne.symm e1), if_other' (Ne.symm e2), if_other' (Ne.symm e3)]
          · unfold headerStep
            rw [bind_of_ok he]
            dsimp only
            rw [if_neg e1, if_neg e2, if_neg e3]
            rfl

theorem hasReference_of {name ref : String} {xs : List Xml} {l : List (String × String)}
    (h : List.Forall₂ (EntrySays "VALUE-REF") xs l) :
    hasReference name ref xs = .ok (decide ((name, ref) ∈ l)) := by
  induction h with
  | nil => rfl
  | @cons x e xs l hx _ ih =>
    obtain ⟨n, v⟩ := e
    unfold hasReference
    rw [bind_of_ok (entry_of hx)]
    dsimp only
    by_cases hc : n = name ∧ v = ref
    · obtain ⟨rfl, rfl⟩ := hc
      simp [pure, Except.pure]
    · rw [if_neg (by simpa using hc), ih]
      congr 1
      have : (name, ref) ≠ (n, v) := by
        intro h
        rw [Prod.mk.injEq] at h
        exact hc ⟨h.1.symm, h.2.symm⟩
      simp [this]

theorem defined_unique {x : Xml} {a b : String} (ha : Defined x a) (hb : Defined x b) : a = b := by
  obtain ⟨d, t, h1, h2, h3⟩ := ha
  obtain ⟨d', t', h1', h2', h3'⟩ := hb
  rw [h1] at h1'
  cases h1'
  rw [h2] at h2'
  cases h2'
  rw [← lastOf_of h3, ← lastOf_of h3']

theorem entries_unique {tag : String} {xs : List Xml} {l l' : List (String × String)}
    (h : List.Forall₂ (EntrySays tag) xs l) (h' : List.Forall₂ (EntrySays tag) xs l') : l = l' := by
  induction h generalizing l' with
  | nil => cases h'; rfl
  | cons hx _ ih =>
    cases h' with
    | cons hx' h2 =>
      have e := (entry_of hx).symm.trans (entry_of hx')
      injection e with e
      rw [Prod.mk.injEq] at e
      rw [ih h2, Prod.ext e.1 (Option.some.inj e.2)]

theorem references_unique {x : Xml} {l l' : List (String × String)} (h : References x l) (h' : References x l') : l = l' := by
  obtain ⟨w, hw, -, hl⟩ := h
  obtain ⟨w', hw', -, hl'⟩ := h'
  rw [hw] at hw'
  cases hw'
  exact entries_unique hl hl'

theorem searchCanIf_of {ref : String} {x : Xml} {xs : List Xml} {defs : List String}
    (hd : List.Forall₂ Defined xs defs) (hdis : Distinct ["CanIfTxPduCfg", "CanIfRxPduCfg"] defs)
    (hrefs : ∀ c ∈ xs, Defined c "CanIfTxPduCfg" ∨ Defined c "CanIfRxPduCfg" → ∃ l, References c l)
    (hx : x ∈ xs) (hc : Configures "CanIfTxPdu" x ref ∨ Configures "CanIfRxPdu" x ref)
    (hu : ∀ c ∈ xs, Configures "CanIfTxPdu" c ref ∨ Configures "CanIfRxPdu" c ref → c = x) :
    searchCanIf ref xs = .ok (some x) := by
  induction hd with
  | nil => cases hx
  | @cons y d xs defs hy _ ih =>
    have hy' := hy
    obtain ⟨k, t, hk, ht, he⟩ := hy'
    have e1 := endsWith_distinct (n := "CanIfTxPduCfg") he (by decide) hdis (by simp) (by simp)
    have e2 := endsWith_distinct (n := "CanIfRxPduCfg") he (by decide) hdis (by simp) (by simp)
    have hrec : x ≠ y → searchCanIf ref xs = .ok (some x) := fun hne =>
      ih (fun n hn d hd1 => hdis n hn d (List.mem_cons_of_mem _ hd1)) (fun c hc => hrefs c (List.mem_cons_of_mem _ hc))
        ((List.mem_cons.1 hx).resolve_left hne) (fun c hc => hu c (List.mem_cons_of_mem _ hc))
    unfold searchCanIf
    rw [bind_of_ok (textAt_of hk ht)]
    by_cases h1 : d = "CanIfTxPduCfg"
    · rw [if_pos (e1.2 h1)]
      subst h1
      obtain ⟨l, hl⟩ := hrefs y (by simp) (.inl hy)
      have hl' := hl
      obtain ⟨w, hw, -, hwl⟩ := hl'
      rw [bind_of_ok (entriesOf_of hw), bind_of_ok (hasReference_of hwl)]
      by_cases hm : ("CanIfTxPduRef", ref) ∈ l
      · rw [decide_eq_true hm, if_pos rfl]
        rw [hu y (by simp) (.inl ⟨hy, l, hl, hm⟩)]
        rfl
      · rw [decide_eq_false hm, if_neg (by simp)]
        apply hrec
        rintro rfl
        rcases hc with ⟨_, l', hl', hm'⟩ | ⟨hdx, -⟩
        · rw [references_unique hl' hl] at hm'
          exact hm hm'
        · exact absurd (defined_unique hy hdx) (by decide)
    · rw [if_neg (fun h => h1 (e1.1 h))]
      by_cases h2 : d = "CanIfRxPduCfg"
      · rw [if_pos (e2.2 h2)]
        subst h2
        obtain ⟨l, hl⟩ := hrefs y (by simp) (.inr hy)
        have hl' := hl
        obtain ⟨w, hw, -, hwl⟩ := hl'
        rw [bind_of_ok (entriesOf_of hw), bind_of_ok (hasReference_of hwl)]
        by_cases hm : ("CanIfRxPduRef", ref) ∈ l
        · rw [decide_eq_true hm, if_pos rfl]
          rw [hu y (by simp) (.inr ⟨hy, l, hl, hm⟩)]
          rfl
        · rw [decide_eq_false hm, if_neg (by simp)]
          apply hrec
          rintro rfl
          rcases hc with ⟨hdx, -⟩ | ⟨_, l', hl', hm'⟩
          · exact absurd (defined_unique hy hdx) (by decide)
          · rw [references_unique hl' hl] at hm'
            exact hm hm'
      · rw [if_neg (fun h => h2 (e2.1 h))]
        apply hrec
        rintro rfl
        rcases hc with ⟨hdx, -⟩ | ⟨hdx, -⟩
        · exact h1 (defined_unique hy hdx)
        · exact h2 (defined_unique hy hdx)

theorem loadHeader_of {root : Xml} {q pre ref dir : String} {m : MessageContent} {r : List String}
    (h : HeaderSays root [q] pre ref m) (hdir : Direction dir pre) (href : ref.toList = pathText (q :: r))
    (hns : ∀ p ∈ q :: r, '/' ∉ p.toList) (hfd : m.idType ∉ ["EXTENDED_FD_CAN", "EXTENDED_NO_FD_CAN"]) :
    loadHeader root ref (pre ++ "CanId") (pre ++ "Dlc") (pre ++ "CanIdType") =
      .ok { frameId := some (m.frameId : Int), length := some m.length, isExtended := some m.extended } := by
  obtain ⟨sub, defs, x, l, id, len, hway, hdefs, hdis, hrefs, hx, hc, hu, ⟨w, hw, hl⟩, v1, d1, v2, d2, v3, -⟩ := h
  have hc' : Configures "CanIfTxPdu" x ref ∨ Configures "CanIfRxPdu" x ref := by
    cases hdir with
    | send => exact .inl hc
    | receive => exact .inr hc
  have hfind : findCanIf root ref = .ok (some x) := by
    unfold findCanIf
    rw [bind_of_ok (packageOf_path href hns), ← moduleSteps_canIf, findSteps_append, findSteps_way hway]
    simp only [List.flatMap_cons, List.flatMap_nil, List.append_nil, findSteps_one]
    exact searchCanIf_of hdefs hdis hrefs hx hc' hu
  unfold loadHeader
  rw [bind_of_ok hfind]
  dsimp only
  have hne : pre ++ "CanId" ≠ pre ++ "Dlc" ∧ pre ++ "CanId" ≠ pre ++ "CanIdType" ∧ pre ++ "Dlc" ≠ pre ++ "CanIdType" := by
    cases hdir <;> decide +kernel
  rw [bind_of_ok (entriesOf_of hw), header_fold d1 d2 hne.1 hne.2.1 hne.2.2 hl {} (fun v hv => valueOf_eq v1 hv)
    (fun v hv => valueOf_eq v2 hv) (fun v hv => valueOf_eq v3 hv),
    if_pos (valueOf_mem v1), if_pos (valueOf_mem v2), if_pos (valueOf_mem v3)]
  have : (m.idType == "EXTENDED_CAN") = m.extended := by
    unfold MessageContent.extended
    simp only [List.mem_cons, List.not_mem_nil, or_false, not_or] at hfd
    simp [hfd.1, hfd.2, beq_eq_decide]
  rw [this]

/-! ### Messages -/

theorem loadMessage_of {root x : Xml} {p q : String} {m : MessageContent} (h : PduSays root [p] [q] x m)
    (hu : Understood q m) (strict : Bool) (sort : SortSignals) :
    loadMessage root strict sort x =
      (Message.create m.frameId m.name m.length (m.signals.map fieldOf) 0 m.extended strict sort).map some := by
  obtain ⟨⟨k, hk, hkt⟩, hns, l, rs, dir, pre, ref, ⟨w, hw, hl⟩, vd, hdir, ⟨w', hw', htags, hrs⟩, vr, href, hh, hdis, hs, -⟩ := h
  obtain ⟨hq, hfd, -, h64⟩ := hu
  obtain ⟨r, hr⟩ : ∃ r, m.pdu = q :: r := by
    cases e : m.pdu with
    | nil => rw [e] at hq; cases hq
    | cons a r => rw [e] at hq; exact ⟨r, by rw [Option.some.inj hq]⟩
  rw [hr] at href hns
  have hheader := loadHeader_of hh hdir href hns hfd
  have hsig : findSteps x [("REFERENCE-VALUES", none), ("ECUC-REFERENCE-VALUE", none)] = w'.children := by
    have : kids w' "ECUC-REFERENCE-VALUE" = w'.children := by
      unfold kids
      rw [List.filter_eq_self]
      intro c hc
      simp [htags c hc]
    simp [findSteps, step_none, hw', this]
  unfold loadMessage
  rw [bind_of_ok (textAt?_of hk), bind_of_ok (entriesOf_of hw), bind_of_ok (firstOf_of hl vd), bind_of_ok (entriesOf_of hw'),
    bind_of_ok (firstOf_of hrs vr)]
  dsimp only
  have hcont : ∀ hd : Except Err Header, hd = .ok { frameId := some (m.frameId : Int), length := some m.length, isExtended := some m.extended } →
      (do
        let h ← hd
        match h.frameId, h.isExtended, h.length with
        | some id, some ext, some len =>
          let signals ← loadSignals root (findSteps x [("REFERENCE-VALUES", none), ("ECUC-REFERENCE-VALUE", none)])
          let m ← Message.create id (k.text.getD "") len signals 0 ext strict sort
          pure (some m)
        | _, _, _ => pure none) =
      (Message.create m.frameId m.name m.length (m.signals.map fieldOf) 0 m.extended strict sort).map some := by
    intro hd e
    rw [bind_of_ok e]
    dsimp only
    rw [hsig, bind_of_ok (loadSignals_of hrs hdis hs h64), hkt]
    simp only [Option.getD_some]
    cases Message.create m.frameId m.name m.length (m.signals.map fieldOf) 0 m.extended strict sort <;> rfl
  cases hdir with
  | send =>
    rw [if_pos rfl]
    exact hcont _ hheader
  | receive =>
    rw [if_neg (by decide), if_pos rfl]
    exact hcont _ hheader

theorem loadMessages_of {root : Xml} {p q : String} {ms : List MessageContent} {xs : List Xml} {defs : List String}
    (hd : List.Forall₂ Defined xs defs) (hdis : Distinct ["ComIPdu"] defs)
    (h : List.Forall₂ (PduSays root [p] [q]) (((xs.zip defs).filter fun e => e.2 = "ComIPdu").map (·.1)) ms)
    (hu : ∀ m ∈ ms, Understood q m) (strict : Bool) (sort : SortSignals) :
    loadMessages root strict sort xs = ms.mapM fun m =>
      Message.create m.frameId m.name m.length (m.signals.map fieldOf) 0 m.extended strict sort := by
  induction hd generalizing ms with
  | nil => cases h; rfl
  | @cons x d xs defs hx _ ih =>
    obtain ⟨k, t, hk, ht, he⟩ := hx
    have hiff := endsWith_distinct (n := "ComIPdu") he (by decide) hdis (by simp) (by simp)
    have hdis' : Distinct ["ComIPdu"] defs := fun n hn d hd1 => hdis n hn d (List.mem_cons_of_mem _ hd1)
    unfold loadMessages
    rw [bind_of_ok (textAt_of hk ht)]
    rw [List.zip_cons_cons] at h
    by_cases hc : d = "ComIPdu"
    · rw [if_pos (hiff.2 hc)]
      rw [List.filter_cons_of_pos (by simpa using hc), List.map_cons] at h
      cases h with
      | @cons _ m _ ms h1 h2 =>
        rw [loadMessage_of h1 (hu m (by simp)), ih hdis' h2 fun m hm => hu m (List.mem_cons_of_mem _ hm), List.mapM_cons]
        cases Message.create m.frameId m.name m.length (m.signals.map fieldOf) 0 m.extended strict sort with
        | error => rfl
        | ok o => rfl
    · rw [if_neg (fun h => hc (hiff.1 h))]
      rw [List.filter_cons_of_neg (by simpa using hc)] at h
      exact ih hdis' h hu

theorem collections_eq (root : Xml) : collections root = collectionsOf root := by
  simp [collections, collectionsOf, findSteps, step_none, List.flatMap_assoc]

theorem modules_eq (c : Xml) : findSteps c [("ECUC-VALUES", none),
    ("ECUC-MODULE-CONFIGURATION-VALUES-REF-CONDITIONAL", none), ("ECUC-MODULE-CONFIGURATION-VALUES-REF", none)] = modulesOf c := by
  simp [modulesOf, findSteps, step_none, List.flatMap_assoc]

theorem texts_of {xs : List Xml} {l : List String} (h : List.Forall₂ (fun x t => x.text = some t) xs l) :
    xs.mapM textOf = .ok l := by
  induction h with
  | nil => rfl
  | cons hx _ ih =>
    rw [List.mapM_cons, bind_of_ok (by unfold textOf; rw [hx]), bind_of_ok ih]
    rfl

theorem com_filter (refs : List String) : (refs.filter fun t => endsWith t "/Com") =
    refs.filter fun t => "/Com".toList <:+ t.toList := by
  apply List.filter_congr
  intro t _
  unfold endsWith
  by_cases h : "/Com".toList <:+ t.toList
  · rw [List.isSuffixOf_iff_suffix.2 h, decide_eq_true h]
  · rw [decide_eq_false h]
    cases e : "/Com".toList.isSuffixOf t.toList with
    | false => rfl
    | true => exact absurd (List.isSuffixOf_iff_suffix.1 e) h

theorem load_no_module {root coll : Xml} {rest : List Xml} {refs : List String}
    (hcoll : collectionsOf root = coll :: rest)
    (hrefs : List.Forall₂ (fun x t => x.text = some t) (modulesOf coll) refs)
    (hfil : (refs.filter fun t => "/Com".toList <:+ t.toList).length ≠ 1) (strict : Bool) (sort : SortSignals) :
    load root strict sort = .error .valueError := by
  unfold load
  rw [collections_eq, hcoll]
  dsimp only [List.head?_cons]
  rw [modules_eq, bind_of_ok (texts_of hrefs), com_filter]
  generalize (refs.filter fun t => "/Com".toList <:+ t.toList) = l at hfil ⊢
  match l with
  | [] => rfl
  | [t] => exact absurd rfl hfil
  | _ :: _ :: _ => rfl

theorem load_of {root : Xml} {p q : String} {ms : List MessageContent} (h : Describes root [p] [q] ms)
    (hu : ∀ m ∈ ms, Understood q m) (strict : Bool) (sort : SortSignals) :
    load root strict sort = ms.mapM fun m =>
      Message.create m.frameId m.name m.length (m.signals.map fieldOf) 0 m.extended strict sort := by
  obtain ⟨hns, coll, refs, com, sub, defs, hcoll, hrefs, hfil, hcom, hway, hdefs, hdis, hms⟩ := h
  unfold load
  rw [collections_eq, hcoll]
  dsimp only [List.head?_cons]
  rw [modules_eq, bind_of_ok (texts_of hrefs)]
  have : (refs.filter fun t => endsWith t "/Com") = [com] := (com_filter refs).trans hfil
  rw [this]
  dsimp only
  rw [bind_of_ok (packageOf_path (p := p) (ps := ["Com", "ComConfig"]) (by simp [hcom, pathText]) (by
    intro r hr
    simp only [List.mem_cons, List.not_mem_nil, or_false] at hr
    rcases hr with rfl | rfl | rfl
    · exact hns _ (by simp)
    · decide
    · decide)), ← moduleSteps_com, findSteps_way hway]
  dsimp only [List.head?_cons]
  exact loadMessages_of hdefs hdis hms hu strict sort

end Cantools.Extract
