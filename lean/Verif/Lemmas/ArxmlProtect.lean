import Verif.Props.ArxmlNodes
import Verif.Spec.ArxmlProtect

/-
Lemmas about buses and end-to-end protection of ARXML files (C66).
-/

namespace Cantools.ArxmlFile
open Kcd (Xml)
open Regex (Chars)
open Cdd (bind_of_ok)
open ArxmlRef (Pos Refs at? createDicts)
open ArxmlScale (FloatRead)
open Loader (Talk MessageNodes Connected Protection)
open Spec Spec.SystemFile

theorem forall₂_mapM {α β : Type} {f : α → Except Err β} {l : List α} {k : List β} (h : List.Forall₂ (fun a b => f a = .ok b) l k) :
    l.mapM f = .ok k := ArxmlRef.mapM_forall₂.2 h

section
variable {root : Xml} {r : Refs} {F : FloatRead} (hreg : Regular root) (hr : createDicts root = .ok r) (hns : NoStray root)
include hreg hr hns

local notation "𝓛" => (Loader.mk root r F)

/-! ### Buses -/

theorem clusterBus_ok {c : Pos} {o : Option Loader.Bus} (h : BusSays F root c o) : (𝓛).clusterBus c = .ok o := by
  cases h with
  | missing hn h =>
    refine (bind_of_ok (childText_ok hreg hr hns (by decide +kernel) hn)).trans ?_
    exact bind_of_ok (children_ok hreg hr hns (by decide +kernel) h)
  | bus hn h hw hb hf =>
    refine (bind_of_ok (childText_ok hreg hr hns (by decide +kernel) hn)).trans ?_
    refine (bind_of_ok (children_ok hreg hr hns (by decide +kernel) h)).trans ?_
    refine (bind_of_ok (unique_ok hreg hr hns (by decide +kernel) hw)).trans ?_
    unfold RateAt at hb hf
    refine (bind_of_ok (optInt_ok hreg hr hns (loc := [elem "BAUDRATE"]) (by decide +kernel) hb)).trans ?_
    exact bind_of_ok (optInt_ok hreg hr hns (loc := [elem "CAN-FD-BAUDRATE"]) (by decide +kernel) hf)

theorem buses_ok {l : List Loader.Bus} (h : Buses F root l) : (𝓛).loadBuses = .ok l := by
  obtain ⟨qs, parts, h1, h2, rfl⟩ := h
  unfold Loader.loadBuses
  dsimp only
  rw [packages_ok h1]
  refine (bind_of_ok (forall₂_mapM (h2.imp fun q l h => ?_))).trans rfl
  obtain ⟨cs, os, h3, h4, rfl⟩ := h
  refine (bind_of_ok (children_ok hreg hr hns (by decide +kernel) h3)).trans ?_
  exact bind_of_ok (forall₂_mapM (h4.imp fun c o h => clusterBus_ok hreg hr hns h))

/-! ### Protections -/

/-- What the loader does for a protected PDU. -/
def task (root : Xml) (x : ProtectedPdu) : Protection :=
  { path := some (pathText (namesTo root x.pdu)), category := x.category, dataIds := x.dataIds }

theorem protectionsOf_ok {e : Pos} {l : List ProtectedPdu} (h : E2eSetSays F root e l) :
    (𝓛).protectionsOf e = .ok (l.map (task root)) := by
  cases h with
  | noProfile h => exact bind_of_ok (unique_ok hreg hr hns (by decide +kernel) h)
  | @profile f c ds ids pdus h hc hd hi hp =>
    refine (bind_of_ok (unique_ok hreg hr hns (by decide +kernel) h)).trans ?_
    refine (bind_of_ok (compareText_ok hreg hr hns (by decide +kernel) hc)).trans ?_
    refine (bind_of_ok (children_ok hreg hr hns (by decide +kernel) hd)).trans ?_
    refine (bind_of_ok (numbersIn_ok hi)).trans ?_
    refine (bind_of_ok (children_ok hreg hr hns (by decide +kernel) hp)).trans ?_
    rw [List.map_map]
    refine congrArg Except.ok (List.map_congr_left fun p hp' => ?_)
    obtain ⟨x, hx⟩ := locate_exists (as := [elem "END-TO-END-PROTECTION-I-SIGNAL-I-PDUS",
      elems "END-TO-END-PROTECTION-I-SIGNAL-I-PDU"]) hp p hp'
    unfold task Function.comp
    dsimp only
    rw [pathOf_says hreg hr hx]

theorem protections_ok {l : List ProtectedPdu} (h : Protections F root l) : (𝓛).loadProtections = .ok (l.map (task root)) := by
  obtain ⟨qs, parts, h1, h2, rfl⟩ := h
  unfold Loader.loadProtections
  dsimp only
  rw [packages_ok h1, List.map_flatten]
  refine (bind_of_ok (forall₂_mapM (List.forall₂_map_right_iff.2 (h2.imp fun q l h => ?_)))).trans rfl
  obtain ⟨es, ps, h3, h4, rfl⟩ := h
  refine (bind_of_ok (children_ok hreg hr hns (by decide +kernel) h3)).trans ?_
  rw [List.map_flatten]
  exact bind_of_ok (forall₂_mapM (List.forall₂_map_right_iff.2 (h4.imp fun e l h => protectionsOf_ok hreg hr hns h)))

omit hreg hr hns in
/-- Protected PDUs have names. -/
theorem protections_named (he : EcusRegular root) {l : List ProtectedPdu} (h : Protections F root l) : ∀ x ∈ l, Named root x.pdu := by
  obtain ⟨qs, parts, -, h2, rfl⟩ := h
  intro x hx
  obtain ⟨part, hp, hx⟩ := List.mem_flatten.1 hx
  obtain ⟨q, -, es, ps, -, h4, rfl⟩ := forall₂_mem_right h2 hp
  obtain ⟨part, hp, hx⟩ := List.mem_flatten.1 hx
  obtain ⟨e, -, h5⟩ := forall₂_mem_right h4 hp
  cases h5 with
  | noProfile => cases hx
  | profile _ _ _ _ hloc =>
    obtain ⟨p, hp', rfl⟩ := List.mem_map.1 hx
    exact locate_named (as := [elem "END-TO-END-PROTECTION-I-SIGNAL-I-PDUS", elems "END-TO-END-PROTECTION-I-SIGNAL-I-PDU"]) hloc
      (fun p x hx ht => he.pdus p x hx (by rw [ht]; decide)) p hp'

/-! ### Messages -/

omit hreg hr hns in
theorem apply_other {paths : List (Option Chars)} {n : Nat} {s : Option Loader.SecOC} : ∀ {ts : List Protection}
    {e : Option Loader.EndToEnd}, (∀ t ∈ ts, t.path ∉ paths) → ts.foldl (fun e t => t.apply paths n s e) e = e
  | [], _, _ => rfl
  | t :: ts, e, h => by
    rw [List.foldl_cons]
    have : t.apply paths n s e = e := if_neg (h t (by simp))
    rw [this]
    exact apply_other fun t ht => h t (by simp [ht])

/-- All protections and a message. -/
theorem apply_all (he : EcusRegular root) {l : List ProtectedPdu} (hl : Protections F root l) {p : Pos} (hp : Named root p)
    {paths : List (Option Chars)} (hpaths : ∀ t, t ∈ paths ↔ ∃ q, PartOf root p q ∧ t = some (pathText (namesTo root q)))
    {o : Option ProtectedPdu} (ho : LastFor root p l o) (n : Nat) (s : Option Loader.SecOC) (e : Option Loader.EndToEnd) :
    (l.map (task root)).foldl (fun e t => t.apply paths n s e) e =
      (o.map fun x => x.properties n s).or e := by
  have hn := protections_named he hl
  have key : ∀ x ∈ l, (task root x).path ∈ paths ↔ PartOf root p x.pdu := by
    intro x hx
    refine (hpaths _).trans ⟨?_, fun h => ⟨_, h, rfl⟩⟩
    rintro ⟨q, h1, h2⟩
    rwa [same_path hreg hr hns (hn x hx) (partOf_named hreg hr hns he hp h1) (Option.some.inj h2)]
  cases ho with
  | none h =>
    refine apply_other fun t ht => ?_
    obtain ⟨x, hx, rfl⟩ := List.mem_map.1 ht
    exact fun h' => h x hx ((key x hx).1 h')
  | @some a x b hl' hx hb =>
    subst hl'
    rw [List.map_append, List.map_cons, List.foldl_append, List.foldl_cons, apply_other]
    · refine (if_pos ((key x (by simp)).2 hx)).trans ?_
      cases s <;> rfl
    · intro t ht
      obtain ⟨y, hy, rfl⟩ := List.mem_map.1 ht
      exact fun h' => hb y hy ((key y (by simp [hy])).1 h')

end

/-- All protections of a part. -/
def partAfter (ts : List Protection) (q : Loader.Part) (d : MessageNodes) : Loader.Part :=
  { q with e2e := ts.foldl (fun e t => t.apply d.paths q.message.length q.secoc e) q.e2e }

theorem zipWith_left {α β : Type} : ∀ {l : List α} {k : List β}, l.length = k.length → List.zipWith (fun a _ => a) l k = l
  | [], _, _ => by simp
  | a :: l, [], h => by cases h
  | a :: l, b :: k, h => by rw [List.zipWith_cons_cons, zipWith_left (by simpa using h)]

theorem zipWith_twice {α β : Type} {f g : α → β → α} : ∀ {l : List α} {k : List β},
    List.zipWith g (List.zipWith f l k) k = List.zipWith (fun a b => g (f a b) b) l k
  | [], _ => by simp
  | a :: l, [] => by simp
  | a :: l, b :: k => by simp [zipWith_twice (l := l) (k := k)]

/-- All protections of the messages of a frame. -/
theorem protect_all (ts : List Protection) : ∀ (c : Connected), c.loaded.contained.length = c.parts.length →
    ts.foldl (fun c t => c.protect t) c =
      { c with loaded := { c.loaded with
          e2e := if c.loaded.contained.isEmpty then
              ts.foldl (fun e t => t.apply c.nodes.paths c.loaded.message.length c.loaded.secoc e) c.loaded.e2e
            else c.loaded.e2e
          contained := List.zipWith (partAfter ts) c.loaded.contained c.parts } } := by
  induction ts with
  | nil =>
    intro c h
    have : List.zipWith (partAfter []) c.loaded.contained c.parts = c.loaded.contained := zipWith_left h
    rw [this]
    simp
  | cons t ts ih =>
    intro c h
    have hlen : (c.protect t).loaded.contained.length = (c.protect t).parts.length := by
      show (List.zipWith _ c.loaded.contained c.parts).length = c.parts.length
      rw [List.length_zipWith]
      omega
    have hemp : (c.protect t).loaded.contained.isEmpty = c.loaded.contained.isEmpty := by
      show (List.zipWith _ c.loaded.contained c.parts).isEmpty = c.loaded.contained.isEmpty
      cases hc : c.loaded.contained with
      | nil => rfl
      | cons a l =>
        cases hp : c.parts with
        | nil => rw [hc, hp] at h; cases h
        | cons => rfl
    rw [List.foldl_cons, ih _ hlen, hemp]
    have e1 : List.zipWith (partAfter ts) (c.protect t).loaded.contained (c.protect t).parts =
        List.zipWith (partAfter (t :: ts)) c.loaded.contained c.parts := zipWith_twice
    rw [e1]
    unfold Connected.protect
    dsimp only
    cases c.loaded.contained.isEmpty <;> rfl

theorem protect_map (ts : List Protection) : ∀ (cs : List Connected), ts.foldl (fun cs t => cs.map (Connected.protect t)) cs =
    cs.map fun c => ts.foldl (fun c t => c.protect t) c := by
  induction ts with
  | nil => intro cs; simp
  | cons t ts ih =>
    intro cs
    rw [List.foldl_cons, ih, List.map_map]
    rfl

/-! ### Names of buses -/

theorem found_nothing {root : Xml} (hns : NoStray root) {t : String} (ht : t ∈ plainTags) {b : Pos} (h : Found root b (elems t) []) {l : List Pos}
    (h' : Found root b (refs t) l) : l = [] := by
  obtain ⟨is, -, hw, hf⟩ := h
  obtain ⟨is', -, hw', hf'⟩ := h'
  cases hf
  cases hf' with
  | nil => rfl
  | @cons i p is' l h1 h2 =>
    obtain ⟨c, hc, hwc⟩ := (hw' i).1 (by simp)
    rcases hwc with hwc | ⟨-, hwc⟩
    · have := (hw i).2 ⟨c, hc, .inl hwc⟩
      cases this
    · exact absurd hwc (hns _ _ hc t ht)

theorem locate_last_step {root : Xml} {a : LocAtom} {bs l : List Pos} (h : Locate root [a] bs l) :
    ∃ parts, List.Forall₂ (fun b l => Found root b a l ∧ (a.many = false → l.length ≤ 1)) bs parts ∧ l = parts.flatten := by
  cases h with
  | step h hr =>
    generalize hz : List.flatten _ = z at hr
    cases hr
    exact ⟨_, h, hz.symm⟩

theorem locate_nothing {root : Xml} (hns : NoStray root) {t : String} (ht : t ∈ plainTags) {bs l : List Pos}
    (h : Locate root [elems t] bs []) (h' : Locate root [refs t] bs l) : l = [] := by
  obtain ⟨ps, h1, h2⟩ := locate_last_step h
  obtain ⟨ps', h1', rfl⟩ := locate_last_step h'
  clear h h'
  induction h1 generalizing ps' with
  | nil => cases h1'; rfl
  | cons a _ ih =>
    cases h1' with
    | @cons _ l' _ ls' a' b' =>
      rw [List.flatten_cons] at h2
      obtain ⟨e1, e2⟩ := List.append_eq_nil_iff.1 h2.symm
      rw [e1] at a
      rw [List.flatten_cons, found_nothing hns ht a.1 a'.1, ih e2.symm _ b']
      rfl

theorem locate_none {root : Xml} : ∀ {as : List LocAtom} {l : List Pos}, Locate root as [] l → l = []
  | [], l, h => by cases h; rfl
  | a :: as, l, h => by
    cases h with
    | step h hr =>
      cases h
      exact locate_none hr

end Cantools.ArxmlFile
