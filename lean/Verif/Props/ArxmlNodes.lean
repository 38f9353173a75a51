import Verif.Lemmas.ArxmlTalks
import Verif.Lemmas.ArxmlContainer

/-
C62: the nodes of ARXML files, and the senders and receivers of their messages.
-/

namespace Cantools
open Kcd (Xml)
open ArxmlRef (Pos Refs at? createDicts)
open ArxmlScale (FloatRead)
open ArxmlFile
open Loader (Talk MessageNodes Connected)
open Spec Spec.SystemFile

section
variable {F : FloatRead} {root : Xml} {r : Refs} (hreg : Regular root) (hr : createDicts root = .ok r) (hns : NoStray root)
include hreg hr hns

local notation "𝓛" => (Loader.mk root r F)

theorem packagePaths_ok {q : Pos} {l : List (String × Pos)} (h : PackageSays root q l) (fuel : Nat) :
    (𝓛).packagePaths fuel q = l.mapM fun t => (𝓛).framePaths fuel t.2 := by
  obtain ⟨cs, parts, h1, h2, rfl⟩ := h
  unfold Loader.packagePaths
  refine (Cdd.bind_of_ok ((children_iff hreg hr hns (by decide +kernel)).2 h1)).trans ?_
  rw [mapM_flatten]
  congr 1
  clear h1
  induction h2 with
  | nil => rfl
  | cons h _ ih =>
    obtain ⟨bus, ts, -, h2, rfl⟩ := h
    rw [List.mapM_cons, List.mapM_cons, ih, List.mapM_map]
    congr 1
    exact Cdd.bind_of_ok ((children_iff hreg hr hns (by decide +kernel)).2 h2)

theorem paths_ok {trigs : List (String × Pos)} (h : Triggerings root trigs) (fuel : Nat) :
    (𝓛).loadPaths fuel = trigs.mapM fun t => (𝓛).framePaths fuel t.2 := by
  obtain ⟨qs, parts, h1, h2, rfl⟩ := h
  unfold Loader.loadPaths
  dsimp only
  rw [packages_ok h1, mapM_flatten]
  congr 1
  clear h1
  induction h2 with
  | nil => rfl
  | cons h _ ih => rw [List.mapM_cons, List.mapM_cons, ih, packagePaths_ok hreg hr hns h]

omit hreg hr hns in
/-- There are as many contained messages as lists of paths. -/
theorem contained_length {fuel : Nat} {bus : String} {trig : Pos} {f : Loader.FrameInfo} {fp : Loader.FramePaths}
    (h : (𝓛).loadFrame fuel bus trig = .ok f) (h' : (𝓛).framePaths fuel trig = .ok fp) : f.contained.length = fp.parts.length := by
  obtain ⟨o, h1, h⟩ := bind_ok_iff.1 h
  obtain ⟨o', h1', h'⟩ := bind_ok_iff.1 h'
  rw [h1] at h1'
  obtain rfl := Except.ok.inj h1'
  cases o with
  | none => cases h
  | some frame =>
    obtain ⟨_, -, h⟩ := bind_ok_iff.1 h
    obtain ⟨_, -, h⟩ := bind_ok_iff.1 h
    obtain ⟨_, -, h⟩ := bind_ok_iff.1 h
    obtain ⟨_, -, h⟩ := bind_ok_iff.1 h
    obtain ⟨_, -, h⟩ := bind_ok_iff.1 h
    obtain ⟨_, -, h⟩ := bind_ok_iff.1 h
    obtain ⟨o, h2, h⟩ := bind_ok_iff.1 h
    obtain ⟨o', h2', h'⟩ := bind_ok_iff.1 h'
    rw [h2] at h2'
    obtain rfl := Except.ok.inj h2'
    cases o with
    | none =>
      obtain rfl := Except.ok.inj h
      obtain rfl := Except.ok.inj h'
      rfl
    | some pdu =>
      obtain ⟨_, -, h⟩ := bind_ok_iff.1 h
      obtain ⟨⟨_, _⟩, h3, h⟩ := bind_ok_iff.1 h
      obtain ⟨⟨_, _⟩, -, h⟩ := bind_ok_iff.1 h
      obtain ⟨_, -, h⟩ := bind_ok_iff.1 h
      obtain ⟨_, -, h⟩ := bind_ok_iff.1 h
      obtain ⟨_, -, h'⟩ := bind_ok_iff.1 h'
      obtain ⟨⟨_, _⟩, h3', h'⟩ := bind_ok_iff.1 h'
      obtain rfl := Except.ok.inj h
      obtain rfl := Except.ok.inj h'
      rw [List.length_map]
      exact topPaths_length h3' h3

omit hreg hr hns in
/-- The PDUs of the contained messages are parts of the PDU of the frame. -/
theorem framePaths_parts {fuel : Nat} {trig : Pos} {fp : Loader.FramePaths} (h : (𝓛).framePaths fuel trig = .ok fp) :
    ∀ l ∈ fp.parts, ∀ t ∈ l, t ∈ fp.paths := by
  obtain ⟨o, h1, h⟩ := bind_ok_iff.1 h
  cases o with
  | none => cases h
  | some frame =>
    obtain ⟨o, h2, h⟩ := bind_ok_iff.1 h
    cases o with
    | none =>
      obtain rfl := Except.ok.inj h
      intro l hl
      cases hl
    | some pdu =>
      obtain ⟨_, -, h⟩ := bind_ok_iff.1 h
      obtain ⟨⟨inner, parts⟩, h3, h⟩ := bind_ok_iff.1 h
      obtain rfl := Except.ok.inj h
      intro l hl t ht
      obtain ⟨l', hl', rfl⟩ := List.mem_map.1 hl
      obtain ⟨u, hu, rfl⟩ := List.mem_map.1 ht
      refine List.mem_cons_of_mem _ (List.mem_map.2 ⟨u, ?_, rfl⟩)
      cases fuel with
      | zero => cases h3
      | succ fuel =>
        unfold Loader.topPaths at h3
        dsimp only at h3
        split at h3
        · obtain ⟨ps, -, h3⟩ := bind_ok_iff.1 h3
          obtain ⟨rfl, rfl⟩ := Prod.mk.inj (Except.ok.inj h3)
          exact List.mem_flatten.2 ⟨l', hl', hu⟩
        · obtain ⟨ps, -, h3⟩ := bind_ok_iff.1 h3
          obtain ⟨rfl, rfl⟩ := Prod.mk.inj (Except.ok.inj h3)
          cases hl'

end

theorem forall₂_left {α β : Type} {R : α → β → Prop} {l : List α} {k : List β} (h : List.Forall₂ R l k) {a : α} (ha : a ∈ l) :
    ∃ b ∈ k, R a b := by
  obtain ⟨b, hb, hr⟩ := forall₂_mem_right h.flip ha
  exact ⟨b, hb, hr⟩

/-- Four lists, side by side. -/
theorem forall₂_zip {α β γ δ ε : Type} {R : α → β → Prop} {S : β → γ → Prop} {T : α → δ → Prop} {g : γ → δ → ε} {U : α → ε → Prop}
    {π : ε → γ} (hπ : ∀ c d, π (g c d) = c) (hU : ∀ a b c d, R a b → S b c → T a d → U a (g c d)) {as : List α} {bs : List β}
    (h1 : List.Forall₂ R as bs) : ∀ {cs : List γ} {ds : List δ}, List.Forall₂ S bs cs → List.Forall₂ T as ds →
      (List.zipWith g cs ds).map π = cs ∧ List.Forall₂ U as (List.zipWith g cs ds) := by
  induction h1 with
  | nil =>
    intro cs ds h2 h3
    cases h2
    cases h3
    exact ⟨rfl, .nil⟩
  | cons h _ ih =>
    intro cs ds h2 h3
    cases h2 with
    | cons h2 h2' =>
      cases h3 with
      | cons h3 h3' =>
        obtain ⟨e1, e2⟩ := ih h2' h3'
        exact ⟨by rw [List.zipWith_cons_cons, List.map_cons, e1, hπ], .cons (hU _ _ _ _ h h2 h3) e2⟩

theorem makeMessage_contained {strict : Bool} {sort : SortSignals} {f : Loader.FrameInfo} {l : Loader.Loaded}
    (h : Loader.makeMessage strict sort f = .ok l) : l.contained.length = f.contained.length := by
  obtain ⟨parts, h1, h⟩ := bind_ok_iff.1 h
  split at h
  · obtain ⟨m, -, h⟩ := bind_ok_iff.1 h
    obtain rfl := Except.ok.inj h
    exact (ArxmlRef.mapM_forall₂.1 h1).length_eq.symm
  · cases h

section
variable {F : FloatRead} {root : Xml} {trigs : List (String × Pos)} {fuel : Nat} {strict : Bool} {sort : SortSignals}
  {ns : List String} {cs : List Connected}

/-- What is known about the messages of a database. -/
theorem connected_made (hreg : Regular root) (hns : NoStray root) (ht : Triggerings root trigs)
    (h : loadConnected F root fuel strict sort = .ok (ns, cs)) :
    ∃ r talks, createDicts root = .ok r ∧ (Loader.mk root r F).loadNodes = .ok ns ∧ (Loader.mk root r F).loadTalks = .ok talks ∧
      loadDatabase F root fuel strict sort = .ok (cs.map (·.loaded)) ∧
      List.Forall₂ (fun (t : String × Pos) c => ∃ fp, (Loader.mk root r F).framePaths fuel t.2 = .ok fp ∧
        c.loaded.contained.length = fp.parts.length ∧
        c = talks.foldl (fun c t => c.hear t) (Loader.connect c.loaded fp)) trigs cs := by
  obtain ⟨ms, h1, h⟩ := bind_ok_iff.1 h
  obtain ⟨r, hr, h⟩ := bind_ok_iff.1 h
  obtain ⟨nodes, h2, h⟩ := bind_ok_iff.1 h
  obtain ⟨paths, h3, h⟩ := bind_ok_iff.1 h
  obtain ⟨talks, h4, h⟩ := bind_ok_iff.1 h
  obtain ⟨rfl, rfl⟩ := Prod.mk.inj (Except.ok.inj h)
  obtain ⟨ms', k1, k⟩ := bind_ok_iff.1 h1
  obtain ⟨r', k2, k⟩ := bind_ok_iff.1 k
  obtain ⟨big, -, k⟩ := bind_ok_iff.1 k
  obtain ⟨r'', k3, k5⟩ := bind_ok_iff.1 k1
  rw [hr] at k3
  obtain rfl := Except.ok.inj k3
  obtain ⟨fs, k4, k6⟩ := bind_ok_iff.1 k5
  have hpk : kids root "AR-PACKAGES" ≠ [] := by
    intro e
    unfold Loader.loadFrames at k4
    dsimp only at k4
    rw [Cdd.find_kids, e] at k4
    cases k4
  rw [frames_ok hreg hr hns hpk ht] at k4
  rw [paths_ok hreg hr hns ht] at h3
  have k := Except.ok.inj k
  have k6 : List.Forall₂ (fun f l => l.contained.length = f.contained.length) fs ms := by
    rw [← k]
    refine List.forall₂_map_right_iff.2 ((ArxmlRef.mapM_forall₂.1 k6).imp fun f l hl => ?_)
    rw [(setOrder_contained big l).1]
    exact makeMessage_contained hl
  rw [hear_map]
  obtain ⟨e1, e2⟩ := forall₂_zip (g := Loader.connect) (π := (·.loaded))
    (U := fun (t : String × Pos) c => ∃ fp, (Loader.mk root r F).framePaths fuel t.2 = .ok fp ∧
        c.loaded.contained.length = fp.parts.length ∧ c = Loader.connect c.loaded fp)
    (fun _ _ => rfl) (fun t f l fp a b c => ⟨fp, c, b.trans (contained_length a c), rfl⟩)
    (ArxmlRef.mapM_forall₂.1 k4) k6 (ArxmlRef.mapM_forall₂.1 h3)
  refine ⟨r, talks, hr, h2, h4, ?_, List.forall₂_map_right_iff.2 (e2.imp ?_)⟩
  · rw [h1, List.map_map]
    have : ((fun c : Connected => c.loaded) ∘ fun c => talks.foldl (fun c t => c.hear t) c) = fun c => c.loaded := by
      funext c
      rw [Function.comp_apply, connected_all]
    rw [this, e1]
  · rintro t c ⟨fp, a, b, e⟩
    refine ⟨fp, a, ?_, ?_⟩
    · rw [connected_all]
      exact b
    · have : (talks.foldl (fun c t => c.hear t) c).loaded = c.loaded := by rw [connected_all]
      rw [this, ← e]

/-- C62: the messages are those of the database without nodes. -/
theorem C62_messages (hreg : Regular root) (hns : NoStray root) (ht : Triggerings root trigs)
    (h : loadConnected F root fuel strict sort = .ok (ns, cs)) :
    loadDatabase F root fuel strict sort = .ok (cs.map (·.loaded)) ∧ cs.length = trigs.length := by
  obtain ⟨r, talks, -, -, -, h1, h2⟩ := connected_made hreg hns ht h
  exact ⟨h1, h2.length_eq.symm⟩

/-- The nodes of a message that consists of PDUs. -/
theorem nodes_say {r : Refs} (hreg : Regular root) (hr : createDicts root = .ok r) (hns : NoStray root) (he : EcusRegular root)
    {talks : List Talk} (h : (Loader.mk root r F).loadTalks = .ok talks) {m : Message} {paths : List (Option Regex.Chars)} {p : Pos}
    (hp : Named root p) (hpaths : ∀ t, t ∈ paths ↔ ∃ q, PartOf root p q ∧ t = some (pathText (namesTo root q))) :
    let c := talks.foldl (fun m t => m.hear t) (Loader.newNodes m paths)
    NamesAre c.senders (fun n => ∃ q, PartOf root p q ∧ Sends root n q) ∧ c.receivers.length = m.signals.length ∧
      ∀ l ∈ c.receivers, NamesAre l fun n => ∃ q, PartOf root p q ∧ Receives root n q := by
  have key : ∀ s n, (∃ t ∈ talks, t.sends = s ∧ t.ecu = n ∧ t.path ∈ paths) ↔ ∃ q, PartOf root p q ∧ Does root s n q := by
    intro s n
    constructor
    · rintro ⟨t, h1, rfl, rfl, h2⟩
      obtain ⟨q, h3, h4⟩ := (loadTalks_says hreg hr hns he h t).1 h1
      obtain ⟨q', h5, h6⟩ := (hpaths _).1 h2
      rw [h4] at h6
      obtain rfl := same_path hreg hr hns (does_named he h3) (partOf_named hreg hr hns he hp h5) (Option.some.inj h6)
      exact ⟨q, h5, h3⟩
    · rintro ⟨q, h1, h2⟩
      exact ⟨⟨s, n, some (pathText (namesTo root q))⟩, (loadTalks_says hreg hr hns he h _).2 ⟨q, h2, rfl⟩, rfl, rfl,
        (hpaths _).2 ⟨q, h1, rfl⟩⟩
  intro c
  obtain ⟨-, g1, g2⟩ := hear_all talks (Loader.newNodes m paths) List.nodup_nil (by
    intro l hl
    obtain ⟨_, -, rfl⟩ := List.mem_map.1 hl
    exact List.nodup_nil)
  refine ⟨⟨g1.1, fun n => (g1.2 n).trans ?_⟩, ?_, fun l hl => ?_⟩
  · exact (or_iff_right (by simp [Loader.newNodes])).trans (key true n)
  · exact g2.length_eq.symm.trans (by simp [Loader.newNodes])
  · obtain ⟨l0, hl0, k⟩ := forall₂_mem_right g2 hl
    obtain ⟨_, -, rfl⟩ := List.mem_map.1 hl0
    exact ⟨k.1, fun n => (k.2 n).trans ((or_iff_right (by simp)).trans (key false n))⟩

/-- C62: the senders of a message are the ECUs that send its PDU or a part of it, and the receivers of each of its signals are
the ECUs that receive its PDU or a part of it.

Missing: the receivers of a signal are not only those of its own PDU (`C62_alternative_fails`). -/
theorem C62_nodes_partial (hreg : Regular root) (hns : NoStray root) (he : EcusRegular root) (ht : Triggerings root trigs)
    (h : loadConnected F root fuel strict sort = .ok (ns, cs)) {k : Nat} {trig : String × Pos} {c : Connected}
    (hk : trigs[k]? = some trig) (hc : cs[k]? = some c) {p : Pos} (hp : PduOf root trig.2 (some p)) :
    NamesAre c.nodes.senders (fun n => ∃ q, PartOf root p q ∧ Sends root n q) ∧
      c.nodes.receivers.length = c.loaded.message.signals.length ∧
      ∀ l ∈ c.nodes.receivers, NamesAre l fun n => ∃ q, PartOf root p q ∧ Receives root n q := by
  obtain ⟨r, talks, hr, -, h1, -, h2⟩ := connected_made hreg hns ht h
  obtain ⟨fp, h3, -, e⟩ := forall₂_at h2 hk hc
  obtain ⟨h5, h6, -⟩ := (framePaths_says hreg hr hns he h3).2 hp
  have := nodes_say hreg hr hns he h1 (m := c.loaded.message) h5 h6
  rw [connected_all] at e
  have e' : c.nodes = talks.foldl (fun m t => m.hear t) (Loader.newNodes c.loaded.message fp.paths) :=
    congrArg Connected.nodes e
  rw [e']
  exact this

/-- C62: messages without a PDU have no senders, and no signals. -/
theorem C62_without_pdu (hreg : Regular root) (hns : NoStray root) (he : EcusRegular root) (ht : Triggerings root trigs)
    (h : loadConnected F root fuel strict sort = .ok (ns, cs)) {k : Nat} {trig : String × Pos} {c : Connected}
    (hk : trigs[k]? = some trig) (hc : cs[k]? = some c) (hp : PduOf root trig.2 none) :
    c.nodes.senders = [] ∧ ∀ l ∈ c.nodes.receivers, l = [] := by
  obtain ⟨r, talks, hr, -, h1, -, h2⟩ := connected_made hreg hns ht h
  obtain ⟨fp, h3, -, e⟩ := forall₂_at h2 hk hc
  have h4 := (framePaths_says hreg hr hns he h3).1 hp
  rw [connected_all] at e
  have e' : c.nodes = talks.foldl (fun m t => m.hear t) (Loader.newNodes c.loaded.message fp.paths) :=
    congrArg Connected.nodes e
  rw [e', h4]
  obtain ⟨-, g1, g2⟩ := hear_all talks (Loader.newNodes c.loaded.message []) List.nodup_nil (by
    intro l hl
    obtain ⟨_, -, rfl⟩ := List.mem_map.1 hl
    exact List.nodup_nil)
  refine ⟨List.eq_nil_iff_forall_not_mem.2 fun n hn => ?_, fun l hl => List.eq_nil_iff_forall_not_mem.2 fun n hn => ?_⟩
  · have := (g1.2 n).1 hn
    simp [Loader.newNodes] at this
  · obtain ⟨l0, hl0, k⟩ := forall₂_mem_right g2 hl
    obtain ⟨_, -, rfl⟩ := List.mem_map.1 hl0
    have := (k.2 n).1 hn
    simp [Loader.newNodes] at this

/-- C62: the same for the messages in a container. -/
theorem C62_parts_partial (hreg : Regular root) (hns : NoStray root) (he : EcusRegular root) (ht : Triggerings root trigs)
    (h : loadConnected F root fuel strict sort = .ok (ns, cs)) {k : Nat} {trig : String × Pos} {c : Connected}
    (hk : trigs[k]? = some trig) (hc : cs[k]? = some c) {p : Pos} (hp : PduOf root trig.2 (some p))
    (htag : HasTag root p "CONTAINER-I-PDU") (hh : TextAt root p [elem "HEADER-TYPE"] "SHORT-HEADER")
    {qs : List Pos} (hqs : Locate root containedPdus [p] qs) :
    c.parts.length = qs.length ∧ c.loaded.contained.length = qs.length ∧
    ∀ {j : Nat} {q : Pos} {d : MessageNodes} {l : Loader.Part}, qs[j]? = some q → c.parts[j]? = some d → c.loaded.contained[j]? = some l →
      NamesAre d.senders (fun n => ∃ q', PartOf root q q' ∧ Sends root n q') ∧
      d.receivers.length = l.message.signals.length ∧
      ∀ l ∈ d.receivers, NamesAre l fun n => ∃ q', PartOf root q q' ∧ Receives root n q' := by
  obtain ⟨r, talks, hr, -, h1, -, h2⟩ := connected_made hreg hns ht h
  obtain ⟨fp, h3, hlen, e⟩ := forall₂_at h2 hk hc
  obtain ⟨h5, -, h6⟩ := (framePaths_says hreg hr hns he h3).2 hp
  have h6 := h6 htag hh hqs
  rw [connected_all] at e
  have e' : c.parts = (List.zipWith (fun (q : Loader.Part) paths => Loader.newNodes q.message paths) c.loaded.contained fp.parts).map
      fun p => talks.foldl (fun m t => m.hear t) p := congrArg Connected.parts e
  have hl := h6.length_eq
  refine ⟨?_, by omega, fun {j q d l} hq hd hl' => ?_⟩
  · rw [e', List.length_map, List.length_zipWith]
    omega
  · rw [e', List.getElem?_map] at hd
    obtain ⟨d', hd', rfl⟩ := Option.map_eq_some_iff.1 hd
    rw [List.getElem?_zipWith_eq_some] at hd'
    obtain ⟨l'', paths, k1, k2, rfl⟩ := hd'
    rw [hl'] at k1
    obtain rfl := Option.some.inj k1
    refine nodes_say hreg hr hns he h1 ?_ (forall₂_at h6 hq k2)
    exact partOf_named hreg hr hns he h5 (.single (.contained htag hh hqs (List.mem_of_getElem? hq)))

/-- C62: the nodes of the database are the ECUs, in the order of the document. -/
theorem C62_ecus (hreg : Regular root) (hns : NoStray root) (he : EcusRegular root) (ht : Triggerings root trigs)
    (h : loadConnected F root fuel strict sort = .ok (ns, cs)) : EcuNames root ns := by
  obtain ⟨r, talks, hr, h1, -⟩ := connected_made hreg hns ht h
  obtain ⟨parts, h2, h1⟩ := bind_ok_iff.1 h1
  obtain rfl := Except.ok.inj h1
  refine ⟨_, parts, packages_exist root, (ArxmlRef.mapM_forall₂.1 h2).imp fun q l hl => ?_, rfl⟩
  obtain ⟨es, h3, h4⟩ := bind_ok_iff.1 hl
  exact ⟨es, (ecus_iff hreg hr hns he).1 h3, (ArxmlRef.mapM_forall₂.1 h4).imp fun e n hn =>
    (childText_iff hreg hr hns (by decide +kernel)).1 hn⟩

/-- C62: senders are nodes, if ECUs are elements of packages. -/
theorem C62_known (hreg : Regular root) (hns : NoStray root) (he : EcusRegular root) (ht : Triggerings root trigs)
    (h : loadConnected F root fuel strict sort = .ok (ns, cs)) (hall : ∀ e, HasTag root e "ECU-INSTANCE" → EcuAt root e)
    {k : Nat} {trig : String × Pos} {c : Connected} (hk : trigs[k]? = some trig) (hc : cs[k]? = some c) :
    (∀ n ∈ c.nodes.senders, n ∈ ns) ∧ ∀ l ∈ c.nodes.receivers, ∀ n ∈ l, n ∈ ns := by
  obtain ⟨r, talks, hr, -, h1, -, h2⟩ := connected_made hreg hns ht h
  obtain ⟨qs, parts, h3, h4, rfl⟩ := C62_ecus hreg hns he ht h
  have key : ∀ {e n}, EcuAt root e → NameAt root e n → n ∈ parts.flatten := by
    rintro e n ⟨q, es, k1, k2, k3⟩ k4
    obtain ⟨part, hpart, es', k5, k6⟩ := forall₂_left h4 ((h3.2 q).2 k1)
    have := (ecus_iff (F := F) hreg hr hns he).2 k2
    rw [(ecus_iff hreg hr hns he).2 k5] at this
    obtain rfl := Except.ok.inj this
    obtain ⟨n', hn', k7⟩ := forall₂_left k6 k3
    have a := (childText_iff (F := F) (strs := ["SHORT-NAME"]) hreg hr hns (by decide +kernel)).2 k4
    rw [(childText_iff (F := F) (strs := ["SHORT-NAME"]) hreg hr hns (by decide +kernel)).2 k7] at a
    obtain rfl := Except.ok.inj a
    exact List.mem_flatten.2 ⟨part, hpart, hn'⟩
  have does : ∀ t ∈ talks, t.ecu ∈ parts.flatten := by
    intro t htm
    obtain ⟨q, hd, -⟩ := (loadTalks_says hreg hr hns he h1 t).1 htm
    obtain ⟨s, n, path⟩ := t
    cases s with
    | true =>
      cases hd with
      | group hE hn => exact key hE hn
      | management _ hE hn =>
        obtain ⟨rf, -, _, _, _, -, -, -, htag, -⟩ := hE
        exact key (hall _ htag) hn
    | false =>
      cases hd with
      | group hE hn => exact key hE hn
      | management _ hE hn =>
        obtain ⟨rf, -, _, _, _, -, -, -, htag, -⟩ := hE
        exact key (hall _ htag) hn
  obtain ⟨fp, -, -, e⟩ := forall₂_at h2 hk hc
  rw [connected_all] at e
  have e' : c.nodes = talks.foldl (fun m t => m.hear t) (Loader.newNodes c.loaded.message fp.paths) :=
    congrArg Connected.nodes e
  rw [e']
  obtain ⟨-, g1, g2⟩ := hear_all talks (Loader.newNodes c.loaded.message fp.paths) List.nodup_nil (by
    intro l hl
    obtain ⟨_, -, rfl⟩ := List.mem_map.1 hl
    exact List.nodup_nil)
  constructor
  · intro n hn
    rcases (g1.2 n).1 hn with h | ⟨t, htm, -, rfl, -⟩
    · cases h
    · exact does t htm
  · intro l hl n hn
    obtain ⟨l0, hl0, k⟩ := forall₂_mem_right g2 hl
    obtain ⟨_, -, rfl⟩ := List.mem_map.1 hl0
    rcases (k.2 n).1 hn with h | ⟨t, htm, -, rfl, -⟩
    · cases h
    · exact does t htm

/-- C62: the receivers of a message with signals are the ECUs that receive its PDU or a part of it. -/
theorem C62_receivers (hreg : Regular root) (hns : NoStray root) (he : EcusRegular root) (ht : Triggerings root trigs)
    (h : loadConnected F root fuel strict sort = .ok (ns, cs)) {k : Nat} {trig : String × Pos} {c : Connected}
    (hk : trigs[k]? = some trig) (hc : cs[k]? = some c) {p : Pos} (hp : PduOf root trig.2 (some p)) (n : String) :
    (n ∈ c.receivers → ∃ q, PartOf root p q ∧ Receives root n q) ∧
    (c.loaded.message.signals ≠ [] → (∃ q, PartOf root p q ∧ Receives root n q) → n ∈ c.receivers) := by
  obtain ⟨h1, h2, h3⟩ := C62_nodes_partial hreg hns he ht h hk hc hp
  constructor
  · intro hn
    rcases List.mem_append.1 hn with hn | hn
    · obtain ⟨l, hl, hn⟩ := List.mem_flatten.1 hn
      exact ((h3 l hl).2 n).1 hn
    · obtain ⟨l, hl, hn⟩ := List.mem_flatten.1 hn
      obtain ⟨d, hd, rfl⟩ := List.mem_map.1 hl
      obtain ⟨l', hl', hn'⟩ := List.mem_flatten.1 hn
      obtain ⟨r, talks, hr, -, k1, -, k2⟩ := connected_made hreg hns ht h
      obtain ⟨fp, k3, -, e⟩ := forall₂_at k2 hk hc
      obtain ⟨k5, k6, -⟩ := (framePaths_says hreg hr hns he k3).2 hp
      rw [connected_all] at e
      have e' : c.parts = (List.zipWith (fun (q : Loader.Part) paths => Loader.newNodes q.message paths) c.loaded.contained fp.parts).map
          fun p => talks.foldl (fun m t => m.hear t) p := congrArg Connected.parts e
      rw [e'] at hd
      obtain ⟨d', hd', rfl⟩ := List.mem_map.1 hd
      obtain ⟨i, hi⟩ := List.getElem?_of_mem hd'
      rw [List.getElem?_zipWith_eq_some] at hi
      obtain ⟨part, paths, -, j2, rfl⟩ := hi
      obtain ⟨-, -, g2⟩ := hear_all talks (Loader.newNodes part.message paths) List.nodup_nil (by
        intro l hl
        obtain ⟨_, -, rfl⟩ := List.mem_map.1 hl
        exact List.nodup_nil)
      obtain ⟨l0, hl0, k⟩ := forall₂_mem_right g2 hl'
      obtain ⟨_, -, rfl⟩ := List.mem_map.1 hl0
      rcases (k.2 n).1 hn' with h | ⟨t, htm, hs, rfl, htp⟩
      · cases h
      · obtain ⟨q, j3, j4⟩ := (loadTalks_says hreg hr hns he k1 t).1 htm
        obtain ⟨q', j5, j6⟩ := (k6 _).1 (framePaths_parts k3 paths (List.mem_of_getElem? j2) _ htp)
        rw [j4] at j6
        obtain rfl := same_path hreg hr hns (does_named he j3) (partOf_named hreg hr hns he k5 j5) (Option.some.inj j6)
        rw [hs] at j3
        exact ⟨q, j5, j3⟩
  · intro hs hq
    cases hl : c.nodes.receivers with
    | nil => rw [hl] at h2; exact absurd (List.length_eq_zero_iff.1 h2.symm) hs
    | cons l ls =>
      refine List.mem_append_left _ (List.mem_flatten.2 ⟨l, by simp [hl], ?_⟩)
      exact ((h3 l (by simp [hl])).2 n).2 hq

end

end Cantools
