import Verif.Lemmas.ArxmlProtect
import Verif.Props.EndToEnd

/-
C66: the buses of ARXML files, and the end-to-end protection of their messages.
-/

namespace Cantools
open Kcd (Xml)
open ArxmlRef (Pos Refs at? createDicts)
open ArxmlScale (FloatRead)
open ArxmlFile
open Loader (Bus Protection MessageNodes Connected)
open Spec Spec.SystemFile

section
variable {F : FloatRead} {root : Xml} {trigs : List (String × Pos)} {fuel : Nat} {strict : Bool} {sort : SortSignals}
  {ns : List String} {cs cs' : List Connected} {bs : List Bus} {ps : List ProtectedPdu}

/-- C66: a file with buses and protections is loaded if its messages are; its buses are those of the file. -/
theorem C66_loads (hreg : Regular root) (hns : NoStray root) (h : loadConnected F root fuel strict sort = .ok (ns, cs))
    (hb : Buses F root bs) (hp : Protections F root ps) :
    ∃ cs', loadProtected F root fuel strict sort = .ok (bs, ns, cs') ∧ cs'.length = cs.length := by
  have h' := h
  obtain ⟨ms, -, h'⟩ := bind_ok_iff.1 h'
  obtain ⟨r, hr, -⟩ := bind_ok_iff.1 h'
  refine ⟨_, (Cdd.bind_of_ok h).trans ((Cdd.bind_of_ok hr).trans ((Cdd.bind_of_ok (buses_ok hreg hr hns hb)).trans
    (Cdd.bind_of_ok (protections_ok hreg hr hns hp)))), ?_⟩
  rw [protect_map, List.length_map]

/-- What is known about the messages. -/
theorem protected_made (hreg : Regular root) (hns : NoStray root) (h : loadConnected F root fuel strict sort = .ok (ns, cs))
    (hp : Protections F root ps) {ns' : List String} (h' : loadProtected F root fuel strict sort = .ok (bs, ns', cs')) :
    ns' = ns ∧ cs' = cs.map fun c => (ps.map (task root)).foldl (fun c t => c.protect t) c := by
  obtain ⟨⟨n, ms⟩, h1, h'⟩ := bind_ok_iff.1 h'
  obtain ⟨r, hr, h'⟩ := bind_ok_iff.1 h'
  obtain ⟨b, -, h'⟩ := bind_ok_iff.1 h'
  obtain ⟨ts, h2, h'⟩ := bind_ok_iff.1 h'
  rw [h] at h1
  obtain ⟨rfl, rfl⟩ := Prod.mk.inj (Except.ok.inj h1)
  rw [protections_ok hreg hr hns hp] at h2
  obtain rfl := Except.ok.inj h2
  obtain ⟨rfl, k⟩ := Prod.mk.inj (Except.ok.inj h')
  obtain ⟨rfl, rfl⟩ := Prod.mk.inj k
  exact ⟨rfl, protect_map _ _⟩

/-- There is a message with nodes for each message, and one for each message in it. -/
theorem connected_parts (hreg : Regular root) (hns : NoStray root) (ht : Triggerings root trigs)
    (h : loadConnected F root fuel strict sort = .ok (ns, cs)) {k : Nat} {c : Connected} (hc : cs[k]? = some c) :
    ∃ r trig fp, createDicts root = .ok r ∧ trigs[k]? = some trig ∧ (Loader.mk root r F).framePaths fuel trig.2 = .ok fp ∧
      c.nodes.paths = fp.paths ∧ c.parts.map (·.paths) = fp.parts ∧ c.loaded.contained.length = c.parts.length := by
  obtain ⟨r, talks, hr, -, -, -, h2⟩ := connected_made hreg hns ht h
  have hk : k < trigs.length := h2.length_eq ▸ (List.getElem?_eq_some_iff.1 hc).1
  obtain ⟨fp, h3, hlen, e⟩ := forall₂_at h2 (List.getElem?_eq_getElem hk) hc
  rw [connected_all] at e
  have paths : ∀ (m : Message) (l : List (Option Regex.Chars)),
      (talks.foldl (fun m t => m.hear t) (Loader.newNodes m l)).paths = l := by
    intro m l
    refine (hear_all talks _ List.nodup_nil ?_).1
    intro l hl
    obtain ⟨_, -, rfl⟩ := List.mem_map.1 hl
    exact List.nodup_nil
  have e1 : c.nodes = talks.foldl (fun m t => m.hear t) (Loader.newNodes c.loaded.message fp.paths) := congrArg Connected.nodes e
  have e2 : c.parts = (List.zipWith (fun (q : Loader.Part) paths => Loader.newNodes q.message paths) c.loaded.contained fp.parts).map
      fun p => talks.foldl (fun m t => m.hear t) p := congrArg Connected.parts e
  refine ⟨r, _, fp, hr, List.getElem?_eq_getElem hk, h3, ?_, ?_, ?_⟩
  · rw [e1, paths]
  · rw [e2, List.map_map, List.map_zipWith]
    have : (fun (q : Loader.Part) l => ((fun d : MessageNodes => d.paths) ∘ fun p => talks.foldl (fun m t => m.hear t) p)
        (Loader.newNodes q.message l)) = fun _ l => l := by
      funext q l
      exact paths _ _
    rw [this]
    clear this e1 e2 e h3
    have : ∀ {α β : Type} {l : List α} {k : List β}, l.length = k.length → List.zipWith (fun _ b => b) l k = k := by
      intro α β l
      induction l with
      | nil =>
        intro k h
        rw [List.length_eq_zero_iff.1 h.symm]
        rfl
      | cons a l ih =>
        intro k h
        cases k with
        | nil => cases h
        | cons b k => rw [List.zipWith_cons_cons, ih (by simpa using h)]
    exact this hlen
  · rw [e2, List.length_map, List.length_zipWith]
    omega

/-- C66: protections change nothing but the end-to-end properties. -/
theorem C66_rest (hreg : Regular root) (hns : NoStray root) (ht : Triggerings root trigs)
    (h : loadConnected F root fuel strict sort = .ok (ns, cs)) (hp : Protections F root ps) {ns' : List String}
    (h' : loadProtected F root fuel strict sort = .ok (bs, ns', cs')) :
    ns' = ns ∧ cs'.length = cs.length ∧ ∀ {k : Nat} {c c' : Connected}, cs[k]? = some c → cs'[k]? = some c' →
      c'.nodes = c.nodes ∧ c'.parts = c.parts ∧
      { c'.loaded with e2e := none, contained := [] } = { c.loaded with e2e := none, contained := [] } ∧
      (c'.loaded.contained.map fun q => { q with e2e := none }) = c.loaded.contained.map fun q => { q with e2e := none } := by
  obtain ⟨e1, rfl⟩ := protected_made hreg hns h hp h'
  refine ⟨e1, List.length_map _, fun {k c c'} hc hc' => ?_⟩
  rw [List.getElem?_map, hc] at hc'
  obtain rfl := Option.some.inj hc'
  obtain ⟨r, trig, fp, -, -, -, -, -, hlen⟩ := connected_parts hreg hns ht h hc
  beta_reduce
  rw [protect_all _ _ hlen]
  refine ⟨rfl, rfl, rfl, ?_⟩
  rw [List.map_zipWith]
  have : (fun (q : Loader.Part) (d : MessageNodes) => { partAfter (ps.map (task root)) q d with e2e := none }) =
      fun q _ => { q with e2e := none } := rfl
  rw [this]
  have key : ∀ {l : List Loader.Part} {k : List MessageNodes}, l.length = k.length →
      List.zipWith (fun (q : Loader.Part) (_ : MessageNodes) => ({ q with e2e := none } : Loader.Part)) l k =
        l.map fun q => { q with e2e := none } := by
    intro l
    induction l with
    | nil => intro k _; simp
    | cons a l ih =>
      intro k h
      cases k with
      | nil => cases h
      | cons b k => rw [List.zipWith_cons_cons, ih (by simpa using h), List.map_cons]
  exact key hlen

/-- C66: a message that is no container has the properties of the last protection of its PDU or of a part of it; without such a
protection it keeps those of the signal groups of its PDU (C54). -/
theorem C66_messages (hreg : Regular root) (hns : NoStray root) (he : EcusRegular root) (ht : Triggerings root trigs)
    (h : loadConnected F root fuel strict sort = .ok (ns, cs)) (hp : Protections F root ps) {ns' : List String}
    (h' : loadProtected F root fuel strict sort = .ok (bs, ns', cs')) {k : Nat} {trig : String × Pos} {c c' : Connected}
    (hk : trigs[k]? = some trig) (hc : cs[k]? = some c) (hc' : cs'[k]? = some c') {p : Pos} (hpdu : PduOf root trig.2 (some p))
    (hone : c.loaded.contained = []) {o : Option ProtectedPdu} (ho : LastFor root p ps o) :
    c'.loaded.e2e = (o.map fun x => x.properties c.loaded.message.length c.loaded.secoc).or c.loaded.e2e := by
  obtain ⟨-, rfl⟩ := protected_made hreg hns h hp h'
  rw [List.getElem?_map, hc] at hc'
  obtain rfl := Option.some.inj hc'
  obtain ⟨r, trig', fp, hr, hk', h1, h2, -, hlen⟩ := connected_parts hreg hns ht h hc
  rw [hk] at hk'
  obtain rfl := Option.some.inj hk'
  obtain ⟨h5, h6, -⟩ := (framePaths_says hreg hr hns he h1).2 hpdu
  beta_reduce
  rw [protect_all _ _ hlen]
  dsimp only
  rw [if_pos (by rw [hone]; rfl), h2]
  exact apply_all hreg hr hns he hp h5 h6 ho _ _ _

/-- C66: containers are not protected, and neither are messages without a PDU. -/
theorem C66_others (hreg : Regular root) (hns : NoStray root) (he : EcusRegular root) (ht : Triggerings root trigs)
    (h : loadConnected F root fuel strict sort = .ok (ns, cs)) (hp : Protections F root ps) {ns' : List String}
    (h' : loadProtected F root fuel strict sort = .ok (bs, ns', cs')) {k : Nat} {trig : String × Pos} {c c' : Connected}
    (hk : trigs[k]? = some trig) (hc : cs[k]? = some c) (hc' : cs'[k]? = some c')
    (hother : PduOf root trig.2 none ∨ c.loaded.contained ≠ []) : c'.loaded.e2e = c.loaded.e2e := by
  obtain ⟨-, rfl⟩ := protected_made hreg hns h hp h'
  rw [List.getElem?_map, hc] at hc'
  obtain rfl := Option.some.inj hc'
  obtain ⟨r, trig', fp, hr, hk', h1, h2, -, hlen⟩ := connected_parts hreg hns ht h hc
  rw [hk] at hk'
  obtain rfl := Option.some.inj hk'
  beta_reduce
  rw [protect_all _ _ hlen]
  dsimp only
  rcases hother with hn | hn
  · split
    · rw [h2, (framePaths_says hreg hr hns he h1).1 hn]
      exact apply_other fun t _ => List.not_mem_nil
    · rfl
  · rw [if_neg (by simpa using hn)]

/-- C66: the same as `C66_messages`, for the messages in a container. -/
theorem C66_parts (hreg : Regular root) (hns : NoStray root) (he : EcusRegular root) (ht : Triggerings root trigs)
    (h : loadConnected F root fuel strict sort = .ok (ns, cs)) (hp : Protections F root ps) {ns' : List String}
    (h' : loadProtected F root fuel strict sort = .ok (bs, ns', cs')) {k : Nat} {trig : String × Pos} {c c' : Connected}
    (hk : trigs[k]? = some trig) (hc : cs[k]? = some c) (hc' : cs'[k]? = some c') {p : Pos} (hpdu : PduOf root trig.2 (some p))
    (htag : HasTag root p "CONTAINER-I-PDU") (hh : TextAt root p [elem "HEADER-TYPE"] "SHORT-HEADER")
    {qs : List Pos} (hqs : Locate root containedPdus [p] qs) {j : Nat} {q : Pos} {d d' : Loader.Part} (hq : qs[j]? = some q)
    (hd : c.loaded.contained[j]? = some d) (hd' : c'.loaded.contained[j]? = some d') {o : Option ProtectedPdu}
    (ho : LastFor root q ps o) :
    d'.e2e = (o.map fun x => x.properties d.message.length d.secoc).or d.e2e := by
  obtain ⟨-, rfl⟩ := protected_made hreg hns h hp h'
  rw [List.getElem?_map, hc] at hc'
  obtain rfl := Option.some.inj hc'
  obtain ⟨r, trig', fp, hr, hk', h1, h2, h3, hlen⟩ := connected_parts hreg hns ht h hc
  rw [hk] at hk'
  obtain rfl := Option.some.inj hk'
  obtain ⟨h5, -, h6⟩ := (framePaths_says hreg hr hns he h1).2 hpdu
  beta_reduce at hd'
  rw [protect_all _ _ hlen] at hd'
  dsimp only at hd'
  rw [List.getElem?_zipWith_eq_some] at hd'
  obtain ⟨d0, m, k1, k2, rfl⟩ := hd'
  rw [hd] at k1
  obtain rfl := Option.some.inj k1
  have k3 : fp.parts[j]? = some m.paths := by
    rw [← h3, List.getElem?_map, k2]
    rfl
  exact apply_all hreg hr hns he hp (partOf_named hreg hr hns he h5 (.single (.contained htag hh hqs (List.mem_of_getElem? hq))))
    (forall₂_at (h6 htag hh hqs) hq k3) ho _ _ _

/-- The bus of each triggering is one of the buses. -/
theorem trigger_bus (hreg : Regular root) (hns : NoStray root) (ht : Triggerings root trigs) (hb : Buses F root bs) {n : String}
    {p : Pos} (h : (n, p) ∈ trigs) {r : Refs} (hr : createDicts root = .ok r) : ∃ b ∈ bs, b.name = n := by
  obtain ⟨qs, parts, h1, h2, rfl⟩ := ht
  obtain ⟨qs', parts', h1', h2', rfl⟩ := hb
  rw [← packages_ok h1] at h2
  rw [← packages_ok h1'] at h2'
  obtain ⟨part, hpart, h⟩ := List.mem_flatten.1 h
  obtain ⟨q, hq, cls, ls, h3, h4, rfl⟩ := forall₂_mem_right h2 hpart
  obtain ⟨part', hpart', cls', os, h3', h4', rfl⟩ := forall₂_left h2' hq
  obtain rfl := locate_unique hreg hr hns F (strs := ["ELEMENTS", "*&CAN-CLUSTER"]) (by decide +kernel) h3' h3
  obtain ⟨l, hl, h⟩ := List.mem_flatten.1 h
  obtain ⟨c, hc, bus, ts, h5, h6, rfl⟩ := forall₂_mem_right h4 hl
  obtain ⟨t, ht, e⟩ := List.mem_map.1 h
  obtain ⟨rfl, rfl⟩ := Prod.mk.inj e
  obtain ⟨o, ho, h7⟩ := forall₂_left h4' hc
  have name : ∀ {n : String}, TextAt root c [elem "SHORT-NAME"] n → n = bus := by
    intro n hn
    have a := (childText_iff (F := F) (strs := ["SHORT-NAME"]) hreg hr hns (by decide +kernel)).2 hn
    rw [(childText_iff (F := F) (strs := ["SHORT-NAME"]) hreg hr hns (by decide +kernel)).2 h5] at a
    exact (Except.ok.inj a).symm
  cases h7 with
  | missing hn hv =>
    exfalso
    obtain ⟨ms, g1, g2⟩ := locate_append (as := [elem "CAN-CLUSTER-VARIANTS", refs "CAN-CLUSTER-CONDITIONAL"]) h6
    obtain ⟨vs, g3, g4⟩ := locate_append (as := [elem "CAN-CLUSTER-VARIANTS"]) g1
    obtain ⟨vs', g5, g6⟩ := locate_append (as := [elem "CAN-CLUSTER-VARIANTS"]) hv
    obtain rfl := locate_unique hreg hr hns F (strs := ["CAN-CLUSTER-VARIANTS"]) (by decide +kernel) g3 g5
    have hms : ms = [] := locate_nothing hns (t := "CAN-CLUSTER-CONDITIONAL") (by decide +kernel) g6 g4
    rw [hms] at g2
    rw [locate_none g2] at ht
    cases ht
  | @bus b v vs w hn =>
    exact ⟨b, List.mem_flatten.2 ⟨_, hpart', List.mem_filterMap.2 ⟨some b, ho, rfl⟩⟩, name hn⟩

/-- The bus of a message is that of its triggering. -/
theorem bus_of (hreg : Regular root) (hns : NoStray root) (ht : Triggerings root trigs) {ls : List Loader.Loaded}
    (h : loadDatabase F root fuel strict sort = .ok ls) : List.Forall₂ (fun (t : String × Pos) l => l.bus = t.1) trigs ls := by
  obtain ⟨ms, k1, k⟩ := bind_ok_iff.1 h
  obtain ⟨r', -, k⟩ := bind_ok_iff.1 k
  obtain ⟨big, -, k⟩ := bind_ok_iff.1 k
  obtain rfl := Except.ok.inj k
  obtain ⟨r, hr, k5⟩ := bind_ok_iff.1 k1
  obtain ⟨fs, k4, k6⟩ := bind_ok_iff.1 k5
  have hpk : kids root "AR-PACKAGES" ≠ [] := by
    intro e
    unfold Loader.loadFrames at k4
    dsimp only at k4
    rw [Cdd.find_kids, e] at k4
    cases k4
  rw [frames_ok hreg hr hns hpk ht] at k4
  have k7 : List.Forall₂ (fun f l => l.bus = f.bus) fs (ms.map (Loader.setOrder big)) := by
    refine List.forall₂_map_right_iff.2 ((ArxmlRef.mapM_forall₂.1 k6).imp fun f l hl => ?_)
    have e1 : (Loader.setOrder big l).bus = l.bus := by
      unfold Loader.setOrder
      split <;> rfl
    rw [e1]
    obtain ⟨parts, -, hl⟩ := bind_ok_iff.1 hl
    split at hl
    · obtain ⟨m, -, hl⟩ := bind_ok_iff.1 hl
      obtain rfl := Except.ok.inj hl
      rfl
    · cases hl
  have k8 : List.Forall₂ (fun (t : String × Pos) (f : Loader.FrameInfo) => f.bus = t.1) trigs fs := by
    refine (ArxmlRef.mapM_forall₂.1 k4).imp fun t f h => ?_
    obtain ⟨o, -, h⟩ := bind_ok_iff.1 h
    cases o with
    | none => cases h
    | some frame =>
      obtain ⟨_, -, h⟩ := bind_ok_iff.1 h
      obtain ⟨_, -, h⟩ := bind_ok_iff.1 h
      obtain ⟨_, -, h⟩ := bind_ok_iff.1 h
      obtain ⟨_, -, h⟩ := bind_ok_iff.1 h
      obtain ⟨_, -, h⟩ := bind_ok_iff.1 h
      obtain ⟨_, -, h⟩ := bind_ok_iff.1 h
      obtain ⟨o, -, h⟩ := bind_ok_iff.1 h
      cases o with
      | none =>
        obtain rfl := Except.ok.inj h
        rfl
      | some pdu =>
        obtain ⟨_, -, h⟩ := bind_ok_iff.1 h
        obtain ⟨⟨_, _⟩, -, h⟩ := bind_ok_iff.1 h
        obtain ⟨⟨_, _⟩, -, h⟩ := bind_ok_iff.1 h
        obtain ⟨_, -, h⟩ := bind_ok_iff.1 h
        obtain ⟨_, -, h⟩ := bind_ok_iff.1 h
        obtain rfl := Except.ok.inj h
        rfl
  clear k5 k1 ht h k6 k4
  generalize ms.map (Loader.setOrder big) = ls at k7
  induction k8 generalizing ls with
  | nil => cases k7; exact .nil
  | cons h _ ih =>
    cases k7 with
    | cons h' k7 => exact .cons (h'.trans h) (ih _ k7)

/-- C66: the bus of each message is one of the buses. -/
theorem C66_known (hreg : Regular root) (hns : NoStray root) (ht : Triggerings root trigs) (hb : Buses F root bs)
    (hp : Protections F root ps) {bs' : List Bus} (h' : loadProtected F root fuel strict sort = .ok (bs', ns, cs')) :
    bs' = bs ∧ ∀ c ∈ cs', ∃ b ∈ bs', b.name = c.loaded.bus := by
  have h := h'
  obtain ⟨⟨n, cs⟩, h, k⟩ := bind_ok_iff.1 h
  obtain ⟨r, hr, -⟩ := bind_ok_iff.1 k
  obtain ⟨cs'', k1, -⟩ := C66_loads hreg hns h hb hp
  rw [h'] at k1
  obtain ⟨rfl, k3⟩ := Prod.mk.inj (Except.ok.inj k1)
  obtain ⟨rfl, -⟩ := Prod.mk.inj k3
  refine ⟨rfl, fun c' hc' => ?_⟩
  obtain ⟨k, hk'⟩ := List.getElem?_of_mem hc'
  obtain ⟨-, hlen, hrest⟩ := C66_rest hreg hns ht h hp h'
  have hk : k < cs.length := hlen ▸ (List.getElem?_eq_some_iff.1 hk').1
  have hc := List.getElem?_eq_getElem hk
  have hbus : c'.loaded.bus = cs[k].loaded.bus := (Loader.Loaded.mk.inj (hrest hc hk').2.2.1).1
  obtain ⟨k2, -⟩ := C62_messages hreg hns ht h
  obtain ⟨t, htm, e⟩ := forall₂_mem_right (bus_of hreg hns ht k2) (List.mem_map.2 ⟨_, List.mem_of_getElem? hc, rfl⟩)
  obtain ⟨b, hbm, hbn⟩ := trigger_bus hreg hns ht hb (n := t.1) (p := t.2) htm hr
  exact ⟨b, hbm, by rw [hbn, hbus, e]⟩

/-- C66: a message of profile 5 whose PDU has a protection with one data id is protected with this data id: a payload of the
length of the message gets the checksum for it, and the checksum is then accepted. -/
theorem C66_profile5 (hreg : Regular root) (hns : NoStray root) (he : EcusRegular root) (ht : Triggerings root trigs)
    (h : loadConnected F root fuel strict sort = .ok (ns, cs)) (hp : Protections F root ps) {ns' : List String}
    (h' : loadProtected F root fuel strict sort = .ok (bs, ns', cs')) {k : Nat} {trig : String × Pos} {c c' : Connected}
    (hk : trigs[k]? = some trig) (hc : cs[k]? = some c) (hc' : cs'[k]? = some c') {p : Pos} (hpdu : PduOf root trig.2 (some p))
    (hone : c.loaded.contained = []) {x : ProtectedPdu} (ho : LastFor root p ps (some x)) {i : Nat} (hi : x.dataIds = [(i : Int)])
    {payload : Bytes} (hlen : payload.length = (c.loaded.secoc.map (·.payloadLength)).getD c.loaded.message.length)
    (h4 : 4 ≤ payload.length) :
    ∃ out, applyProfile5 payload (.dataId i) = some out ∧
      applyProfile5 payload (.msg (c'.loaded.e2e.map Loader.EndToEnd.asE2E)) = some out ∧
      checkProfile5 out (.msg (c'.loaded.e2e.map Loader.EndToEnd.asE2E)) = some true := by
  have e := C66_messages hreg hns he ht h hp h' hk hc hc' hpdu hone ho
  have hmsg : ∀ q : Bytes, q.length = payload.length →
      computeProfile5 q (.msg (c'.loaded.e2e.map Loader.EndToEnd.asE2E)) = computeProfile5 q (.dataId i) := by
    intro q hq
    rw [e]
    unfold computeProfile5 protection
    simp only [Option.map_some, Option.some_or, ProtectedPdu.properties, Loader.EndToEnd.asE2E, hi, List.map_cons, List.map_nil,
      Int.toNat_natCast, List.length_cons, List.length_nil, if_true, hq, ← hlen]
  have happ : applyProfile5 payload (.msg (c'.loaded.e2e.map Loader.EndToEnd.asE2E)) = applyProfile5 payload (.dataId i) := by
    unfold applyProfile5
    rw [hmsg payload rfl]
  cases hout : applyProfile5 payload (.dataId i) with
  | none =>
    rcases ((C23_profile5_applicable payload (.dataId i)).1).1 hout with h | ⟨e, h, -⟩
    · omega
    · cases h
  | some out => exact ⟨out, rfl, happ.trans hout, C23_profile5_apply_check (happ.trans hout)⟩

end

end Cantools
