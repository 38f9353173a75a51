import Verif.Lemmas.EcuExtract
import Verif.Props.Decode

/-
C63: the messages of an ECU extract.  A document that meets the hypotheses, and what is false without
`Understood`, is in `Verif/Props/EcuExtractDoc.lean`.
-/

namespace Cantools
open Kcd (Xml)
open Spec Spec.Extract
open Extract (load load_of)

variable {root : Xml} {p q : String} {ms : List MessageContent}

/-- C63: the messages of an extract are those that the document describes: each has its name, its
identifier (of 11 or 29 bits), its length and its signals.  Missing: packages in packages; what is not
`Understood`. -/
theorem C63_messages_partial (h : Describes root [p] [q] ms) (hu : ∀ m ∈ ms, Understood q m) {strict : Bool}
    {out : List Message} (hl : load root strict .default = .ok out) :
    List.Forall₂ (fun m o => o.name = m.name ∧ o.frameId = m.frameId ∧ o.isExtendedFrame = m.extended ∧
      o.length = m.length ∧ o.signals.Perm (m.all.map fieldOf)) ms out := by
  rw [load_of h hu, ArxmlRef.mapM_forall₂] at hl
  have hg : ∀ m ∈ ms, m.groups = [] := fun m hm => (hu m hm).2.2.1
  clear h hu
  induction hl with
  | nil => exact .nil
  | @cons m o ms out ho _ ih =>
    refine .cons ?_ (ih fun m hm => hg m (List.mem_cons_of_mem _ hm))
    obtain ⟨-, -, c, -, -, rfl⟩ := create_ok_iff.1 ho
    refine ⟨rfl, rfl, rfl, rfl, ?_⟩
    have : m.all = m.signals := by simp [MessageContent.all, hg m (by simp)]
    rw [this]
    exact default_perm _

/-- C63: loading fails only because of a message that the document describes and that is not
acceptable by itself. -/
theorem C63_rejects_partial (h : Describes root [p] [q] ms) (hu : ∀ m ∈ ms, Understood q m) {strict : Bool}
    {sort : SortSignals} {e : Err} :
    load root strict sort = .error e ↔ ∃ (k : Nat) (m : MessageContent), ms[k]? = some m ∧
      Message.create m.frameId m.name m.length (m.all.map fieldOf) 0 m.extended strict sort = .error e ∧
      ∀ (j : Nat) (m' : MessageContent), j < k → ms[j]? = some m' → ∃ o,
        Message.create m'.frameId m'.name m'.length (m'.all.map fieldOf) 0 m'.extended strict sort = .ok o := by
  rw [load_of h hu]
  have hg : ∀ m ∈ ms, m.all = m.signals := fun m hm => by simp [MessageContent.all, (hu m hm).2.2.1]
  clear h hu
  induction ms with
  | nil => simp [pure, Except.pure]
  | cons m ms ih =>
    rw [List.mapM_cons]
    replace ih := ih fun m hm => hg m (List.mem_cons_of_mem _ hm)
    have hm := hg m (by simp)
    cases hc : Message.create m.frameId m.name m.length (m.signals.map fieldOf) 0 m.extended strict sort with
    | error e' =>
      constructor
      · intro he
        have he : e' = e := by cases he; rfl
        subst he
        exact ⟨0, m, rfl, by rw [hm]; exact hc, fun j _ hj => absurd hj (by omega)⟩
      · rintro ⟨k, m', hk, he, hb⟩
        cases k with
        | zero =>
          cases hk
          rw [hm, hc] at he
          cases he
          rfl
        | succ k =>
          obtain ⟨o, ho⟩ := hb 0 m (by omega) rfl
          rw [hm, hc] at ho
          cases ho
    | ok o =>
      have : ((Except.ok o : Except Err Message) >>= fun a => (ms.mapM fun m => Message.create m.frameId m.name m.length
          (m.signals.map fieldOf) 0 m.extended strict sort) >>= fun l => pure (a :: l)) = .error e ↔
          (ms.mapM fun m => Message.create m.frameId m.name m.length (m.signals.map fieldOf) 0 m.extended strict sort) = .error e := by
        cases (ms.mapM fun m => Message.create m.frameId m.name m.length (m.signals.map fieldOf) 0 m.extended strict sort) with
        | error e' => exact Iff.rfl
        | ok l =>
          constructor
          · intro h; cases h
          · intro h; cases h
      refine (this.trans ih).trans ?_
      constructor
      · rintro ⟨k, m', hk, he, hb⟩
        refine ⟨k + 1, m', hk, he, fun j m'' hj hjm => ?_⟩
        cases j with
        | zero => cases hjm; exact ⟨o, by rw [hm]; exact hc⟩
        | succ j => exact hb j m'' (by omega) hjm
      · rintro ⟨k, m', hk, he, hb⟩
        cases k with
        | zero =>
          cases hk
          rw [hm, hc] at he
          cases he
        | succ k => exact ⟨k, m', hk, he, fun j m'' hj hjm => hb (j + 1) m'' (by omega) hjm⟩

/-- C63: a document that does not have exactly one module `Com` is rejected. -/
theorem C63_module_needed {coll : Xml} {rest : List Xml} {refs : List String} (hcoll : collectionsOf root = coll :: rest)
    (hrefs : List.Forall₂ (fun x t => x.text = some t) (modulesOf coll) refs)
    (h : (refs.filter fun t => "/Com".toList <:+ t.toList).length ≠ 1) (strict : Bool) (sort : SortSignals) :
    load root strict sort = .error .valueError := Extract.load_no_module hcoll hrefs h strict sort

/-- C63: decoding a frame of a loaded message gives every signal that the document describes, with the
number in its bits, and nothing else. -/
theorem C63_decode_partial {fo : FloatOps} (h : Describes root [p] [q] ms) (hu : ∀ m ∈ ms, Understood q m)
    {out : List Message} (hl : load root true .default = .ok out) {k : Nat} {m : MessageContent} {o : Message}
    (hk : ms[k]? = some m) (ho : out[k]? = some o) (hnd : (m.all.map (·.name)).Nodup) {data : Bytes}
    (hlen : data.length = m.length) {decodeChoices scaling truncated excess : Bool} :
    ∃ r, decode fo o data decodeChoices scaling truncated excess = .ok r ∧ (r.map (·.1)).Nodup ∧
      ∀ n v, dictGet? r n = some v ↔ ∃ s ∈ m.all, s.name = n ∧ ∃ raw, RawIn fo (fieldOf s) data raw ∧ v = .num raw := by
  rw [load_of h hu, ArxmlRef.mapM_forall₂] at hl
  have hc : Message.create m.frameId m.name m.length (m.signals.map fieldOf) 0 m.extended true .default = .ok o := by
    clear h hu
    induction hl generalizing k with
    | nil => cases hk
    | cons h1 _ ih =>
      cases k with
      | zero => cases hk; cases ho; exact h1
      | succ k => exact ih hk ho
  have hm : m ∈ ms := List.mem_of_getElem? hk
  have hall : m.all = m.signals := by simp [MessageContent.all, (hu m hm).2.2.1]
  rw [hall] at hnd ⊢
  have hplain : ∀ s ∈ m.signals.map fieldOf, s.isMultiplexer = false ∧ s.multiplexerSignal = none := by
    intro s hs
    obtain ⟨c, -, rfl⟩ := List.mem_map.1 hs
    exact ⟨rfl, rfl⟩
  obtain ⟨sel, -, ⟨r, hr, -, hnodup, hv⟩ | ⟨-, hns⟩⟩ := C04_decode_reads_bits (fo := fo) (decodeChoices := decodeChoices)
    (scaling := scaling) (truncated := truncated) (excess := excess)
    (by rw [List.map_map]; exact hnd)
    (fun s hs => by
      obtain ⟨c, -, rfl⟩ := List.mem_map.1 hs
      refine ⟨1, 0, none, c.float, ?_⟩
      exact (Extract.factory_identity _).symm)
    (fun s hs _ => by
      obtain ⟨c, -, rfl⟩ := List.mem_map.1 hs
      rfl) hc hlen
  · refine ⟨r, hr, hnodup, fun n v => (hv n v).trans ?_⟩
    have hshow : ∀ (s : SignalContent) (raw : Rat), shown (fieldOf s) decodeChoices scaling raw = .num raw := by
      intro s raw
      have ht : dictGet? (table (fieldOf s)) raw.num = none := rfl
      unfold shown
      rw [ht, ite_self]
      cases scaling with
      | false => rfl
      | true =>
        show Value.num (raw * 1 + 0) = .num raw
        rw [mul_one, add_zero]
    constructor
    · rintro ⟨s, hp, hn, raw, hraw, rfl⟩
      obtain ⟨c, hc, rfl⟩ := List.mem_map.1 (Present.mem hp)
      exact ⟨c, hc, hn, raw, hraw, hshow c raw⟩
    · rintro ⟨c, hc, hn, raw, hraw, rfl⟩
      exact ⟨fieldOf c, .root _ (List.mem_map_of_mem hc) rfl, hn, raw, hraw, (hshow c raw).symm⟩
  · refine absurd ?_ hns
    intro s hs hmx
    rw [(hplain s (Present.mem hs)).1] at hmx
    cases hmx

end Cantools
