import Verif.Lemmas.Container
import Verif.Props.Example

/-
Properties of container messages: C17, C18.
-/

namespace Cantools
open Spec

/-- The input entries, the unpacked entries and the header ids they are sent with. -/
structure Sent (fo : FloatOps) (c : Container) (scaling padding : Bool)
    (i : Header × Payload) (e : Ref × Bytes) (id : Nat) : Prop where
  refers : Refers c i.1 e.1
  isRef : IsRef c id e.1
  carried : Carried fo scaling padding e.1 i.2 e.2
  id_lt : id < 2 ^ 24
  length_lt : e.2.length < 256

/-- C17, encoding: `encode` of a container message (with `strict=False`) succeeds exactly if every
entry refers to a contained message with a 24 bit header id (or is an unknown id with raw bytes) and
stands for at most 255 bytes; the result is the concatenation of headers and payloads. -/
theorem C17_container_wire (fo : FloatOps) (c : Container) (hu : Unambiguous c)
    (scaling padding : Bool) (input : List (Header × Payload)) (data : Bytes) :
    encodeContainer fo c input scaling padding false = .ok data ↔
      ∃ es : List ((Ref × Bytes) × Nat),
        List.Forall₂ (fun i e => Sent fo c scaling padding i e.1 e.2) input es ∧
        data = es.flatMap fun e => header c.headerBig e.2 e.1.2.length ++ e.1.2 := by
  unfold encodeContainer
  rw [if_neg (by decide)]
  induction input generalizing data with
  | nil =>
    simp only [encodeContainerRaw, Except.ok.injEq]
    constructor
    · rintro rfl; exact ⟨[], .nil, rfl⟩
    · rintro ⟨es, hf, rfl⟩; cases hf; rfl
  | cons i input ih =>
    obtain ⟨h, p⟩ := i
    simp only [encodeContainerRaw, Except.bind_eq_ok, Except.pure_eq_ok]
    constructor
    · rintro ⟨⟨id, b⟩, h1, w, h2, rest, h3, rfl⟩
      obtain ⟨r, hr1, hr2, hr3⟩ := (entryBytes_iff hu).1 h1
      obtain ⟨hid, hlen, rfl⟩ := wireEntry_iff.1 h2
      obtain ⟨es, hf, rfl⟩ := (ih rest).1 h3
      exact ⟨((r, b), id) :: es, .cons ⟨hr1, hr2, hr3, hid, hlen⟩ hf, by simp⟩
    · rintro ⟨es, hf, rfl⟩
      cases hf with
      | @cons _ e _ es hs hf =>
        obtain ⟨⟨r, b⟩, id⟩ := e
        refine ⟨(id, b), (entryBytes_iff hu).2 ⟨r, hs.refers, hs.isRef, hs.carried⟩, _,
          wireEntry_iff.2 ⟨hs.id_lt, hs.length_lt, rfl⟩, _, (ih _).2 ⟨es, hf, rfl⟩, by simp⟩

/-- C17: for containers with big endian headers, unpacking what `encode` returned gives the entries
in order, each with the contained message (or the header id if there is none) and its bytes, if the
frame is not longer than the container. -/
theorem C17_container_round_trip_partial (fo : FloatOps) (c : Container) (hu : Unambiguous c)
    (hbig : c.headerBig = true) {scaling padding strict : Bool} {input : List (Header × Payload)}
    {data : Bytes} (he : encodeContainer fo c input scaling padding strict = .ok data)
    (hlen : data.length ≤ c.length) (truncated : Bool) :
    ∃ es, unpackContainer c data truncated = .ok es ∧
      List.Forall₂ (fun i e => Refers c i.1 e.1 ∧ Carried fo scaling padding e.1 i.2 e.2) input es := by
  have he' : encodeContainer fo c input scaling padding false = .ok data := by
    unfold encodeContainer at he ⊢
    cases strict with
    | false => exact he
    | true =>
      simp only [if_true] at he
      split at he
      · cases he
      · exact he
  obtain ⟨es, hf, rfl⟩ := (C17_container_wire fo c hu scaling padding input data).1 he'
  refine ⟨es.map (·.1), ?_, ?_⟩
  · unfold unpackContainer
    rw [if_neg (by omega)]
    apply unpackLoop_of_consists hu
    rw [hbig]
    clear he he' hlen
    induction hf with
    | nil => exact .done (by simp)
    | @cons i e input es hs _ ih =>
      obtain ⟨⟨r, b⟩, id⟩ := e
      rw [List.flatMap_cons, List.map_cons]
      exact .entry hs.id_lt hs.length_lt hs.isRef ih
  · clear he he' hlen
    induction hf with
    | nil => exact .nil
    | cons hs _ ih => exact .cons ⟨hs.refers, hs.carried⟩ ih

/-- C17, the strict check: `encode` with `strict=True` additionally requires that every entry is raw
bytes for a header id, or refers to a contained message (with a header id) and gives as many bytes as
this message has or values `assert_signals_encodable` accepts. -/
theorem C17_strict_iff (fo : FloatOps) (c : Container) (hu : Unambiguous c)
    (scaling padding : Bool) (input : List (Header × Payload)) (data : Bytes) :
    encodeContainer fo c input scaling padding true = .ok data ↔
      encodeContainer fo c input scaling padding false = .ok data ∧
      ∀ i ∈ input, (∃ n b, i = (.id n, .raw b)) ∨
        (∀ x, i.1 = .msg x → x.headerId ≠ none) ∧ ∃ m, Refers c i.1 (.inl m) ∧
          match i.2 with
          | .raw b => b.length = m.msg.length
          | .signals d => assertSignalsEncodable m.msg d scaling true true = .ok () := by
  have hres : ∀ h m, c.resolve h = .ok (some m) ↔ Refers c h (.inl m) := by
    intro h m
    cases h with
    | id n =>
      rcases byHeaderId_iff hu (some n) with ⟨m', h1, h2, h3, h4⟩ | ⟨h1, h2⟩
      · simp only [Container.resolve, h1, Except.ok.injEq, Option.some.injEq, Refers, IsRef]
        exact ⟨fun h => h ▸ ⟨h2, h3⟩, fun h => (h4 m h.1 h.2).symm⟩
      · simp only [Container.resolve, h1, Except.ok.injEq, reduceCtorEq, Refers, IsRef, false_iff,
          not_and]
        exact fun h => h2 m h
    | name s =>
      rcases byName_iff hu s with ⟨m', h1, h2, h3, h4⟩ | ⟨h1, h2⟩
      · simp only [Container.resolve, h1, Except.ok.injEq, Option.some.injEq, Refers]
        exact ⟨fun h => h ▸ ⟨h2, h3⟩, fun h => (h4 m h.1 h.2).symm⟩
      · simp only [Container.resolve, h1, Except.ok.injEq, reduceCtorEq, Refers, false_iff, not_and]
        exact fun h => h2 m h
    | msg x =>
      rcases byHeaderId_iff hu x.headerId with ⟨m', h1, h2, h3, h4⟩ | ⟨h1, h2⟩
      · simp only [Container.resolve, h1, Except.ok.injEq, Option.some.injEq, Refers]
        exact ⟨fun h => h ▸ ⟨h2, h3⟩, fun h => (h4 m h.1 h.2).symm⟩
      · simp only [Container.resolve, h1, Except.ok.injEq, reduceCtorEq, Refers, false_iff, not_and]
        exact fun h => h2 m h
  have hentry : ∀ h p, assertEntry c h p scaling true true = .ok () ↔
      (∃ n b, (h, p) = (.id n, .raw b)) ∨
        (∀ x, h = .msg x → x.headerId ≠ none) ∧ ∃ m, Refers c h (.inl m) ∧
          match p with
          | .raw b => b.length = m.msg.length
          | .signals d => assertSignalsEncodable m.msg d scaling true true = .ok () := by
    intro h p
    unfold assertEntry
    split
    · rename_i n b
      simp only [true_iff]
      exact .inl ⟨n, b, rfl⟩
    · rename_i m p
      simp only [reduceCtorEq, false_iff]
      rintro (⟨_, _, h⟩ | ⟨h, _⟩)
      · cases h
      · exact h _ rfl rfl
    · rename_i _ _ hn2 hn1
      have h1 : ¬ ∃ n b, (h, p) = (Header.id n, Payload.raw b) := by
        rintro ⟨n, b, he⟩
        cases he; exact hn1 _ _ rfl rfl
      have h2 : ∀ x, h = .msg x → x.headerId ≠ none := by
        rintro ⟨i, m⟩ rfl hi
        simp only at hi
        subst hi
        exact hn2 m rfl
      simp only [h1, false_or]
      split
      · rename_i e he
        simp only [reduceCtorEq, false_iff]
        rintro ⟨_, m, hm, _⟩
        rw [← hres, he] at hm; cases hm
      · rename_i he
        simp only [reduceCtorEq, false_iff]
        rintro ⟨_, m, hm, _⟩
        rw [← hres, he] at hm; cases hm
      · rename_i m he
        have huniq : ∀ m', Refers c h (.inl m') ↔ m' = m := by
          intro m'
          rw [← hres, he]
          simp [eq_comm]
        have hex : ∀ P : Contained → Prop,
            ((∀ x, h = .msg x → x.headerId ≠ none) ∧ ∃ m, Refers c h (.inl m) ∧ P m) ↔ P m := by
          intro P
          constructor
          · rintro ⟨_, m', hm', hp⟩; rw [huniq] at hm'; exact hm' ▸ hp
          · intro hp; exact ⟨h2, m, (huniq m).2 rfl, hp⟩
        rw [hex]
        split
        · split <;> simp_all
        · exact Iff.rfl
  have hall : assertContainerEncodable c input scaling true true = .ok () ↔
      ∀ i ∈ input, assertEntry c i.1 i.2 scaling true true = .ok () := forM_ok
  unfold encodeContainer
  simp only [if_true]
  rw [if_neg (by decide)]
  constructor
  · intro h
    split at h
    · cases h
    · rename_i u hu'
      refine ⟨h, fun i hi => ?_⟩
      exact (hentry i.1 i.2).1 (hall.1 hu' i hi)
  · rintro ⟨h1, h2⟩
    have : assertContainerEncodable c input scaling true true = .ok () :=
      hall.2 fun i hi => (hentry i.1 i.2).2 (h2 i hi)
    rw [this]
    exact h1

/-- C18: unpacking succeeds with exactly the entries the frame consists of; what it returns
reproduces the frame up to fewer than four bytes at the end. -/
theorem C18_unpack_iff (c : Container) (hu : Unambiguous c) (data : Bytes) (truncated : Bool)
    (es : List (Ref × Bytes)) :
    unpackContainer c data truncated = .ok es ↔
      data.length ≤ c.length ∧ Consists c truncated data es := by
  unfold unpackContainer
  by_cases hl : data.length > c.length
  · rw [if_pos hl]
    constructor
    · intro h; cases h
    · rintro ⟨h, _⟩; omega
  · rw [if_neg hl]
    constructor
    · intro h
      rcases consists_of_unpackLoop hu (tr := truncated) data.length data (le_refl _) with
        ⟨es', h1, h2⟩ | ⟨h1, _⟩
      · rw [h1] at h; cases h; exact ⟨by omega, h2⟩
      · rw [h1] at h; cases h
    · rintro ⟨_, h⟩; exact unpackLoop_of_consists hu h

/-- C18: on any other byte string unpacking raises `DecodeError`; with `allow_truncated` this happens
only for frames longer than the container. -/
theorem C18_unpack_error (c : Container) (hu : Unambiguous c) (data : Bytes) (truncated : Bool)
    (e : Err) (h : unpackContainer c data truncated = .error e) :
    e = .decodeError ∧ (truncated = true → c.length < data.length) := by
  unfold unpackContainer at h
  split at h
  · cases h; exact ⟨rfl, fun _ => by assumption⟩
  · rcases consists_of_unpackLoop hu (tr := truncated) data.length data (le_refl _) with
      ⟨es', h1, h2⟩ | ⟨h1, h2⟩
    · rw [h1] at h; cases h
    · rw [h1] at h; cases h
      refine ⟨rfl, fun ht => ?_⟩
      rw [h2] at ht; cases ht

/-- C18: `decode_container` fails only if unpacking fails; the payload of each known contained
message is decoded, or handed out as it is if that fails. -/
theorem C18_decode_container (fo : FloatOps) (c : Container)
    (hs : ∀ m ∈ c.contained, Sound m.msg) (hu : Unambiguous c) (data : Bytes)
    (decodeChoices scaling truncated excess : Bool) :
    (∀ es, unpackContainer c data truncated = .ok es →
      decodeContainer fo c data decodeChoices scaling truncated excess = .ok (es.map fun e =>
        (e.1, match e.1 with
          | .inr _ => .inl e.2
          | .inl m =>
            match decode fo m.msg e.2 decodeChoices scaling truncated excess with
            | .ok d => .inr d
            | .error _ => .inl e.2))) ∧
    (∀ x, unpackContainer c data truncated = .error x →
      decodeContainer fo c data decodeChoices scaling truncated excess = .error x) := by
  constructor
  · intro es h
    have hmem : ∀ m b, (Sum.inl m, b) ∈ es → m ∈ c.contained := by
      have hc := ((C18_unpack_iff c hu data truncated es).1 h).2
      clear h
      induction hc with
      | done _ => intro m b hm; cases hm
      | @entry id r payload rest es _ _ href _ ih =>
        intro m b hm
        rcases List.mem_cons.1 hm with h | h
        · cases h; exact href.1
        · exact ih m b h
      | cut _ _ _ _ href =>
        intro m b hm
        rcases List.mem_cons.1 hm with h | h
        · cases h; exact href.1
        · cases h
    unfold decodeContainer
    rw [h]
    change es.mapM _ = _
    clear h
    induction es with
    | nil => rfl
    | cons e es ih =>
      have ih' := ih (fun m b hm => hmem m b (List.mem_cons_of_mem _ hm))
      rw [List.mapM_cons, ih', List.map_cons]
      have he : decodeEntry fo decodeChoices scaling truncated excess e = .ok
          (e.1, match e.1 with
          | .inr _ => .inl e.2
          | .inl m =>
            match decode fo m.msg e.2 decodeChoices scaling truncated excess with
            | .ok d => .inr d
            | .error _ => .inl e.2) := by
        obtain ⟨r, b⟩ := e
        unfold decodeEntry
        cases r with
        | inr id => rfl
        | inl m =>
          simp only
          obtain ⟨fid, name, len, sigs, pat, ext, h1, h2, h3, h4⟩ := hs m (hmem m b (by simp))
          cases hd : decode fo m.msg b decodeChoices scaling truncated excess with
          | ok d => rfl
          | error x =>
            have : x = .decodeError := (accepted_of_create h1 h4).1.decode_error h2 h3 hd
            subst this; rfl
      rw [he]; rfl
  · intro x h
    unfold decodeContainer
    rw [h]; rfl

/-! ### The hypotheses can be met; claims that fail -/

/-- What looking for the one element with a property finds. -/
theorem filter_unique_iff {α : Type} (l : List α) (p : α → Bool) :
    (l.filter p = [] ↔ ∀ x ∈ l, p x = false) ∧
    (∀ x, l.filter p = [x] ↔ ∃ a b, l = a ++ x :: b ∧ p x = true ∧ ∀ y ∈ a ++ b, p y = false) ∧
    (2 ≤ (l.filter p).length ↔ ∃ a b c x y, l = a ++ x :: b ++ y :: c ∧ p x = true ∧ p y = true) := by
  refine ⟨by simp, fun x => ⟨fun h => ?_, ?_⟩, fun h => ?_, ?_⟩
  · obtain ⟨a, b, rfl, ha, hx, hb⟩ := List.filter_eq_cons_iff.1 h
    refine ⟨a, b, rfl, hx, fun y hy => ?_⟩
    rcases List.mem_append.1 hy with hy | hy
    · simpa using ha y hy
    · simpa using List.filter_eq_nil_iff.1 hb y hy
  · rintro ⟨a, b, rfl, hx, h⟩
    have ha : a.filter p = [] := List.filter_eq_nil_iff.2 fun y hy => by
      simp [h y (List.mem_append_left _ hy)]
    have hb : b.filter p = [] := List.filter_eq_nil_iff.2 fun y hy => by
      simp [h y (List.mem_append_right _ hy)]
    simp [ha, hb, hx]
  · match hf : l.filter p, h with
    | x :: y :: r, _ =>
      obtain ⟨a, b, rfl, ha, hx, hb⟩ := List.filter_eq_cons_iff.1 hf
      obtain ⟨c, d, rfl, hc, hy, hd⟩ := List.filter_eq_cons_iff.1 hb
      exact ⟨a, c, d, x, y, by simp, hx, hy⟩
  · rintro ⟨a, b, c, x, y, rfl, hx, hy⟩
    simp only [List.filter_append, List.filter_cons, hx, hy, if_true, List.length_append,
      List.length_cons]
    omega

/-- C18: looking up a contained message by header id or by name gives a message only if it is the
only one with that header id or name; several are an error, never silently one of them. -/
theorem C18_lookup (c : Container) (id : Option Nat) (name : String) :
    (∀ x, c.byHeaderId id = .ok (some x) ↔
      ∃ a b, c.contained = a ++ x :: b ∧ x.headerId = id ∧ ∀ y ∈ a ++ b, y.headerId ≠ id) ∧
    (c.byHeaderId id = .ok none ↔ ∀ x ∈ c.contained, x.headerId ≠ id) ∧
    (c.byHeaderId id = .error .error ↔ ∃ a b d x y,
      c.contained = a ++ x :: b ++ y :: d ∧ x.headerId = id ∧ y.headerId = id) ∧
    (∀ x, c.byName name = .ok (some x) ↔
      ∃ a b, c.contained = a ++ x :: b ∧ x.msg.name = name ∧ ∀ y ∈ a ++ b, y.msg.name ≠ name) ∧
    (c.byName name = .ok none ↔ ∀ x ∈ c.contained, x.msg.name ≠ name) ∧
    (c.byName name = .error .error ↔ ∃ a b d x y,
      c.contained = a ++ x :: b ++ y :: d ∧ x.msg.name = name ∧ y.msg.name = name) := by
  have h1 := filter_unique_iff c.contained fun x => x.headerId == id
  have h2 := filter_unique_iff c.contained fun x => x.msg.name == name
  simp only [beq_iff_eq, beq_eq_false_iff_ne] at h1 h2
  unfold Container.byHeaderId Container.byName
  rw [← h1.1, ← h1.2.2, ← h2.1, ← h2.2.2]
  simp only [← h1.2.1, ← h2.2.1]
  clear h1 h2
  generalize c.contained.filter (fun x => x.headerId == id) = l
  generalize c.contained.filter (fun x => x.msg.name == name) = k
  refine ⟨?_, ?_, ?_, ?_, ?_, ?_⟩
  · rcases l with _ | ⟨x, _ | ⟨y, r⟩⟩ <;> simp
  · rcases l with _ | ⟨x, _ | ⟨y, r⟩⟩ <;> simp
  · rcases l with _ | ⟨x, _ | ⟨y, r⟩⟩ <;> simp
  · rcases k with _ | ⟨x, _ | ⟨y, r⟩⟩ <;> simp
  · rcases k with _ | ⟨x, _ | ⟨y, r⟩⟩ <;> simp
  · rcases k with _ | ⟨x, _ | ⟨y, r⟩⟩ <;> simp

namespace ContainerExample
open Example

def c1 : Contained := ⟨some 0x010203, msg⟩
def cont : Container := { length := 64, contained := [c1] }

theorem unambiguous : Unambiguous cont :=
  ⟨List.pairwise_singleton _ _, List.pairwise_singleton _ _⟩

theorem sound : ∀ m ∈ cont.contained, Sound m.msg := by
  intro m hm
  have : m = c1 := by simpa [cont] using hm
  subst this
  exact ⟨_, _, _, _, _, _, nodup, built, plain, msg_ok⟩

def input : List (Header × Payload) :=
  [(.name "Msg", .signals data), (.id 0xabcdef, .raw [1, 2]), (.id 0x010203, .raw [])]

def wire : Bytes :=
  [1, 2, 3, 4, 0x91, 0xa5, 0xaf, 0xc5, 0xab, 0xcd, 0xef, 2, 1, 2, 1, 2, 3, 0]

theorem wire_ok : encodeContainer fo cont input true true false = .ok wire := by decide +kernel

example := C17_container_round_trip_partial fo cont unambiguous rfl wire_ok (by decide) false
example : encodeContainer fo cont input true true true = .ok wire := by decide +kernel
example := C17_strict_iff fo cont unambiguous true true input wire
example := C18_decode_container fo cont sound unambiguous (wire ++ [9, 9]) true true false true
example := C18_unpack_iff cont unambiguous (wire ++ [9, 9]) false
/-- Two contained messages with the same header id: looking the id up is an error. -/
example : ({ length := 64, contained := [c1, c1] } : Container).byHeaderId (some 0x010203) =
    .error .error :=
  (C18_lookup _ _ "").2.2.1.2 ⟨[], [], [], c1, c1, rfl, rfl, rfl⟩
/-- An entry that claims more bytes than there are. -/
example := C18_unpack_error cont unambiguous [1, 2, 3, 4, 0] false .decodeError (by
  unfold unpackContainer unpackLoop
  rw [if_neg (by decide), if_neg (by decide)]
  exact if_pos (by decide))

end ContainerExample

/-- C17 does not hold for little endian headers: `encode` honours `header_byte_order`,
`unpack_container` does not (message.py:1030), so the entry is attributed to another header id. -/
theorem C17_little_endian_header_fails :
    ∃ (c : Container) (data : Bytes), c.headerBig = false ∧ Unambiguous c ∧
      encodeContainer Example.fo c [(.id 1, .raw [7])] true true true = .ok data ∧
      data.length ≤ c.length ∧
      unpackContainer c data false = .ok [(.inr 0x010000, [7])] := by
  refine ⟨{ length := 64, headerBig := false, contained := [] }, [1, 0, 0, 1, 7], rfl,
    ⟨.nil, .nil⟩, by decide +kernel, by decide, ?_⟩
  rw [C18_unpack_iff _ ⟨.nil, .nil⟩]
  refine ⟨by decide, ?_⟩
  exact Consists.entry (id := 0x010000) (payload := [7]) (rest := []) (by decide) (by decide)
    ⟨rfl, by simp⟩ (.done (by decide))

/-- `encode` does not check that the result fits the container. -/
theorem C17_encode_exceeds_container :
    ∃ (c : Container) (data : Bytes),
      encodeContainer Example.fo c [(.id 1, .raw [7])] true true true = .ok data ∧
      unpackContainer c data false = .error .decodeError :=
  ⟨{ length := 4, contained := [] }, [0, 0, 1, 1, 7], by decide +kernel, by
    unfold unpackContainer; rw [if_pos (by decide)]⟩

end Cantools
