import Verif.Lemmas.Kcd
import Verif.Lemmas.DbcNames
import Verif.Lemmas.LayoutSign

/-
C42: what a database means survives being dumped to a KCD file and loaded again.
-/

namespace Cantools
open Spec Kcd

/-! ### What is kept of a signal -/

theorem baseConv_factory_scale (s o : Rat) (f : Bool) : (BaseConv.factory s o f).scale = s := by
  unfold BaseConv.factory
  split
  · rename_i h; exact h.1.symm
  · split
    · rename_i h; exact Rat.ext rfl h.1.symm
    · rfl

theorem baseConv_factory_offset (s o : Rat) (f : Bool) : (BaseConv.factory s o f).offset = o := by
  unfold BaseConv.factory
  split
  · rename_i h; exact h.2.symm
  · split
    · rename_i h; exact Rat.ext rfl h.2.1.symm
    · rfl

theorem baseConv_factory_isFloat (s o : Rat) (f : Bool) : (BaseConv.factory s o f).isFloat = f := by
  unfold BaseConv.factory
  split
  · rfl
  · split
    · rename_i h; exact h.2.2.symm
    · rfl

theorem factory_fields (s o : Rat) (c : Option Choices) (f : Bool) :
    (Conversion.factory s o c f).scale = s ∧ (Conversion.factory s o c f).offset = o ∧
    (Conversion.factory s o c f).choices = c ∧ (Conversion.factory s o c f).isFloat = f := by
  cases c with
  | none => exact ⟨baseConv_factory_scale s o f, baseConv_factory_offset s o f, rfl,
      baseConv_factory_isFloat s o f⟩
  | some c => exact ⟨rfl, rfl, rfl, baseConv_factory_isFloat s o f⟩

theorem _root_.Cantools.Spec.Expressible.meaningful {k : KSignal} (h : Expressible k) : Meaningful k := ⟨h.1, h.2.2.1⟩

/-- Apart from the sign of floats the encoder sees the same signal. -/
theorem keptSignal_sameSign {k : KSignal} (h : Meaningful k) : SameSign k.core (keptSignal k).core := by
  obtain ⟨⟨s, o, c, f, hc⟩, h3⟩ := h
  obtain ⟨core, unit, comment, receivers⟩ := k
  simp only at hc h3
  obtain ⟨e1, e2, e3, e4⟩ := factory_fields s o c f
  have hk : keptChoices core.conversion.choices = core.conversion.choices := by
    cases hcs : core.conversion.choices with
    | none => rfl
    | some cs =>
      obtain ⟨g1, g2⟩ := h3 cs hcs
      cases cs with
      | nil => exact absurd rfl g1
      | cons e r =>
        show some _ = some _
        congr 1
        conv_rhs => rw [← List.map_id (e :: r)]
        apply List.map_congr_left
        intro x hx
        exact Prod.ext rfl (g2 x hx).symm
  have hconv : Conversion.factory core.conversion.scale core.conversion.offset
      core.conversion.choices core.conversion.isFloat = core.conversion := by
    rw [hc, e1, e2, e3, e4]
  unfold keptSignal
  refine ⟨?_, fun hf => ?_⟩
  · dsimp only
    rw [hk, hconv]
  · dsimp only at hf ⊢
    rw [hf, Bool.not_false, Bool.and_true]

theorem keptSignal_eq {k : KSignal} (h : Expressible k) : keptSignal k = k := by
  obtain ⟨⟨s, o, c, f, hc⟩, h2, h3, h4⟩ := h
  obtain ⟨core, unit, comment, receivers⟩ := k
  simp only at hc h2 h3 h4
  obtain ⟨e1, e2, e3, e4⟩ := factory_fields s o c f
  have hk : keptChoices core.conversion.choices = core.conversion.choices := by
    cases hcs : core.conversion.choices with
    | none => rfl
    | some cs =>
      obtain ⟨g1, g2⟩ := h3 cs hcs
      cases cs with
      | nil => exact absurd rfl g1
      | cons e r =>
        show some _ = some _
        congr 1
        conv_rhs => rw [← List.map_id (e :: r)]
        apply List.map_congr_left
        intro x hx
        exact Prod.ext rfl (g2 x hx).symm
  have hs : (core.isSigned && !core.conversion.isFloat) = core.isSigned := by
    cases hf : core.conversion.isFloat with
    | false => simp
    | true => simp [h2 hf]
  have hconv : Conversion.factory core.conversion.scale core.conversion.offset
      core.conversion.choices core.conversion.isFloat = core.conversion := by
    rw [hc, e1, e2, e3, e4]
  unfold keptSignal
  simp only [hk, hs, hconv]
  rw [if_neg h4]

/-! ### The round trip -/

section
variable {T : NumText} {sort : List KSignal → List KSignal} {db : KDatabase}

/-- C42, for every signal there is (multiplexed or not): dumping it and loading it again gives the
name, start bit, length, byte order, scale, offset, limits, unit, receivers, whether it is a float,
and, for integers, the sign. -/
theorem C42_signal_survives (hT : T.Faithful) {nodes : List String} {k : KSignal}
    (hw : Writable nodes k) :
    ∃ x k', dumpPlainSignal T (nodeRefs nodes) k = .ok x ∧
      loadSignal T ((dumpNodes nodes).map (·.attrs)) x.reparse = .ok k' ∧
      k'.core.name = k.core.name ∧ k'.core.start = k.core.start ∧
      k'.core.length = k.core.length ∧ k'.core.byteOrder = k.core.byteOrder ∧
      k'.core.conversion.scale = k.core.conversion.scale ∧
      k'.core.conversion.offset = k.core.conversion.offset ∧
      k'.core.conversion.isFloat = k.core.conversion.isFloat ∧
      k'.core.minimum = k.core.minimum ∧ k'.core.maximum = k.core.maximum ∧
      k'.unit = k.unit ∧ k'.receivers = k.receivers ∧
      (k.core.conversion.isFloat = false → k'.core.isSigned = k.core.isSigned) := by
  obtain ⟨x, h1, -, h2⟩ := dumpPlainSignal_ok hT hw
  obtain ⟨e1, e2, e3, e4⟩ := factory_fields k.core.conversion.scale k.core.conversion.offset
    (keptChoices k.core.conversion.choices) k.core.conversion.isFloat
  exact ⟨x, _, h1, h2, rfl, rfl, rfl, rfl, e1, e2, e4, rfl, rfl, rfl, rfl,
    fun h => by simp [bare, keptSignal, h]⟩

/-- C42: if every multiplexed signal of a database has one multiplexer id and no multiplexer is
itself multiplexed, if receivers and senders are nodes of the database and all signals can be
expressed in the format, then the database can be dumped and the result be loaded, and every message
that comes back has the attributes and exactly the signals of the original one, except for the
pattern of unused bits, which is 0xff, and an empty comment, which is none.
Missing for the full property: other kinds of multiplexing, which do not survive
(`C42_several_ids_lost`, `C42_nested_multiplexer_rejected`). -/
theorem C42_database_survives_partial (hT : T.Faithful)
    (hsort : ∀ m ∈ db.messages, (sort m.signals).Perm m.signals)
    (hflat : ∀ m ∈ db.messages, Flat m.signals)
    (hw : ∀ m ∈ db.messages, ∀ k ∈ m.signals, Writable db.nodes k ∧ Expressible k)
    (hs : ∀ m ∈ db.messages, ∀ s ∈ m.senders, ∃ n ∈ db.nodes, s = some n) :
    ∃ x db', dump T sort db = .ok x ∧ load T x.reparse = .ok db' ∧
      db'.version = some (db.version.getD "") ∧ db'.nodes = db.nodes ∧
      List.Forall₂ (fun m m' => m'.signals.Perm m.signals ∧
        m' = { m with
          unusedBitPattern := 0xff
          comment := if m.comment = some "" then none else m.comment
          signals := m'.signals }) db.messages db'.messages := by
  obtain ⟨x, db', h1, h2, h3, h4, h5⟩ := load_dump hT hsort hflat (fun m hm k hk => (hw m hm k hk).1) hs
  refine ⟨x, db', h1, h2, h3, h4, ?_⟩
  have hmap : ∀ m ∈ db.messages, m.signals.map keptSignal = m.signals := by
    intro m hm
    conv_rhs => rw [← List.map_id m.signals]
    exact List.map_congr_left fun k hk => keptSignal_eq (hw m hm k hk).2
  generalize db.messages = l at h5 hmap
  generalize db'.messages = l' at h5
  induction h5 with
  | nil => exact .nil
  | cons a b ih =>
    refine .cons ?_ (ih fun m hm => hmap m (List.mem_cons_of_mem _ hm))
    obtain ⟨signals, hp, rfl⟩ := a
    rw [hmap _ (List.mem_cons_self ..)] at hp
    exact ⟨hp, rfl⟩

/-- C42: the messages that come back treat frames as the original ones do: they are accepted by the
strict check, decode every frame to the same values, and encode all data to the same frame, without
padding or if the original message pads with ones. -/
theorem C42_frames_survive_partial {fo : FloatOps} (hT : T.Faithful)
    (hsort : ∀ m ∈ db.messages, (sort m.signals).Perm m.signals)
    (hflat : ∀ m ∈ db.messages, Flat m.signals)
    (hw : ∀ m ∈ db.messages, ∀ k ∈ m.signals, Writable db.nodes k ∧ Meaningful k)
    (hs : ∀ m ∈ db.messages, ∀ s ∈ m.senders, ∃ n ∈ db.nodes, s = some n)
    (hpt : ∀ m ∈ db.messages, ∀ k ∈ m.signals,
      k.core.conversion.isFloat = true → k.core.conversion.choices = none) :
    ∃ x db', dump T sort db = .ok x ∧ load T x.reparse = .ok db' ∧
      List.Forall₂ (fun m m' => (m'.frameId = m.frameId ∧ m'.isExtendedFrame = m.isExtendedFrame ∧ m'.name = m.name ∧
          m'.length = m.length) ∧ ∀ msg, m.create = .ok msg → ∃ msg', m'.create = .ok msg' ∧
        (∀ data scaling padding strict payload, (padding = true → m.unusedBitPattern = 0xff) →
          (encode fo msg data scaling padding strict = .ok payload ↔
            encode fo msg' data scaling padding strict = .ok payload)) ∧
        ∀ data decodeChoices scaling truncated excess,
          (decode fo msg data decodeChoices scaling truncated excess = .error .decodeError ∧
            decode fo msg' data decodeChoices scaling truncated excess = .error .decodeError) ∨
          ∃ r r', decode fo msg data decodeChoices scaling truncated excess = .ok r ∧
            decode fo msg' data decodeChoices scaling truncated excess = .ok r' ∧ r'.Perm r)
        db.messages db'.messages := by
  obtain ⟨x, db', h1, h2, -, -, h5⟩ := load_dump hT hsort hflat (fun m hm k hk => (hw m hm k hk).1) hs
  refine ⟨x, db', h1, h2, ?_⟩
  generalize db.messages = l at h5 hflat hw hpt
  generalize db'.messages = l' at h5
  clear hsort hs
  induction h5 with
  | nil => exact .nil
  | cons a b ih =>
    refine .cons ?_ (ih (fun m hm => hflat m (List.mem_cons_of_mem _ hm))
      (fun m hm => hw m (List.mem_cons_of_mem _ hm)) fun m hm => hpt m (List.mem_cons_of_mem _ hm))
    rename_i m m' _ _
    have hflat := hflat m (List.mem_cons_self ..)
    have hw := hw m (List.mem_cons_self ..)
    have hpt := hpt m (List.mem_cons_self ..)
    clear ih b
    obtain ⟨signals, hp, rfl⟩ := a
    refine ⟨⟨rfl, rfl, rfl, rfl⟩, fun msg hmsg => ?_⟩
    have hsign : List.Forall₂ SameSign (m.signals.map (·.core)) ((m.signals.map keptSignal).map (·.core)) := by
      rw [List.map_map, List.forall₂_map_left_iff, List.forall₂_map_right_iff, List.forall₂_same]
      exact fun k hk => keptSignal_sameSign (hw k hk).2
    have hperm : (signals.map (·.core)).Perm ((m.signals.map keptSignal).map (·.core)) := hp.map _
    have hnd : ((m.signals.map (·.core)).map (·.name)).Nodup := by
      rw [List.map_map]; exact hflat.names
    have hb : ∀ s ∈ m.signals.map (·.core), Built s.conversion := by
      intro s hs
      obtain ⟨k, hk, rfl⟩ := List.mem_map.1 hs
      exact (hw k hk).2.1
    have hpt' : ∀ s ∈ m.signals.map (·.core), s.conversion.isFloat = true →
        s.conversion.choices = none := by
      intro s hs
      obtain ⟨k, hk, rfl⟩ := List.mem_map.1 hs
      exact hpt k hk
    have hmid : ∃ k, Message.create m.frameId m.name m.length ((m.signals.map keptSignal).map (·.core)) 0xff
        m.isExtendedFrame true .default = .ok k := by
      obtain ⟨c1, c2, c3⟩ := (C05_strict_check_iff hnd (default_perm _)).1.1 ⟨msg, hmsg⟩
      rw [(C05_strict_check_iff (by rw [Dbc.forall₂_map_eq (fun a b hr => hr.name) hsign]; exact hnd)
        (default_perm _)).1]
      refine ⟨c1, fun s hs => ?_, Dbc.validLayout_sign hsign hnd c3⟩
      obtain ⟨a, ha, hr⟩ := forall₂_mem_right hsign hs
      have := c2 a ha
      rw [hr.rest]
      exact this
    have hndk : (((m.signals.map keptSignal).map (·.core)).map (·.name)).Nodup := by
      rw [Dbc.forall₂_map_eq (fun a b hr => hr.name) hsign]; exact hnd
    have hbk : ∀ s ∈ (m.signals.map keptSignal).map (·.core), Built s.conversion := by
      intro s hs
      obtain ⟨a, ha, hr⟩ := forall₂_mem_right hsign hs
      have := hb a ha
      rw [hr.rest]
      exact this
    have hptk : ∀ s ∈ (m.signals.map keptSignal).map (·.core), s.conversion.isFloat = true →
        s.conversion.choices = none := by
      intro s hs
      obtain ⟨a, ha, hr⟩ := forall₂_mem_right hsign hs
      have := hpt' a ha
      rw [hr.rest]
      exact this
    obtain ⟨mid, hmid⟩ := hmid
    have hmsg' : ∃ msg', Message.create m.frameId m.name m.length (signals.map (·.core)) 0xff
        m.isExtendedFrame true .default = .ok msg' := by
      rw [(C05_strict_check_iff ((hperm.map _).nodup_iff.2 hndk) (default_perm _)).1]
      obtain ⟨c1, c2, c3⟩ := (C05_strict_check_iff hndk (default_perm _)).1.1 ⟨mid, hmid⟩
      exact ⟨c1, fun s hs => c2 s (hperm.mem_iff.1 hs),
        validLayout_congr (fun s => hperm.mem_iff.symm) c3⟩
    obtain ⟨msg', hmsg'⟩ := hmsg'
    refine ⟨msg', hmsg', ?_, ?_⟩
    · intro data scaling padding strict payload hpat
      refine Iff.trans ⟨encode_sign_half hnd hb hsign hmsg hmid fun h => (hpat h).symm,
        encode_sign_half hndk hbk (Dbc.forall₂_symm (fun _ _ => SameSign.symm) hsign) hmid hmsg hpat⟩ ?_
      exact C39_encode_order_independent hndk hbk hperm hmid hmsg' fun _ => rfl
    · intro data decodeChoices scaling truncated excess
      have d1 := decode_sign_half (fo := fo) hnd hb hpt' hsign hmsg hmid data decodeChoices scaling truncated excess
      have d2 := C39_decode_order_independent (fo := fo) hndk hbk hptk hperm hmid hmsg' data decodeChoices scaling
        truncated excess
      rcases d1 with ⟨a1, a2⟩ | ⟨r, r', a1, a2, a3⟩
      · rcases d2 with ⟨b1, b2⟩ | ⟨t, t', b1, b2, b3⟩
        · exact .inl ⟨a1, b2⟩
        · rw [a2] at b1; cases b1
      · rcases d2 with ⟨b1, b2⟩ | ⟨t, t', b1, b2, b3⟩
        · rw [a2] at b1; cases b1
        · rw [a2] at b1; cases b1
          exact .inr ⟨r, t', a1, b2, b3.trans a3⟩

/-- C42: the `offset` that is written counts bits in the order of the byte order: it is in the byte of
the start bit, from the least significant bit of that byte for little endian signals and from the most
significant one for big endian signals. -/
theorem C42_offset {T : NumText} {refs : List (String × Nat)} {k : KSignal}
    {attrs : List (String × String)} {children : List Xml}
    (h : dumpSignal T refs k = .ok (attrs, children)) :
    ∃ n : Nat, dictGet? attrs "offset" = some (showInt n) ∧ n / 8 = k.core.start / 8 ∧
      n % 8 = match k.core.byteOrder with
        | .little => k.core.start % 8
        | .big => 7 - k.core.start % 8 := by
  unfold dumpSignal at h
  simp only [Except.bind_eq_ok, Except.pure_eq_ok, Prod.mk.injEq] at h
  obtain ⟨c, -, rfl, -⟩ := h
  refine ⟨startBitKcd k.core.start k.core.byteOrder, ?_, ?_, ?_⟩
  · simp [dictGet?_append_or, dictGet?_cons]
  · cases k.core.byteOrder <;> simp only [startBitKcd]
    omega
  · cases k.core.byteOrder <;> simp only [startBitKcd]
    omega

/-- C42: the length of a message that does not state it, or states `auto`, is the least number of
bytes that contains all its signals. -/
theorem C42_auto_length {signals : List KSignal} (hpos : ∀ k ∈ signals, 0 < k.core.length)
    {text : Option String} (ht : text = none ∨ text = some "auto") :
    ∃ n, loadLength text signals = .ok n ∧ (∀ k ∈ signals, Fits n k.core) ∧
      ∀ n', (∀ k ∈ signals, Fits n' k.core) → n ≤ n' := by
  refine ⟨_, by rcases ht with rfl | rfl <;> rfl, ?_⟩
  have hmax : ∀ (l : List KSignal) (a : Nat), (∀ k ∈ l, 0 < k.core.length) →
      a ≤ (l.map fun k => startBit k.core + k.core.length).foldl max a ∧
      (∀ k ∈ l, startBit k.core + k.core.length ≤
        (l.map fun k => startBit k.core + k.core.length).foldl max a) ∧
      ∀ n', a ≤ 8 * n' → (∀ k ∈ l, Fits n' k.core) →
        (l.map fun k => startBit k.core + k.core.length).foldl max a ≤ 8 * n' := by
    intro l
    induction l with
    | nil => intro a _; exact ⟨Nat.le_refl _, (fun k hk => nomatch hk), fun n' h _ => h⟩
    | cons k r ih =>
      intro a hp
      obtain ⟨i1, i2, i3⟩ := ih (max a (startBit k.core + k.core.length))
        fun x hx => hp x (List.mem_cons_of_mem _ hx)
      simp only [List.map_cons, List.foldl_cons]
      refine ⟨by omega, ?_, ?_⟩
      · intro x hx
        rcases List.mem_cons.1 hx with rfl | hx
        · omega
        · exact i2 x hx
      · intro n' ha hf
        have := (fits_iff (hp k (List.mem_cons_self ..))).1 (hf k (List.mem_cons_self ..))
        exact i3 n' (by omega) fun x hx => hf x (List.mem_cons_of_mem _ hx)
  obtain ⟨-, h2, h3⟩ := hmax signals 0 hpos
  constructor
  · intro k hk
    rw [fits_iff (hpos k hk)]
    have := h2 k hk
    omega
  · intro n' hf
    have := h3 n' (by omega) hf
    omega

end

/-! ### The hypotheses can be met -/

namespace KcdExample
open Example

/-- A faithful way to write numbers: numerator and denominator. -/
def fraction : NumText where
  show_ q := String.ofList ((showInt q.num).toList ++ '_' :: decimal q.den)
  read text :=
    let l := text.toList
    match readInt (String.ofList (l.takeWhile (· != '_'))),
      readInt (String.ofList ((l.dropWhile (· != '_')).drop 1)) with
    | .ok n, .ok d => .ok (mkRat n d.toNat)
    | _, _ => .error .valueError

theorem fraction_faithful : fraction.Faithful := by
  intro q
  have hnum : ∀ c ∈ (showInt q.num).toList, (c != '_') = true := by
    intro c hc
    unfold showInt at hc
    rw [String.toList_ofList] at hc
    have hd := decimal_no_underscore q.num.natAbs
    have : c ≠ '_' := by
      rintro rfl
      split at hc
      · rcases List.mem_cons.1 hc with h | h
        · exact absurd h (by decide)
        · exact hd h
      · exact hd hc
    simpa using this
  have hden : readInt (String.ofList (decimal q.den)) = .ok (q.den : Int) := by
    have := readInt_showInt (q.den : Int)
    unfold showInt at this
    rwa [if_neg (by omega), Int.natAbs_natCast] at this
  simp only [fraction, String.toList_ofList]
  rw [List.takeWhile_append_of_pos hnum, List.dropWhile_append_of_pos hnum,
    List.takeWhile_cons_of_neg (by decide), List.dropWhile_cons_of_neg (by decide),
    List.append_nil, String.ofList_toList, readInt_showInt, List.drop_one, List.tail_cons, hden]
  simp only [Int.toNat_natCast, Except.ok.injEq]
  exact Rat.mkRat_self q

/-- A multiplexer with a table of names, two multiplexed signals, one of them big endian, signed and
scaled, and a float. -/
def kmux : KSignal :=
  { core := { name := "Mux", start := 0, length := 4, isMultiplexer := true
              conversion := .factory 1 0 (some [(0, .named { value := 0, name := "idle" }),
                (1, .named { value := 1, name := "drive" })]) false }
    comment := some "Selects." }
def ka : KSignal :=
  { core := { name := "A", start := 19, length := 11, byteOrder := .big, isSigned := true
              conversion := .factory (1/2) 3 none false, minimum := some (-100)
              multiplexerIds := some [0], multiplexerSignal := some "Mux" }
    unit := some "m", receivers := [some "N2"] }
def kb : KSignal :=
  { core := { name := "B", start := 10, length := 13, multiplexerIds := some [1]
              multiplexerSignal := some "Mux" } }
def kf : KSignal :=
  { core := { name := "F", start := 32, length := 32, conversion := .factory 1 0 none true } }

def kmsg : KMessage :=
  { frameId := 0x123, name := "Msg", length := 8, unusedBitPattern := 0, senders := [some "N1"]
    cycleTime := some 100, signals := [kb, kf, ka, kmux] }

def kdb : KDatabase := { version := some "1", nodes := ["N1", "N2"], messages := [kmsg] }

theorem kdb_flat : ∀ m ∈ kdb.messages, Flat m.signals := by
  intro m hm
  rw [List.mem_singleton.1 hm]
  refine ⟨by decide +kernel, by decide +kernel, ?_⟩
  intro k hk ids hi
  simp only [kmsg, List.mem_cons, List.not_mem_nil, or_false] at hk
  rcases hk with rfl | rfl | rfl | rfl
  · cases hi
    exact ⟨rfl, ⟨1, rfl⟩, kmux, by simp [kmsg], rfl, rfl⟩
  · cases hi
  · cases hi
    exact ⟨rfl, ⟨0, rfl⟩, kmux, by simp [kmsg], rfl, rfl⟩
  · cases hi

theorem kdb_writable : ∀ m ∈ kdb.messages, ∀ k ∈ m.signals,
    Writable kdb.nodes k ∧ Expressible k := by
  intro m hm k hk
  rw [List.mem_singleton.1 hm] at hk
  simp only [kmsg, List.mem_cons, List.not_mem_nil, or_false] at hk
  rcases hk with rfl | rfl | rfl | rfl
  · exact ⟨⟨(fun r hr => nomatch hr), (fun cs h => nomatch h)⟩, ⟨1, 0, none, false, rfl⟩,
      by decide +kernel, (fun cs h => nomatch h), by decide +kernel⟩
  · exact ⟨⟨(fun r hr => nomatch hr), (fun cs h => nomatch h)⟩, ⟨1, 0, none, true, rfl⟩,
      by decide +kernel, (fun cs h => nomatch h), by decide +kernel⟩
  · refine ⟨⟨fun r hr => ⟨"N2", by decide +kernel, List.mem_singleton.1 hr⟩, ?_⟩,
      ⟨1/2, 3, none, false, rfl⟩, by decide +kernel, ?_, by decide +kernel⟩
    · intro cs h
      rw [show ka.core.conversion.choices = none by decide +kernel] at h
      cases h
    · intro cs h
      rw [show ka.core.conversion.choices = none by decide +kernel] at h
      cases h
  · refine ⟨⟨(fun r hr => nomatch hr), ?_⟩, ⟨1, 0, some [(0, .named { value := 0, name := "idle" }),
      (1, .named { value := 1, name := "drive" })], false, rfl⟩, by decide +kernel, ?_,
      by decide +kernel⟩
    · intro cs h; cases h; decide +kernel
    · intro cs h; cases h; decide +kernel

theorem kdb_senders : ∀ m ∈ kdb.messages, ∀ s ∈ m.senders, ∃ n ∈ kdb.nodes, s = some n := by
  intro m hm s hs
  rw [List.mem_singleton.1 hm] at hs
  exact ⟨"N1", by decide +kernel, List.mem_singleton.1 hs⟩

example := C42_signal_survives fraction_faithful
  (kdb_writable kmsg (by decide +kernel) ka (by decide +kernel)).1
example := C42_database_survives_partial (sort := id) fraction_faithful (fun _ _ => .refl _) kdb_flat
  kdb_writable kdb_senders
example := C42_frames_survive_partial (fo := fo) (sort := List.reverse) fraction_faithful
  (fun m _ => m.signals.reverse_perm) kdb_flat
  (fun m hm k hk => (kdb_writable m hm k hk).imp_right (·.meaningful)) kdb_senders (by decide +kernel)
/-- A signed float with an empty comment is not read as it was, and its frames are kept. -/
def ksigned : KSignal := { kf with core := { kf.core with isSigned := true }, comment := some "" }
example : keptSignal ksigned ≠ ksigned := by decide +kernel
example := C42_frames_survive_partial (fo := fo) (sort := List.reverse)
  (db := { kdb with messages := [{ kmsg with signals := [kb, ksigned, ka, kmux] }] }) fraction_faithful
  (fun m _ => m.signals.reverse_perm)
  (by
    intro m hm
    rw [List.mem_singleton.1 hm]
    refine ⟨by decide +kernel, by decide +kernel, ?_⟩
    intro k hk ids hi
    simp only [List.mem_cons, List.not_mem_nil, or_false] at hk
    rcases hk with rfl | rfl | rfl | rfl
    · cases hi
      exact ⟨rfl, ⟨1, rfl⟩, kmux, by simp, rfl, rfl⟩
    · cases hi
    · cases hi
      exact ⟨rfl, ⟨0, rfl⟩, kmux, by simp, rfl, rfl⟩
    · cases hi)
  (by
    intro m hm k hk
    rw [List.mem_singleton.1 hm] at hk
    have hold : ∀ k ∈ kmsg.signals, Writable kdb.nodes k ∧ Meaningful k := fun k hk =>
      (kdb_writable kmsg (by simp [kdb]) k hk).imp_right (·.meaningful)
    simp only [List.mem_cons, List.not_mem_nil, or_false] at hk
    rcases hk with rfl | rfl | rfl | rfl
    · exact hold _ (by simp [kmsg])
    · exact ⟨⟨(fun r hr => nomatch hr), (fun cs h => nomatch h)⟩, ⟨1, 0, none, true, rfl⟩, fun cs h => nomatch h⟩
    · exact hold _ (by simp [kmsg])
    · exact hold _ (by simp [kmsg]))
  (by intro m hm; rw [List.mem_singleton.1 hm]; exact kdb_senders kmsg (by simp [kdb])) (by decide +kernel)
example : (kmsg.create).toOption.isSome = true := by decide +kernel
example : ((dumpSignal fraction [] { core := { name := "S", start := 10, length := 4, byteOrder := .big } }).map
    fun p => dictGet? p.1 "offset") = .ok (some "13") := by decide +kernel
example := C42_auto_length (signals := kmsg.signals) (by decide +kernel) (.inl rfl)
example : loadLength none [ka, kb] = .ok 4 := by decide +kernel

/-! ### What does not survive -/

/-- Dump, write, read and load. -/
def roundTrip (db : KDatabase) : Except Err KDatabase :=
  (dump fraction id db).bind fun x => load fraction x.reparse

theorem eq_get {α : Type} [Inhabited α] {x : Except Err α} (h : x.toOption.isSome = true) :
    x = .ok (get x) := by
  cases x with
  | ok a => rfl
  | error e => cases h

/-- A signal under several multiplexer ids comes back with the first of them only, so that frames
with the other ids no longer contain it. -/
theorem C42_several_ids_lost :
    ∃ db m m' msg msg' frame, db = KDatabase.mk none [] [m] ∧ m.create = .ok msg ∧
      roundTrip db = .ok { db with version := some "", messages := [m'] } ∧ m'.create = .ok msg' ∧
      decode fo msg frame true true false false = .ok [("Mux", .num 1), ("A", .num 5)] ∧
      decode fo msg' frame true true false false = .error .decodeError := by
  let mux : Signal := { name := "Mux", start := 0, length := 8, isMultiplexer := true }
  let a : Signal := { name := "A", start := 8, length := 8, multiplexerIds := some [0, 1]
                      multiplexerSignal := some "Mux" }
  let m : KMessage := { frameId := 1, name := "M", length := 2, unusedBitPattern := 0xff
                        signals := [{ core := mux }, { core := a }] }
  let m' : KMessage := { m with signals := [{ core := mux },
    { core := { a with multiplexerIds := some [0] } }] }
  refine ⟨_, m, m', get m.create, get m'.create, [1, 5], rfl, eq_get ?_, ?_, eq_get ?_, ?_, ?_⟩ <;>
    decide +kernel

/-- A multiplexer that is itself multiplexed is written twice; the database that was accepted is
rejected when it is loaded (`Error` of the strict check). -/
theorem C42_nested_multiplexer_rejected :
    ∃ db m m' msg, db = KDatabase.mk none [] [m] ∧ m.create = .ok msg ∧
      roundTrip db = .ok { db with version := some "", messages := [m'] } ∧
      m'.create = .error .error := by
  let mux : Signal := { name := "Mux", start := 0, length := 8, isMultiplexer := true }
  let a : Signal := { name := "A", start := 8, length := 8, isMultiplexer := true
                      multiplexerIds := some [0], multiplexerSignal := some "Mux" }
  let b : Signal := { name := "B", start := 16, length := 8, multiplexerIds := some [0]
                      multiplexerSignal := some "A" }
  let m : KMessage := { frameId := 1, name := "M", length := 3, unusedBitPattern := 0xff
                        signals := [{ core := mux }, { core := a }, { core := b }] }
  let m' : KMessage := { m with signals :=
    [{ core := mux }, { core := { a with isMultiplexer := false } },
     { core := { a with multiplexerIds := none, multiplexerSignal := none } }, { core := b }] }
  have hfail : ∀ x : Except Err Message,
      (match x with | .error e => decide (e = .error) | .ok _ => false) = true → x = .error .error := by
    intro x h
    cases x with
    | ok a => cases h
    | error e => rw [of_decide_eq_true h]
  refine ⟨_, m, m', get m.create, rfl, eq_get ?_, ?_, hfail _ ?_⟩ <;> decide +kernel

/-- The pattern of unused bits is lost: padded frames differ. -/
theorem C42_unused_bit_pattern_lost :
    ∃ db m m' msg msg', db = KDatabase.mk none [] [m] ∧ m.create = .ok msg ∧
      roundTrip db = .ok { db with version := some "", messages := [m'] } ∧ m'.create = .ok msg' ∧
      encode fo msg [("A", .num 5)] true true true = .ok [5, 0] ∧
      encode fo msg' [("A", .num 5)] true true true = .ok [5, 0xff] := by
  let m : KMessage := { frameId := 1, name := "M", length := 2, unusedBitPattern := 0
                        signals := [{ core := { name := "A", start := 0, length := 8 } }] }
  let m' : KMessage := { m with unusedBitPattern := 0xff }
  refine ⟨_, m, m', get m.create, get m'.create, rfl, eq_get ?_, ?_, eq_get ?_, ?_, ?_⟩ <;> decide +kernel

/-- A receiver that is not a node of the database (as the DBC placeholder `Vector__XXX`) makes the
dump fail with `KeyError`. -/
theorem C42_unknown_receiver :
    ∃ db m msg, db = KDatabase.mk none [] [m] ∧ m.create = .ok msg ∧
      dump fraction id db = .error .keyError := by
  let m : KMessage := { frameId := 1, name := "M", length := 2, unusedBitPattern := 0
                        signals := [{ core := { name := "A", start := 0, length := 8 }
                                      receivers := [some "Vector__XXX"] }] }
  refine ⟨_, m, get m.create, rfl, eq_get ?_, rfl⟩
  decide +kernel

end KcdExample
