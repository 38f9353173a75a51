import Verif.Lemmas.TesterBus

/-
C67: testers that share a bus.
-/

namespace Cantools
open Spec Tester

section
variable {fo : FloatOps} {dut bus : Option String} {T : TestDatabase} {dc sc pad st : Bool} {t u : State}

theorem Tester.create_ok : State.create fo dut T bus dc sc pad st = .ok t ↔
    GoodNames T dut bus ∧ ∃ slots, newSlots fo bus sc pad st [] T.messages = .ok slots ∧
      t = { database := T, decodeChoices := dc, scaling := sc, messages := slots
            periodic := { messages := slots.map fun e => pmessage dut e.1 e.2.1 } } := by
  unfold State.create GoodNames
  rw [← dutOk_iff, ← busOk_iff]
  cases dutOk T.db.nodes dut with
  | false => simp
  | true =>
    cases busOk T.db.buses bus with
    | false => simp
    | true =>
      simp only [Bool.not_true, Bool.false_eq_true, if_false, true_and]
      rw [Except.bind_eq_ok]
      constructor
      · rintro ⟨s, h1, h2⟩; exact ⟨s, h1, (Except.ok.inj h2).symm⟩
      · rintro ⟨s, h1, rfl⟩; exact ⟨s, h1, rfl⟩

/-- C67: a tester is created exactly if the names of the device and of the bus are known, no message of the bus holds other
messages, and the initial values of each message of the bus can be sent (C46 says when).  Unknown names give `Error`. -/
theorem C67_created_iff : (∃ t, State.create fo dut T bus dc sc pad st = .ok t) ↔
    GoodNames T dut bus ∧ ∀ x ∈ T.messages, x.bus = bus →
      ∃ m tm, x.message.body = .inl m ∧ newMessage fo m x.raw sc pad st = .ok tm := by
  have key : ∀ x : BusMessage, (∃ tm, newSlot fo sc pad st x = .ok tm) ↔
      ∃ m tm, x.message.body = .inl m ∧ newMessage fo m x.raw sc pad st = .ok tm := by
    intro x
    unfold newSlot
    cases x.message.body with
    | inl m =>
      constructor
      · rintro ⟨tm, h⟩; exact ⟨m, tm, rfl, h⟩
      · rintro ⟨m', tm, e, h⟩; obtain rfl := Sum.inl.inj e; exact ⟨tm, h⟩
    | inr c =>
      constructor
      · rintro ⟨tm, h⟩; dsimp only at h; split at h <;> cases h
      · rintro ⟨m', tm, e, h⟩; cases e
  simp only [← key]
  rw [← newSlots_ok (acc := [])]
  constructor
  · rintro ⟨t, h⟩
    obtain ⟨h1, s, h2, -⟩ := create_ok.1 h
    exact ⟨h1, s, h2⟩
  · rintro ⟨h1, s, h2⟩
    exact ⟨_, create_ok.2 ⟨h1, s, h2, rfl⟩⟩

/-- C67: unknown names of devices or buses are refused with `Error`, before anything else. -/
theorem C67_unknown_names (h : ¬ GoodNames T dut bus) : State.create fo dut T bus dc sc pad st = .error .error := by
  unfold GoodNames at h
  rw [← dutOk_iff, ← busOk_iff] at h
  unfold State.create
  cases h1 : dutOk T.db.nodes dut with
  | false => simp
  | true =>
    cases h2 : busOk T.db.buses bus with
    | false => simp
    | true => exact (h ⟨h1, h2⟩).elim

theorem Tester.create_nodup (h : State.create fo dut T bus dc sc pad st = .ok t) :
    (t.periodic.messages.map (·.name)).Nodup := by
  obtain ⟨-, s, h1, rfl⟩ := create_ok.1 h
  have := newSlots_nodup h1 List.nodup_nil
  rw [List.map_map]
  exact this

/-- C67: whatever is done with a tester, its messages are those of its bus: for each name the last one of the bus with this
name. -/
theorem C67_messages (h : State.create fo dut T bus dc sc pad st = .ok t) (hu : Used fo t u) (n : String) (x : BusMessage) :
    (∃ m, dictGet? u.messages n = some (x, m)) ↔ LastOn T bus n x := by
  rw [get_names, (used_same hu (create_nodup h)).names, ← get_names]
  obtain ⟨-, s, h1, rfl⟩ := create_ok.1 h
  refine (newSlots_get h1 n x).trans ?_
  simp [LastIn, LastOn]

theorem Tester.known_iff (h : State.create fo dut T bus dc sc pad st = .ok t) (hu : Used fo t u) (n : String) :
    (dictGet? u.messages n).isSome = true ↔ OnBus T bus n := by
  constructor
  · intro hs
    obtain ⟨⟨x, m⟩, hm⟩ := Option.isSome_iff_exists.1 hs
    obtain ⟨a, b, h1, h2, h3, -⟩ := (C67_messages h hu n x).1 ⟨m, hm⟩
    exact ⟨x, by rw [h1]; simp, h2, h3⟩
  · rintro ⟨x, hx, h2, h3⟩
    obtain ⟨y, hy⟩ := lastIn_exists ⟨x, hx, h2, h3⟩
    obtain ⟨m, hm⟩ := (C67_messages h hu n y).2 hy
    rw [hm]; rfl

theorem Tester.names_iff (h : State.create fo dut T bus dc sc pad st = .ok t) (hu : Used fo t u) (n : String) :
    n ∈ u.periodic.messages.map (·.name) ↔ OnBus T bus n := by
  rw [(used_same hu (create_nodup h)).flags, ← known_iff h (.new t)]
  obtain ⟨-, s, h1, rfl⟩ := create_ok.1 h
  dsimp only
  rw [List.map_map]
  change n ∈ s.map (·.1) ↔ _
  have := dictGet?_eq_none_iff s n
  rw [← Option.not_isSome_iff_eq_none] at this
  exact (not_iff_not.1 this).symm

/-- C67: calls with a name that no message of the bus has are refused with `Error` and change nothing. -/
theorem C67_unknown_message (h : State.create fo dut T bus dc sc pad st = .ok t) (hu : Used fo t u) {n : String}
    (hn : ¬ OnBus T bus n) (s : Option (List (String × Value))) (e : List (String × Value)) (d w : Bool) (rs : List Round)
    (k : String) (v : Value) :
    u.send fo n s = (.error .error, u) ∧ u.expect n e d w rs = (.raised .error, u) ∧ u.set fo n k v = (.error .error, u) ∧
      u.update fo n e = (.error .error, u) := by
  have : dictGet? u.messages n = none := by
    rw [← known_iff h hu] at hn
    simpa using hn
  unfold State.send State.expect State.set State.update
  rw [this]
  exact ⟨rfl, rfl, rfl, rfl⟩

/-- C67: when a new tester is started, it sends exactly the last message of each name that has a cycle time and that the
device under test does not send. -/
theorem C67_start (h : State.create fo dut T bus dc sc pad st = .ok t) (n : String) :
    Sending (t.control .start).periodic n ↔ ∃ x, LastOn T bus n x ∧ x.cycleTime.isSome = true ∧ ¬ SentByDut dut x := by
  have hget := C67_messages h (.new t) n
  have hnd := create_nodup h
  obtain ⟨-, s, h1, rfl⟩ := create_ok.1 h
  have hs := newSlots_nodup h1 List.nodup_nil
  dsimp only at hget hnd
  have hdut : ∀ x, (pmessage dut n x).fromDut = false ↔ ¬ SentByDut dut x := by
    intro x
    unfold pmessage SentByDut
    cases dut with
    | none => simp
    | some d => by_cases hd : d = "" <;> simp [hd]
  have hmem : ∀ x, (∃ m, (n, x, m) ∈ s) ↔ LastOn T bus n x := by
    intro x
    rw [← hget]
    exact exists_congr fun m => ⟨fun h => dictGet?_of_mem hs h, dictGet?_mem⟩
  constructor
  · rintro ⟨k, hk⟩
    rcases startLoop_only _ _ _ _ _ hk with hk | ⟨m, hm, rfl, h3, h4⟩
    · cases hk
    · obtain ⟨⟨k, x, tm⟩, he, rfl⟩ := List.mem_map.1 hm
      exact ⟨x, (hmem x).1 ⟨tm, he⟩, h3, (hdut x).1 h4⟩
  · rintro ⟨x, hx, h3, h4⟩
    obtain ⟨tm, he⟩ := (hmem x).2 hx
    have hfresh : PFresh { messages := s.map fun e => pmessage dut e.1 e.2.1 } := by
      refine ⟨hnd, fun m hm => ?_, rfl, rfl⟩
      obtain ⟨e, -, rfl⟩ := List.mem_map.1 hm
      exact ⟨rfl, rfl⟩
    refine C34_start_partial (m := pmessage dut n x) (.new hfresh) ?_ (List.mem_map.2 ⟨_, he, rfl⟩) h3 rfl ((hdut x).2 h4)
    rintro m - - - - ⟨k, hk⟩
    cases hk

/-- C67: a new tester listens to all messages of its bus; `enable` and `disable` change this for one message, and nothing else
changes it. -/
theorem C67_enabled (h : State.create fo dut T bus dc sc pad st = .ok t) (hu : Used fo t u) (k n : String) :
    (t.enabled k = true ↔ OnBus T bus k) ∧
    (u.control (.disable n)).enabled k = (if k = n then false else u.enabled k) ∧
    ((u.control (.enable n)).enabled k = true ↔ u.enabled k = true ∨ (k = n ∧ OnBus T bus n)) ∧
    (u.control .start).enabled k = u.enabled k ∧ (u.control .stop).enabled k = u.enabled k ∧
    (∀ f, (u.hear fo f).enabled k = u.enabled k) ∧ (∀ m s, (u.send fo m s).2.enabled k = u.enabled k) ∧
    (∀ m s v, (u.set fo m s v).2.enabled k = u.enabled k) ∧ (∀ m s, (u.update fo m s).2.enabled k = u.enabled k) ∧
    (∀ m e d w rs, (u.expect m e d w rs).2.enabled k = u.enabled k) := by
  have hnd : (u.periodic.messages.map (·.name)).Nodup := by
    have := used_same hu (create_nodup h)
    exact this.flags ▸ this.nodup
  have hoff : ∀ {w : State}, k ∉ w.periodic.messages.map (·.name) → w.enabled k = false := by
    intro w hk
    rw [enabled_flags, flagOf_other]
    rwa [flags_names]
  refine ⟨?_, ?_, ?_, ?_, ?_, ?_, ?_, ?_, ?_, ?_⟩
  · rw [← names_iff h (.new t)]
    constructor
    · intro he
      by_contra hk
      rw [hoff hk] at he
      cases he
    · obtain ⟨-, s, -, rfl⟩ := create_ok.1 h
      intro hk
      obtain ⟨m, hm, e⟩ := List.mem_map.1 hk
      unfold State.enabled
      split
      · rename_i y hf
        obtain ⟨_, -, rfl⟩ := List.mem_map.1 (List.mem_of_find?_eq_some hf)
        rfl
      · rename_i hf
        exact (List.find?_eq_none.1 hf m hm (by simpa using e)).elim
  · have e : (u.control (.disable n)).enabled k = flagOf (u.periodic.messages.map fun m =>
        (m.name, if m.name = n then false else m.enabled)) k :=
      (enabled_flags _ _).trans (congrArg (flagOf · k) (flags_call _ hnd _))
    rw [e, flagOf_change, ← enabled_flags]
    split
    · rename_i hk; rw [if_pos hk.1]
    · rename_i hk
      split
      · rename_i e
        exact hoff fun hm => hk ⟨e, hm⟩
      · rfl
  · have e : (u.control (.enable n)).enabled k = flagOf (u.periodic.messages.map fun m =>
        (m.name, if m.name = n then true else m.enabled)) k :=
      (enabled_flags _ _).trans (congrArg (flagOf · k) (flags_call _ hnd _))
    rw [e, flagOf_change, ← enabled_flags, ← names_iff h hu]
    split
    · rename_i hk; exact ⟨fun _ => .inr ⟨hk.1, hk.1 ▸ hk.2⟩, fun _ => rfl⟩
    · rename_i hk
      exact ⟨.inl, fun h' => h'.resolve_right fun h' => hk ⟨h'.1, h'.1 ▸ h'.2⟩⟩
  · rw [enabled_flags, enabled_flags]
    exact congrArg (flagOf · k) (flags_call _ hnd .start)
  · rw [enabled_flags, enabled_flags]
    exact congrArg (flagOf · k) (flags_call _ hnd .stop)
  · intro f; unfold State.hear; split <;> rfl
  · intro m s; unfold State.send; split <;> rfl
  · intro m s v; unfold State.set; split <;> rfl
  · intro m s; unfold State.update; split <;> rfl
  · intro m e d w rs; unfold State.expect; split <;> rfl

/-- C67: what a tester receives: frames that are neither error nor remote frames, of the last message of the database with
the frame id, if a message of the bus has this name and is enabled and the payload is one of it. -/
theorem C67_received (h : State.create fo dut T bus dc sc pad st = .ok t) (hu : Used fo t u) (hT : InUse T) (f : Frame) (d : Decoded) :
    u.onFrame fo f = .ok (some d) ↔ f.error = false ∧ f.remote = false ∧
      ∃ m msg, LastWith (Answers T.db.mask f.id f.extended) T.db.messages m ∧ OnBus T bus m.name ∧ u.enabled m.name = true ∧
        m.body = .inl msg ∧ d.name = m.name ∧ decode fo msg f.data dc sc false true = .ok d.signals := by
  have hsame := used_same hu (create_nodup h)
  have hdb : u.database = T ∧ u.decodeChoices = dc ∧ u.scaling = sc := by
    have h1 := hsame.database; have h2 := hsame.choices; have h3 := hsame.scaling
    obtain ⟨-, s, -, rfl⟩ := create_ok.1 h
    exact ⟨h1, h2, h3⟩
  obtain ⟨db0, hcur⟩ := hT.current
  have hfind := C19_get_by_frame_id hcur hT.ids f.id f.extended
  have hkey := C19_key_error_iff hcur hT.ids f.id f.extended
  unfold State.onFrame
  rw [hdb.1, hdb.2.1, hdb.2.2]
  cases he : f.error with
  | true => simp
  | false =>
  cases hr : f.remote with
  | true => simp
  | false =>
    simp only [Bool.or_self, Bool.false_eq_true, if_false, true_and]
    cases hg : T.db.getByFrameId f.id f.extended with
    | error e =>
      have hno := ((hkey e).1 hg).2
      constructor
      · intro h; cases h
      · rintro ⟨m, msg, ⟨a, b, hl, hp, -⟩, -⟩
        exact (hno m (by rw [hl]; simp) hp).elim
    | ok m =>
      have hm := (hfind m).1 hg
      have huniq : ∀ m', LastWith (Answers T.db.mask f.id f.extended) T.db.messages m' → m' = m := by
        intro m' h'
        have := (hfind m').2 h'
        rw [hg] at this
        exact (Except.ok.inj this).symm
      dsimp only
      constructor
      · intro h'
        split at h'
        · cases h'
        · rename_i y hy
          have hon := (known_iff h hu m.name).1 (by rw [hy]; rfl)
          split at h'
          · cases h'
          · rename_i hen
            split at h'
            · rename_i msg hb
              obtain ⟨r, h1, h2⟩ := Except.bind_eq_ok.1 h'
              have h2 := Option.some.inj (Except.ok.inj h2)
              subst h2
              exact ⟨m, msg, hm, hon, by simpa using hen, hb, rfl, h1⟩
            · cases h'
      · rintro ⟨m', msg, h1, h2, h3, h4, h5, h6⟩
        obtain rfl := huniq m' h1
        obtain ⟨y, hy⟩ := Option.isSome_iff_exists.1 ((known_iff h hu m'.name).2 h2)
        rw [hy, h3, h4]
        simp only [Bool.not_true, Bool.false_eq_true, if_false]
        rw [h6]
        obtain ⟨dn, ds⟩ := d
        simp only at h5
        subst h5
        rfl

theorem Tester.create_fits (h : State.create fo dut T bus dc sc pad st = .ok t) : Fits sc pad st t := by
  obtain ⟨-, s, h1, rfl⟩ := create_ok.1 h
  intro e he
  have h2 := newSlots_made h1 (fun _ h => nomatch h) e he
  unfold newSlot at h2
  split at h2
  · rename_i m hb
    refine ⟨m, hb, ?_⟩
    have h3 := newMessage_ok.1 h2
    have := settings_update (fo := fo) { database := m, scaling := sc, padding := pad, strict := st } (initialValues m e.2.1.raw)
    rw [h3] at this
    exact this
  · split at h2 <;> cases h2

/-- What `send` sends. -/
theorem Tester.send_frame (h : State.create fo dut T bus dc sc pad st = .ok t) (hu : Used fo t u) {n : String} {x : BusMessage}
    (hx : LastOn T bus n x) {m : Message} (hbody : x.message.body = .inl m) {s : List (String × Value)} {f : Frame} {u' : State}
    (hsend : u.send fo n (some s) = (.ok f, u')) :
    ∃ old tm g, dictGet? u.messages n = some (x, old) ∧ dictGet? u'.messages n = some (x, tm) ∧
      tm.data = dictUpdate old.data s ∧ gatherSignals m tm.data = .ok g ∧
      encode fo m g sc pad st = .ok f.data ∧ f = { id := x.message.frameId, extended := x.message.isExtended, data := f.data } := by
  obtain ⟨old, hold⟩ := (C67_messages h hu n x).2 hx
  have hfit : ∃ k, x.message.body = .inl k ∧ settings old = (k, sc, pad, st) :=
    used_fits hu (create_fits h) _ (dictGet?_mem hold)
  obtain ⟨k, h1, h2⟩ := hfit
  rw [hbody] at h1
  obtain rfl := Sum.inl.inj h1
  unfold State.send at hsend
  rw [hold] at hsend
  dsimp only at hsend
  obtain ⟨h3, rfl⟩ := Prod.mk.inj hsend
  obtain ⟨d, h4, h5⟩ := Except.bind_eq_ok.1 h3
  have h5 := Except.ok.inj h5
  subst h5
  have hset := settings_update (fo := fo) old s
  unfold Cantools.Tester.send at h4 ⊢
  dsimp only at h4 ⊢
  cases hup : Cantools.Tester.update fo old s with
  | mk o t' =>
    rw [hup] at h4 hset
    cases o with
    | error e => cases h4
    | ok _ =>
      obtain ⟨h6, ⟨g, fr, h7, h8, h9, -⟩, -⟩ := C35_update_partial hup
      dsimp only at h4
      rw [h9] at h4
      have h4 := Except.ok.inj h4
      subst h4
      have hset := hset.trans h2
      simp only [settings, Prod.mk.injEq] at hset
      obtain ⟨e1, e2, e3, e4⟩ := hset
      rw [e1] at h7
      rw [e1, e2, e3, e4] at h8
      refine ⟨old, t', g, hold, ?_, h6, h7, h8, rfl⟩
      rw [dictGet?_set, if_pos rfl]

/-- What another tester does with it. -/
theorem Tester.hear_sent (h : State.create fo dut T bus dc sc pad st = .ok t) (hu : Used fo t u) (hT : InUse T) {n : String}
    {x : BusMessage} (hx : LastOn T bus n x) (hown : OwnId T x.message) (hen : u.enabled n = true) {m : Message}
    (hbody : x.message.body = .inl m) {data : Bytes} {r : List (String × Value)}
    (hr : decode fo m data dc sc false true = .ok r) :
    u.hear fo { id := x.message.frameId, extended := x.message.isExtended, data := data } =
        { u with input := receive ⟨n, r⟩ u.input } ∧
      ∀ sig d w ro rs, kept u.input = [] → Expected n sig ⟨n, r⟩ →
        ((u.hear fo { id := x.message.frameId, extended := x.message.isExtended, data := data }).expect n sig d w (ro :: rs)).1 =
          .found ⟨n, r⟩ ∧
        kept ((u.hear fo { id := x.message.frameId, extended := x.message.isExtended, data := data }).expect n sig d w
          (ro :: rs)).2.input = ro.arrivals := by
  obtain ⟨a, b, h1, h2, rfl, -⟩ := id hx
  have hmem : x.message ∈ T.db.messages := by rw [hT.messages, h1]; simp
  have hans : Answers T.db.mask x.message.frameId x.message.isExtended x.message := by
    refine ⟨⟨.inl, fun h => h.elim id fun h => ?_⟩, fun _ _ _ => rfl⟩
    cases he : x.message.isExtended with
    | true => rfl
    | false => exact absurd (hT.standard _ hmem he) (not_lt.2 h)
  have key := (C67_received h hu hT { id := x.message.frameId, extended := x.message.isExtended, data := data }
    ⟨x.message.name, r⟩).2 ⟨rfl, rfl, x.message, m, lastWith_own hmem hans hown, ⟨x, by rw [h1]; simp, h2, rfl⟩, hen, hbody, rfl, hr⟩
  have hh : u.hear fo { id := x.message.frameId, extended := x.message.isExtended, data := data } =
      { u with input := receive ⟨x.message.name, r⟩ u.input } := by
    unfold State.hear
    rw [key]
  refine ⟨hh, fun sig d w ro rs hk hex => ?_⟩
  obtain ⟨old, hold⟩ := (C67_messages h hu _ x).2 hx
  have hk' : u.input.list = [] ∧ u.input.queue = [] := List.append_eq_nil_iff.1 hk
  rw [hh]
  unfold State.expect
  dsimp only
  rw [hold]
  dsimp only
  have hin : receive ⟨x.message.name, r⟩ u.input = { list := [], queue := [⟨x.message.name, r⟩] } := by
    unfold receive
    rw [hk'.1, hk'.2]
    rfl
  rw [hin]
  unfold Cantools.Tester.expect expectList
  dsimp only
  unfold expectQueue
  dsimp only [List.cons_append]
  rw [matches_true.2 hex]
  exact ⟨rfl, by cases d <;> rfl⟩

end

section
variable {fo : FloatOps} {T : TestDatabase} {bus dut dut' : Option String} {dc sc pad st dc' sc' pad' st' : Bool}
  {a0 a a' b0 b : State} {n : String} {x : BusMessage} {m : Message} {fid : Int} {name : String} {len : Nat} {sigs : List Signal}
  {pat : UInt8} {ext : Bool} {s : List (String × Value)} {f : Frame}

/-- C67: two testers of the same database and bus, in whatever state they are: what the one sends the other one receives, if
it listens to the message and no other message of the database has this frame id.  The values are those the sender has after
the call; among them are those given to `send`.  A call of `expect` for values among them returns them, and afterwards only
what arrived during the call is left to be expected.  (Selectors are integers, as in C03.) -/
theorem C67_talk_partial (hA : State.create fo dut T bus dc sc pad st = .ok a0) (hau : Used fo a0 a)
    (hB : State.create fo dut' T bus dc' sc' pad' st' = .ok b0) (hbu : Used fo b0 b) (hT : InUse T)
    (hx : LastOn T bus n x) (hown : OwnId T x.message) (hen : b.enabled n = true)
    (hbody : x.message.body = .inl m) (hnd : (sigs.map (·.name)).Nodup) (hb : ∀ s ∈ sigs, Built s.conversion)
    (hpt : ∀ s ∈ sigs, s.conversion.isFloat = true → s.conversion.choices = none)
    (hm : Message.create fid name len sigs pat ext true .default = .ok m)
    (hmux : ∀ p ∈ sigs, p.isMultiplexer = true → p.conversion.isFloat = false ∧
      p.conversion.scale = 1 ∧ p.conversion.offset = 0 ∧ ((table p).map (·.2.toStr)).Nodup)
    (hsend : a.send fo n (some s) = (.ok f, a')) (hs : (s.map (·.1)).Nodup) :
    ∃ tm, dictGet? a'.messages n = some (x, tm) ∧ (∀ k v, dictGet? s k = some v → dictGet? tm.data k = some v) ∧
      ((∀ p ∈ sigs, p.isMultiplexer = true → ∀ q, dictGet? tm.data p.name = some (.num q) → q.den = 1) →
        ∃ r, b.hear fo f = { b with input := receive ⟨n, r⟩ b.input } ∧ (r.map (·.1)).Nodup ∧
          Arrives fo sigs tm.data sc dc' sc' r ∧
          ∀ sig d w ro rs, kept b.input = [] → Expected n sig ⟨n, r⟩ →
            ((b.hear fo f).expect n sig d w (ro :: rs)).1 = .found ⟨n, r⟩ ∧
              kept ((b.hear fo f).expect n sig d w (ro :: rs)).2.input = ro.arrivals) := by
  obtain ⟨old, tm, g, -, h2, h3, h4, h5, h6⟩ := send_frame hA hau hx hbody hsend
  refine ⟨tm, h2, fun k v hk => ?_, fun hint => ?_⟩
  · have : dictGet? s.reverse k = some v :=
      dictGet?_of_mem (by rw [List.map_reverse]; exact List.nodup_reverse.2 hs) (List.mem_reverse.2 (dictGet?_mem hk))
    rw [h3, dictGet?_update, this]
  · obtain ⟨k1, -⟩ := (C08_gather_signals (fo := fo) hnd hb hm tm.data).1 g h4
    obtain ⟨p1, -, p3⟩ := gathered_present hnd k1
    obtain ⟨r, hr, hrn, hg⟩ := C03_round_trip (truncated := false) (excess := true) (decodeChoices := dc') (scaling' := sc') hnd hb hpt hm hmux (data := g)
      (fun p hp hpm q hq => hint p hp hpm q ((k1 _ _).1 hq).1) h5
    rw [h6]
    obtain ⟨e1, e2⟩ := hear_sent hB hbu hT hx hown hen hbody hr
    refine ⟨r, e1, hrn, fun k v' => ?_, e2⟩
    rw [hg]
    refine exists_congr fun y => exists_congr fun v => exists_congr fun raw => exists_congr fun raw' => ?_
    rw [p3 y]
    constructor
    · rintro ⟨q1, rfl, q2, q3⟩
      exact ⟨q1, rfl, p1 y q1 ▸ q2, q3⟩
    · rintro ⟨q1, rfl, q2, q3⟩
      exact ⟨q1, rfl, (p1 y q1).trans q2, q3⟩

/-- C67: for raw values of messages without float signals, the other tester receives exactly the values of the sender, of the
signals that are selected. -/
theorem C67_talk_raw_partial (hA : State.create fo dut T bus dc false pad st = .ok a0) (hau : Used fo a0 a)
    (hB : State.create fo dut' T bus false false pad' st' = .ok b0) (hbu : Used fo b0 b) (hT : InUse T)
    (hx : LastOn T bus n x) (hown : OwnId T x.message) (hen : b.enabled n = true)
    (hbody : x.message.body = .inl m) (hnd : (sigs.map (·.name)).Nodup) (hb : ∀ s ∈ sigs, Built s.conversion)
    (hfl : ∀ s ∈ sigs, s.conversion.isFloat = false)
    (hm : Message.create fid name len sigs pat ext true .default = .ok m)
    (hsend : a.send fo n (some s) = (.ok f, a')) :
    ∃ tm, dictGet? a'.messages n = some (x, tm) ∧
      ((∀ k v, dictGet? tm.data k = some v → ∃ i : Int, v = .num i) →
        ∃ r, b.hear fo f = { b with input := receive ⟨n, r⟩ b.input } ∧
          (∀ k v, dictGet? r k = some v ↔ dictGet? tm.data k = some v ∧
            ∃ y, Present sigs (requested sigs tm.data) y ∧ y.name = k) ∧
          ∀ sig d w ro rs, kept b.input = [] → Expected n sig ⟨n, r⟩ →
            ((b.hear fo f).expect n sig d w (ro :: rs)).1 = .found ⟨n, r⟩ ∧
              kept ((b.hear fo f).expect n sig d w (ro :: rs)).2.input = ro.arrivals) := by
  obtain ⟨old, tm, g, -, h2, h3, h4, h5, h6⟩ := send_frame hA hau hx hbody hsend
  refine ⟨tm, h2, fun hint => ?_⟩
  obtain ⟨k1, -⟩ := (C08_gather_signals (fo := fo) hnd hb hm tm.data).1 g h4
  obtain ⟨p1, -, p3⟩ := gathered_present hnd k1
  obtain ⟨r, hr, -, hg⟩ := C03_raw_round_trip (truncated := false) (excess := true) hnd hb hfl hm (data := g)
    (fun k v hk => hint k v ((k1 _ _).1 hk).1) h5
  rw [h6]
  obtain ⟨e1, e2⟩ := hear_sent hB hbu hT hx hown hen hbody hr
  refine ⟨r, e1, fun k v => ?_, e2⟩
  rw [hg, k1]
  constructor
  · rintro ⟨q, -⟩
    exact q
  · rintro ⟨q, y, hy, e⟩
    exact ⟨⟨q, y, hy, e⟩, y, (p3 y).2 hy, e⟩

end

/-! ### Examples -/

namespace Example.Bus
open Spec Tester

/-- The message on one bus, sent by the node E every 100 ms; another message on another bus. -/
def first : BusMessage :=
  { message := ⟨"Msg", 0x123, false, .inl msg, true⟩, bus := some "b1", senders := ["E"], cycleTime := some 100 }
def second (id : Nat) : BusMessage := { message := ⟨"Other", id, false, .inl msg, true⟩, bus := some "b2" }

def db (id : Nat) : Db :=
  { messages := [first.message, (second id).message], nodes := ["E", "F"], buses := ["b1", "b2"]
    byName := [("Msg", first.message), ("Other", (second id).message)]
    byId := if id = 0x123 then [(0x123, (second id).message)] else [(0x123, first.message), (id, (second id).message)] }

def T (id : Nat) : TestDatabase := { messages := [first, second id], db := db id }

theorem inUse {id : Nat} (h : id = 0x123 ∨ id = 0x124) : InUse (T id) := by
  refine ⟨⟨{ db id with byName := [], byId := [] }, ?_⟩, rfl, ?_, ?_⟩
  · rcases h with rfl | rfl <;> rfl
  · intro m hm
    simp only [T, db, List.mem_cons, List.not_mem_nil, or_false] at hm
    rcases hm with rfl | rfl
    · decide
    · rcases h with rfl | rfl <;> decide
  · intro m hm _
    simp only [T, db, List.mem_cons, List.not_mem_nil, or_false] at hm
    rcases hm with rfl | rfl
    · decide
    · rcases h with rfl | rfl <;> decide

instance : Inhabited State := ⟨{ database := T 0, decodeChoices := true, scaling := true }⟩

/-- The testers of the two nodes. -/
def tester (id : Nat) (dut : String) : State := get (State.create fo (some dut) (T id) (some "b1") true true true true)

theorem tester_ok {id : Nat} (h : id = 0x123 ∨ id = 0x124) {dut : String} (hd : dut = "E" ∨ dut = "F") :
    State.create fo (some dut) (T id) (some "b1") true true true true = .ok (tester id dut) := by
  have h : (State.create fo (some dut) (T id) (some "b1") true true true true).toOption.isSome = true := by
    rcases h with rfl | rfl <;> rcases hd with rfl | rfl <;> decide +kernel
  unfold tester
  cases hc : State.create fo (some dut) (T id) (some "b1") true true true true with
  | ok m => rfl
  | error e => rw [hc] at h; cases h

theorem first_last (id : Nat) : LastOn (T id) (some "b1") "Msg" first := by
  refine ⟨[], [second id], rfl, rfl, rfl, fun y hy => ?_⟩
  rw [List.mem_singleton.1 hy]
  exact fun h => absurd h.1 (show some "b2" ≠ some "b1" by decide)

theorem own : OwnId (T 0x124) first.message := by
  intro y hy hans
  simp only [T, db, List.mem_cons, List.not_mem_nil, or_false] at hy
  rcases hy with rfl | rfl
  · rfl
  · exact absurd (hans.2 0 (by decide) (by decide)) (by decide)

/-- The frame that is sent. -/
def sent (id : Nat) : Except Err Frame × State :=
  (tester id "F").send fo "Msg" (some [("Mux", .num 1), ("A", .num 10)])

def frame : Frame := { id := 0x123, data := [1, 165, 160, 29] }

theorem sent_ok {id : Nat} (h : id = 0x123 ∨ id = 0x124) : sent id = (.ok frame, (sent id).2) := by
  have h : (sent id).1.toOption = some frame := by rcases h with rfl | rfl <;> decide +kernel
  cases hs : sent id with
  | mk o t =>
    rw [hs] at h
    cases o with
    | error e => cases h
    | ok f => obtain rfl := Option.some.inj h; rfl

/-- Only the tester of the other node sends the message periodically. -/
example : Sending ((tester 0x124 "F").control .start).periodic "Msg" ∧
    ¬ Sending ((tester 0x124 "E").control .start).periodic "Msg" := by
  constructor
  · refine (C67_start (tester_ok (.inr rfl) (.inr rfl)) "Msg").2 ⟨first, first_last _, rfl, ?_⟩
    rintro ⟨d, h1, -, h2⟩
    obtain rfl := Option.some.inj h1
    revert h2
    decide
  · intro h
    obtain ⟨x, hx, -, h2⟩ := (C67_start (tester_ok (.inr rfl) (.inl rfl)) "Msg").1 h
    obtain ⟨tm, e⟩ := (C67_messages (tester_ok (.inr rfl) (.inl rfl)) (.new _) "Msg" x).2 hx
    obtain ⟨tm', e'⟩ := (C67_messages (tester_ok (.inr rfl) (.inl rfl)) (.new (fo := fo) _) "Msg" first).2 (first_last _)
    rw [e] at e'
    obtain ⟨rfl, -⟩ := Prod.mk.inj (Option.some.inj e')
    exact h2 ⟨"E", rfl, by decide, by decide⟩

theorem enabled {id : Nat} (h : id = 0x123 ∨ id = 0x124) {dut : String} (hd : dut = "E" ∨ dut = "F") :
    (tester id dut).enabled "Msg" = true :=
  (C67_enabled (tester_ok h hd) (.new (fo := fo) _) "Msg" "Msg").1.2 ⟨first, by simp [T], rfl, rfl⟩

/-- The tester of one node receives what that of the other sends: the example meets all hypotheses. -/
example : ∃ r, (tester 0x124 "E").hear fo frame = { tester 0x124 "E" with input := receive ⟨"Msg", r⟩ (tester 0x124 "E").input } ∧
    Arrives fo sigs [("Mux", .num 1), ("P", .num 0), ("B", .num 0), ("A", .num 10)] true true true r := by
  have hmux : ∀ p ∈ sigs, p.isMultiplexer = true → p.conversion.isFloat = false ∧
      p.conversion.scale = 1 ∧ p.conversion.offset = 0 ∧ ((table p).map (·.2.toStr)).Nodup := by
    intro p hp hpm
    simp only [sigs, List.mem_cons, List.not_mem_nil, or_false] at hp
    rcases hp with rfl | rfl | rfl | rfl
    · cases hpm
    · cases hpm
    · cases hpm
    · decide +kernel
  have hpt : ∀ s ∈ sigs, s.conversion.isFloat = true → s.conversion.choices = none := by
    intro p hp
    simp only [sigs, List.mem_cons, List.not_mem_nil, or_false] at hp
    rcases hp with rfl | rfl | rfl | rfl <;> decide +kernel
  obtain ⟨tm, h1, -, h3⟩ := C67_talk_partial (tester_ok (.inr rfl) (.inr rfl)) (.new _) (tester_ok (.inr rfl) (.inl rfl)) (.new _)
    (inUse (.inr rfl)) (first_last _) own (enabled (.inr rfl) (.inl rfl)) rfl nodup built hpt msg_ok hmux (sent_ok (.inr rfl))
    (by decide)
  have hd : (dictGet? (sent 0x124).2.messages "Msg").map (·.2.data) =
      some [("Mux", .num 1), ("P", .num 0), ("B", .num 0), ("A", .num 10)] := by decide +kernel
  rw [h1] at hd
  have hd : tm.data = [("Mux", .num 1), ("P", .num 0), ("B", .num 0), ("A", .num 10)] := Option.some.inj hd
  obtain ⟨r, h4, -, h5, -⟩ := h3 (by
    intro p hp hpm q hq
    simp only [sigs, List.mem_cons, List.not_mem_nil, or_false] at hp
    rcases hp with rfl | rfl | rfl | rfl
    · cases hpm
    · cases hpm
    · cases hpm
    · rw [hd] at hq
      obtain rfl : (1 : Rat) = q := by
        have : dictGet? [("Mux", Value.num 1), ("P", .num 0), ("B", .num 0), ("A", .num 10)] "Mux" = some (.num 1) := by decide +kernel
        exact Value.num.inj (Option.some.inj (this.symm.trans hq))
      rfl)
  exact ⟨r, h4, hd ▸ h5⟩

/-- The same for raw values. -/
def rawTester (dut : String) : State := get (State.create fo (some dut) (T 0x124) (some "b1") false false true true)

theorem rawTester_ok {dut : String} (hd : dut = "E" ∨ dut = "F") :
    State.create fo (some dut) (T 0x124) (some "b1") false false true true = .ok (rawTester dut) := by
  have h : (State.create fo (some dut) (T 0x124) (some "b1") false false true true).toOption.isSome = true := by
    rcases hd with rfl | rfl <;> decide +kernel
  unfold rawTester
  cases hc : State.create fo (some dut) (T 0x124) (some "b1") false false true true with
  | ok m => rfl
  | error e => rw [hc] at h; cases h

example : ∃ f a' tm, (rawTester "F").send fo "Msg" (some [("Mux", .num 1), ("A", .num 10)]) = (.ok f, a') ∧
    dictGet? a'.messages "Msg" = some (first, tm) ∧ ∃ r, (rawTester "E").hear fo f =
      { rawTester "E" with input := receive ⟨"Msg", r⟩ (rawTester "E").input } := by
  have hok : ((rawTester "F").send fo "Msg" (some [("Mux", .num 1), ("A", .num 10)])).1.toOption.isSome = true := by
    decide +kernel
  have hd : (dictGet? ((rawTester "F").send fo "Msg" (some [("Mux", .num 1), ("A", .num 10)])).2.messages "Msg").map (·.2.data) =
      some [("Mux", .num 1), ("P", .num 0), ("B", .num 0), ("A", .num 10)] := by decide +kernel
  rcases hs : (rawTester "F").send fo "Msg" (some [("Mux", .num 1), ("A", .num 10)]) with ⟨o, a'⟩
  rw [hs] at hok hd
  cases o with
  | error e => cases hok
  | ok f =>
    obtain ⟨tm, h1, h2⟩ := C67_talk_raw_partial (rawTester_ok (.inr rfl)) (.new _) (rawTester_ok (.inl rfl)) (.new _)
      (inUse (.inr rfl)) (first_last _) own
      ((C67_enabled (rawTester_ok (.inl rfl)) (.new (fo := fo) _) "Msg" "Msg").1.2 ⟨first, by simp [T], rfl, rfl⟩)
      rfl nodup built (by
        intro p hp
        simp only [sigs, List.mem_cons, List.not_mem_nil, or_false] at hp
        rcases hp with rfl | rfl | rfl | rfl <;> decide +kernel) msg_ok hs
    rw [h1] at hd
    have hd : tm.data = [("Mux", .num 1), ("P", .num 0), ("B", .num 0), ("A", .num 10)] := Option.some.inj hd
    obtain ⟨r, h3, -⟩ := h2 (fun k v hk => by
      have := dictGet?_mem hk
      rw [hd] at this
      simp only [List.mem_cons, List.not_mem_nil, or_false, Prod.mk.injEq] at this
      rcases this with ⟨-, rfl⟩ | ⟨-, rfl⟩ | ⟨-, rfl⟩ | ⟨-, rfl⟩
      · exact ⟨1, by simp⟩
      · exact ⟨0, by simp⟩
      · exact ⟨0, by simp⟩
      · exact ⟨10, by simp⟩)
    exact ⟨f, a', tm, rfl, h1, r, h3⟩

/-- A database with a container. -/
def holder : BusMessage := { message := ⟨"C", 0x200, false, .inr { length := 8, contained := [] }, true⟩ }
def H : TestDatabase :=
  { messages := [holder], db := { messages := [holder.message], byName := [("C", holder.message)], byId := [(0x200, holder.message)] } }

end Example.Bus

open Example Example.Bus in
/-- C67 fails if a message of another bus has the same frame id: the tester looks up frame ids in the whole database, and
ignores what its own bus carries. -/
theorem C67_shared_id_fails : ∃ (T : TestDatabase) (a a' b : State) (f : Frame) (x : BusMessage), InUse T ∧
    State.create fo (some "F") T (some "b1") true true true true = .ok a ∧
    State.create fo (some "E") T (some "b1") true true true true = .ok b ∧
    LastOn T (some "b1") "Msg" x ∧ b.enabled "Msg" = true ∧
    a.send fo "Msg" (some [("Mux", .num 1), ("A", .num 10)]) = (.ok f, a') ∧ b.hear fo f = b := by
  refine ⟨T 0x123, _, _, _, frame, first, inUse (.inl rfl), tester_ok (.inl rfl) (.inr rfl), tester_ok (.inl rfl) (.inl rfl),
    first_last _, enabled (.inl rfl) (.inl rfl), sent_ok (.inl rfl), ?_⟩
  have h : (tester 0x123 "E").onFrame fo frame = .ok none := by
    have : ((tester 0x123 "E").onFrame fo frame).toOption = some none := by decide +kernel
    cases ho : (tester 0x123 "E").onFrame fo frame with
    | error e => rw [ho] at this; cases this
    | ok o => rw [ho] at this; obtain rfl := Option.some.inj this; rfl
  unfold State.hear
  rw [h]

open Example Example.Bus in
/-- C67: a database with a container has no tester, whatever the options are. -/
theorem C67_container_fails : InUse H ∧ GoodNames H none none ∧ ∀ dc sc pad st, ∃ e,
    State.create fo none H none dc sc pad st = .error e := by
  refine ⟨⟨⟨{ H.db with byName := [], byId := [] }, rfl⟩, rfl, ?_, ?_⟩, ⟨fun d h => (by cases h), fun _ => rfl, fun h => (h rfl).elim⟩,
    fun dc sc pad st => ?_⟩
  · intro m hm
    rw [List.mem_singleton.1 hm]
    decide
  · intro m hm _
    rw [List.mem_singleton.1 hm]
    decide
  · cases st
    · exact ⟨_, rfl⟩
    · exact ⟨_, rfl⟩

end Cantools
