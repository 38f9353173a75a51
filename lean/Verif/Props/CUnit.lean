import Verif.Lemmas.CUnit

/-
C71: helpers, variables and members that the generated pack and unpack functions use.
-/

namespace Cantools
open C

namespace C

/-- A generated function of a message. -/
def FunctionOf (ms : List UnitMessage) (kinds : List (Bool × Nat)) (emitted : GenMessage → Bool) (f : UnitFunction) :
    Prop :=
  ∃ m ∈ ms, f.message = m.info ∧ 0 < m.info.length ∧ emitted m.info = true ∧
    (∀ k ∈ f.body.calls, k ∈ kinds) ∧
      ∃ before after, Written (m.info.signals.map (·.signal)) before f.locals f.body after

theorem FunctionOf.mono {ms ms' : List UnitMessage} {kinds kinds' : List (Bool × Nat)} {e : GenMessage → Bool}
    {f : UnitFunction} (h : FunctionOf ms kinds e f) (hm : ∀ m ∈ ms, m ∈ ms') (hk : ∀ k ∈ kinds, k ∈ kinds') :
    FunctionOf ms' kinds' e f := by
  obtain ⟨m, h1, h2, h3, h4, h5, h6⟩ := h
  exact ⟨m, hm m h1, h2, h3, h4, fun k hk' => hk k (h5 k hk'), h6⟩

/-- What holds of the functions and helpers for one direction. -/
structure SideInv (o : Options) (ms : List UnitMessage) (e : GenMessage → Bool) (fs : List UnitFunction)
    (kinds : List (Bool × Nat)) : Prop where
  nodup : kinds.Nodup
  widths : ∀ k ∈ kinds, ∃ s, k.2 = typeLength s
  functions : ∀ f ∈ fs, FunctionOf ms kinds e f
  used : o.node = none → ∀ k ∈ kinds, ∃ f ∈ fs, k ∈ f.body.calls

theorem SideInv.mono {o : Options} {ms : List UnitMessage} {e : GenMessage → Bool} {fs : List UnitFunction}
    {kinds : List (Bool × Nat)} (h : SideInv o ms e fs kinds) (m : UnitMessage) : SideInv o (ms ++ [m]) e fs kinds :=
  ⟨h.nodup, h.widths, fun f hf => (h.functions f hf).mono (fun _ h => List.mem_append_left _ h) fun _ h => h, h.used⟩

theorem SideInv.add {o : Options} {ms : List UnitMessage} {e : GenMessage → Bool} {fs : List UnitFunction}
    {kinds kinds' : List (Bool × Nat)} {m : UnitMessage} {locals : List (Nat × Chars)} {body : Code Stmt}
    (h : SideInv o ms e fs kinds) (hlen : 0 < m.info.length) (he : o.node = none → e m.info = true)
    (w : Written (m.info.signals.map (·.signal)) kinds locals body kinds') :
    SideInv o (ms ++ [m]) e (fs ++ if e m.info then [⟨m.info, locals, body⟩] else []) kinds' where
  nodup := w.nodup h.nodup
  widths k hk := ((w.kept k).1 hk).elim (h.widths k) fun hc => (w.widths k hc).imp fun _ h => h.2
  functions f hf := by
    rcases List.mem_append.1 hf with hf | hf
    · exact (h.functions f hf).mono (fun _ h => List.mem_append_left _ h) fun k hk => (w.kept k).2 (.inl hk)
    · split at hf
      · rename_i hem
        rw [List.mem_singleton.1 hf]
        exact ⟨m, List.mem_append_right _ (List.mem_singleton.2 rfl), rfl, hlen, hem,
          fun k hk => (w.kept k).2 (.inr hk), _, _, w⟩
      · cases hf
  used hn k hk := by
    rcases (w.kept k).1 hk with hk | hk
    · obtain ⟨f, hf, hc⟩ := h.used hn k hk
      exact ⟨f, List.mem_append_left _ hf, hc⟩
    · rw [if_pos (he hn)]
      exact ⟨_, List.mem_append_right _ (List.mem_singleton.2 rfl), hk⟩

theorem defineMessage_inv {o : Options} {ms : List UnitMessage} {d d' : Definitions} {m : UnitMessage}
    (hp : SideInv o ms (isSender o) d.packs d.packKinds) (hu : SideInv o ms (receives o) d.unpacks d.unpackKinds)
    (h : defineMessage o d m = .ok d') :
    SideInv o (ms ++ [m]) (isSender o) d'.packs d'.packKinds ∧
      SideInv o (ms ++ [m]) (receives o) d'.unpacks d'.unpackKinds := by
  unfold defineMessage at h
  by_cases hlen : 0 < m.info.length
  · rw [if_pos hlen] at h
    cases h1 : formatCode (packText (m.info.signals.map (·.signal))) (fun _ => .ok false) m.tree d.packKinds with
    | error e => simp only [h1, bind, Except.bind] at h; cases h
    | ok p =>
      cases h2 : formatCode (unpackText (m.info.signals.map (·.signal))) (notReceived o m.info.signals) m.tree d.unpackKinds with
      | error e => simp only [h1, h2, bind, Except.bind] at h; cases h
      | ok u =>
        simp only [h1, h2, bind, Except.bind, pure, Except.pure] at h
        injection h with h
        subst h
        exact ⟨hp.add hlen (fun hn => by unfold isSender; rw [hn]) (formatCode_written (packText_tracks _) h1),
          hu.add hlen (fun hn => by unfold receives; rw [hn]; rfl) (formatCode_written (unpackText_tracks _) h2)⟩
  · rw [if_neg hlen] at h
    injection h with h
    subst h
    exact ⟨hp.mono m, hu.mono m⟩

theorem defineFrom_inv {o : Options} (ms : List UnitMessage) : ∀ (pre : List UnitMessage) (d d' : Definitions),
    SideInv o pre (isSender o) d.packs d.packKinds → SideInv o pre (receives o) d.unpacks d.unpackKinds →
      ms.foldlM (defineMessage o) d = .ok d' →
        SideInv o (pre ++ ms) (isSender o) d'.packs d'.packKinds ∧
          SideInv o (pre ++ ms) (receives o) d'.unpacks d'.unpackKinds := by
  induction ms with
  | nil =>
    intro pre d d' hp hu h
    injection h with h
    subst h
    rw [List.append_nil]
    exact ⟨hp, hu⟩
  | cons m ms ih =>
    intro pre d d' hp hu h
    rw [List.foldlM_cons] at h
    cases hm : defineMessage o d m with
    | error e => rw [hm] at h; cases h
    | ok d1 =>
      rw [hm] at h
      obtain ⟨h1, h2⟩ := defineMessage_inv hp hu hm
      have := ih (pre ++ [m]) d1 d' h1 h2 h
      rwa [List.append_assoc] at this

theorem defineAll_inv {o : Options} {ms : List UnitMessage} {d : Definitions} (h : defineAll o ms = .ok d) :
    SideInv o ms (isSender o) d.packs d.packKinds ∧ SideInv o ms (receives o) d.unpacks d.unpackKinds :=
  defineFrom_inv ms [] {} d ⟨by simp, by simp, by simp, by simp⟩ ⟨by simp, by simp, by simp, by simp⟩ h

theorem typeLength_mem (s : Signal) : typeLength s ∈ [8, 16, 32, 64] := by
  unfold typeLength
  split
  · simp
  · split
    · simp
    · split <;> simp

theorem helperName_inj {a b : Bool} {k l : Bool × Nat} {s t : Signal} (hk : k.2 = typeLength s) (hl : l.2 = typeLength t)
    (h : helperName a k = helperName b l) : a = b ∧ k = l := by
  have h1 := typeLength_mem s
  have h2 := typeLength_mem t
  rw [← hk] at h1
  rw [← hl] at h2
  have key : ∀ a b x y : Bool, ∀ n ∈ [8, 16, 32, 64], ∀ m ∈ [8, 16, 32, 64],
      helperName a (x, n) = helperName b (y, m) → a = b ∧ x = y ∧ n = m := by decide +kernel
  obtain ⟨r1, r2, r3⟩ := key a b k.1 l.1 k.2 h1 l.2 h2 h
  exact ⟨r1, Prod.ext r2 r3⟩

end C

/-- C71: every helper function that the pack and unpack functions call is defined, and no helper is defined twice. -/
theorem C71_helpers_defined {o : Options} {ms : List UnitMessage} {d : Definitions} (h : defineAll o ms = .ok d) :
    (helperNames d).Nodup ∧ ∀ c ∈ calledNames d, c ∈ helperNames d := by
  obtain ⟨hp, hu⟩ := defineAll_inv h
  constructor
  · unfold helperNames
    rw [List.nodup_append]
    refine ⟨List.Nodup.map_on ?_ hp.nodup, List.Nodup.map_on ?_ hu.nodup, ?_⟩
    · intro k hk l hl e
      obtain ⟨_, h1⟩ := hp.widths k hk
      obtain ⟨_, h2⟩ := hp.widths l hl
      exact (helperName_inj h1 h2 e).2
    · intro k hk l hl e
      obtain ⟨_, h1⟩ := hu.widths k hk
      obtain ⟨_, h2⟩ := hu.widths l hl
      exact (helperName_inj h1 h2 e).2
    · intro a ha b hb e
      obtain ⟨k, hk, rfl⟩ := List.mem_map.1 ha
      obtain ⟨l, hl, rfl⟩ := List.mem_map.1 hb
      obtain ⟨_, h1⟩ := hp.widths k hk
      obtain ⟨_, h2⟩ := hu.widths l hl
      exact Bool.noConfusion (helperName_inj h1 h2 e).1
  · intro c hc
    rcases List.mem_append.1 hc with hc | hc
    · obtain ⟨f, hf, hc⟩ := List.mem_flatMap.1 hc
      obtain ⟨k, hk, rfl⟩ := List.mem_map.1 hc
      obtain ⟨_, _, _, _, _, h5, _⟩ := hp.functions f hf
      exact List.mem_append_left _ (List.mem_map_of_mem (h5 k hk))
    · obtain ⟨f, hf, hc⟩ := List.mem_flatMap.1 hc
      obtain ⟨k, hk, rfl⟩ := List.mem_map.1 hc
      obtain ⟨_, _, _, _, _, h5, _⟩ := hu.functions f hf
      exact List.mem_append_right _ (List.mem_map_of_mem (h5 k hk))

/-- C71: without the option for a node, every helper that is defined is called. -/
theorem C71_helpers_used {o : Options} {ms : List UnitMessage} {d : Definitions} (h : defineAll o ms = .ok d)
    (hn : o.node = none) : ∀ c ∈ helperNames d, c ∈ calledNames d := by
  obtain ⟨hp, hu⟩ := defineAll_inv h
  intro c hc
  rcases List.mem_append.1 hc with hc | hc
  · obtain ⟨k, hk, rfl⟩ := List.mem_map.1 hc
    obtain ⟨f, hf, hk⟩ := hp.used hn k hk
    exact List.mem_append_left _ (List.mem_flatMap.2 ⟨f, hf, List.mem_map_of_mem hk⟩)
  · obtain ⟨k, hk, rfl⟩ := List.mem_map.1 hc
    obtain ⟨f, hf, hk⟩ := hu.used hn k hk
    exact List.mem_append_right _ (List.mem_flatMap.2 ⟨f, hf, List.mem_map_of_mem hk⟩)

/-- C71: every variable that a function uses is declared in it.  If the names of the signals of a message differ in C,
and none of them is that of a parameter, then no name is declared twice in a function. -/
theorem C71_variables {o : Options} {ms : List UnitMessage} {d : Definitions} (h : defineAll o ms = .ok d) :
    ∀ f ∈ d.packs ++ d.unpacks, (∀ x, .var x ∈ f.body.places → x ∈ f.locals.map (·.2)) ∧
      ((f.message.signals.map GenSignal.snake).Nodup → (∀ s ∈ f.message.signals, s.snake ∉ parameterNames) →
        (parameterNames ++ f.locals.map (·.2)).Nodup) := by
  obtain ⟨hp, hu⟩ := defineAll_inv h
  intro f hf
  have : ∃ m ∈ ms, f.message = m.info ∧ ∃ before after,
      Written (m.info.signals.map (·.signal)) before f.locals f.body after := by
    rcases List.mem_append.1 hf with hf | hf
    · obtain ⟨m, h1, h2, _, _, _, h6⟩ := hp.functions f hf
      exact ⟨m, h1, h2, h6⟩
    · obtain ⟨m, h1, h2, _, _, _, h6⟩ := hu.functions f hf
      exact ⟨m, h1, h2, h6⟩
  obtain ⟨m, _, hm, _, _, w⟩ := this
  rw [← hm] at w
  refine ⟨fun x hx => ?_, fun hnd hpar => ?_⟩
  · obtain ⟨_, h⟩ := w.declared x hx
    exact List.mem_map.2 ⟨_, h, rfl⟩
  · have orig : ∀ v ∈ f.locals, ∃ s ∈ f.message.signals, v = (typeLength s.signal, s.snake) := by
      intro v hv
      obtain ⟨s, hs, rfl⟩ := w.origin v hv
      obtain ⟨g, hg, rfl⟩ := List.mem_map.1 hs
      exact ⟨g, hg, rfl⟩
    rw [List.nodup_append]
    refine ⟨by decide +kernel, List.Nodup.map_on ?_ w.distinct, ?_⟩
    · intro v hv u hu e
      obtain ⟨s, hs, rfl⟩ := orig v hv
      obtain ⟨t, ht, rfl⟩ := orig u hu
      rw [List.inj_on_of_nodup_map hnd hs ht e]
    · intro a ha b hb e
      obtain ⟨v, hv, rfl⟩ := List.mem_map.1 hb
      obtain ⟨s, hs, rfl⟩ := orig v hv
      subst e
      exact hpar s hs ha

/-- C71: every member that a function accesses is one of the struct of its message, which is declared. -/
theorem C71_members {o : Options} {ms : List UnitMessage} {d : Definitions} (h : defineAll o ms = .ok d) :
    ∀ f ∈ d.packs ++ d.unpacks, ∃ members, (o.structName f.message, members) ∈ structs o (ms.map (·.info)) ∧
      ∀ x, .member x ∈ f.body.places → ∃ c ∈ members, c.name = x := by
  obtain ⟨hp, hu⟩ := defineAll_inv h
  intro f hf
  have : ∃ m ∈ ms, f.message = m.info ∧ isSenderOrReceiver o m.info = true ∧ ∃ before after,
      Written (m.info.signals.map (·.signal)) before f.locals f.body after := by
    rcases List.mem_append.1 hf with hf | hf
    · obtain ⟨m, h1, h2, _, h4, _, h6⟩ := hp.functions f hf
      exact ⟨m, h1, h2, by unfold isSenderOrReceiver; rw [h4]; rfl, h6⟩
    · obtain ⟨m, h1, h2, _, h4, _, h6⟩ := hu.functions f hf
      refine ⟨m, h1, h2, ?_, h6⟩
      unfold isSenderOrReceiver
      unfold receives at h4
      cases hn : o.node with
      | none => unfold isSender; rw [hn]; rfl
      | some n =>
        rw [hn] at h4
        rw [Bool.or_eq_true]
        exact .inr (by simpa using h4)
  obtain ⟨m, hms, hm, hsr, _, _, w⟩ := this
  refine ⟨C.members o.bitFields m.info, ?_, fun x hx => ?_⟩
  · rw [hm]
    exact List.mem_map.2 ⟨m.info, List.mem_filter.2 ⟨List.mem_map_of_mem hms, hsr⟩, rfl⟩
  · obtain ⟨s, hs, hx⟩ := w.members x hx
    obtain ⟨g, hg, rfl⟩ := List.mem_map.1 hs
    refine ⟨member o.bitFields g, ?_, hx⟩
    unfold C.members
    rw [if_neg (by cases hl : m.info.signals <;> simp_all)]
    exact List.mem_map_of_mem hg

namespace C.UnitExample

def size : GenSignal := { signal := { name := "Size", start := 0, length := 8, byteOrder := .little, isSigned := true } }
def level : GenSignal := { signal := { name := "FillLevel", start := 8, length := 12, byteOrder := .little } }
def temp : GenSignal :=
  { signal := { name := "OilTemp", start := 8, length := 12, byteOrder := .little, isSigned := true } }

/-- `size` selects one of the others. -/
def tank : UnitMessage where
  info := { name := "Tank", frameId := 1, length := 8, signals := [size, level, temp] }
  tree := .mux "Size" (.cons 0 (.leaf "FillLevel" .nil) (.cons 1 (.leaf "OilTemp" .nil) .nil)) .nil

def oil : UnitMessage where
  info := { name := "Oil", frameId := 2, length := 8, signals := [level, temp] }
  tree := .leaf "FillLevel" (.leaf "OilTemp" .nil)

def gear : UnitMessage where
  info := { name := "Gear", frameId := 3, length := 8, signals := [{ signal := { size.signal with name := "Default" } }] }
  tree := .leaf "Default" .nil

def defined (o : Options) (ms : List UnitMessage) : Definitions :=
  match defineAll o ms with | .ok d => d | .error _ => {}

end C.UnitExample

open C.UnitExample

/-- C71: a signed signal called `Size` becomes a variable with the name of a parameter: the code does not compile. -/
theorem C71_parameter_fails : ∃ (o : Options) (m : UnitMessage) (d : Definitions), defineAll o [m] = .ok d ∧
    (m.info.signals.map GenSignal.snake).Nodup ∧
      ∃ f ∈ d.packs, ¬ (parameterNames ++ f.locals.map (·.2)).Nodup :=
  ⟨{ database := ['d'] }, tank, defined { database := ['d'] } [tank], by rfl, by decide +kernel, by decide +kernel⟩

/-- Some of the keywords of C. -/
def cKeywords : List String := ["auto", "break", "case", "const", "default", "double", "float", "int", "long", "register", "short",
  "signed", "static", "switch", "union", "unsigned", "void", "volatile", "while"]

/-- C71: a signal called `Default` becomes a struct member and a variable whose name is a keyword: the code does not
compile. -/
theorem C71_keyword_fails : ∃ (o : Options) (m : UnitMessage) (d : Definitions), defineAll o [m] = .ok d ∧
    (∃ e ∈ structs o [m.info], ∃ c ∈ e.2, String.ofList c.name ∈ cKeywords) ∧
      ∃ f ∈ d.packs, ∃ v ∈ f.locals, String.ofList v.2 ∈ cKeywords :=
  ⟨{ database := ['d'] }, gear, defined { database := ['d'] } [gear], by rfl, by decide +kernel, by decide +kernel⟩

/-- C71: with a node, helpers are also defined for functions that are left out. -/
theorem C71_node_unused : ∃ (o : Options) (m : UnitMessage) (d : Definitions), defineAll o [m] = .ok d ∧
    ∃ c ∈ helperNames d, c ∉ calledNames d :=
  ⟨{ database := ['d'], node := some "N" }, oil, defined { database := ['d'], node := some "N" } [oil], by rfl,
    by decide +kernel⟩

/-- Two messages, one of them multiplexed. -/
example : ∃ d, defineAll { database := ['d'] } [tank, oil] = .ok d ∧ d.packs.length = 2 ∧ d.unpacks.length = 2 ∧
    helperNames d = ["pack_left_shift_u8".toList, "pack_left_shift_u16".toList, "pack_right_shift_u16".toList,
      "unpack_right_shift_u8".toList, "unpack_right_shift_u16".toList, "unpack_left_shift_u16".toList] ∧
    (calledNames d).length = 18 :=
  ⟨defined { database := ['d'] } [tank, oil], by rfl, by decide +kernel, by decide +kernel, by decide +kernel, by decide +kernel⟩

/-- The names of `oil` differ, and none is that of a parameter; it has a variable. -/
example : (oil.info.signals.map GenSignal.snake).Nodup ∧ (∀ s ∈ oil.info.signals, s.snake ∉ parameterNames) ∧
    (defined { database := ['d'] } [oil]).packs.map (·.locals) = [[(16, "oil_temp".toList)]] := by decide +kernel

end Cantools
