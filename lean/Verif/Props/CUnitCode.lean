import Verif.Props.CUnit

/-
C71: the bodies as text and as the code of C30 are the same.
-/

namespace Cantools
open C

namespace C

/-
Code with every statement replaced by several.
-/
mutual
def Code.expand {α β : Type} (f : α → List β) : Code α → Code β
  | .nil => .nil
  | .op a rest => Code.ops (f a) (rest.expand f)
  | .switch n cases rest => .switch n (cases.expand f) (rest.expand f)
def Cases.expand {α β : Type} (f : α → List β) : Cases α → Cases β
  | .nil => .nil
  | .cons i body rest => .cons i (body.expand f) (rest.expand f)
end

/-- The lines of a signal that is packed: for floats and signed integers, first the copy to a variable. -/
def PackSignal.text (sigs : List Signal) (p : PackSignal) : List Stmt :=
  match getSignal sigs p.member with
  | .error _ => []
  | .ok s =>
    (if s.conversion.isFloat then [.memcpy (.var (snakeOf s)) (.member (snakeOf s))]
      else if s.isSigned then [.assign (.var (snakeOf s)) (.member (snakeOf s))] else []) ++
      p.segs.map fun g => .pack (placeOf s) p.width g

/-- The lines of a signal that is unpacked: the first one assigns, the others add bits; then sign extension and
conversion. -/
def UnpackSignal.text (u : UnpackSignal) : List Stmt :=
  let name := camelToSnake u.member.toList
  let place := if u.floatBits.isSome || u.signed then Place.var name else Place.member name
  (u.segs.mapIdx fun i g => .unpack place (i == 0) u.width g) ++
    (u.extend.toList.map fun e => .extend (.var name) e.1 e.2) ++
      if u.floatBits.isSome then [.memcpy (.member name) (.var name)]
      else if u.signed then [.assign (.member name) (.var name)] else []

theorem ops_append {α : Type} (a b : List α) (c : Code α) : Code.ops (a ++ b) c = Code.ops a (Code.ops b c) :=
  List.foldr_append

theorem expand_ops {α β : Type} (f : α → List β) (l : List α) (c : Code α) :
    (Code.ops l c).expand f = Code.ops (l.flatMap f) (c.expand f) := by
  induction l with
  | nil => rfl
  | cons a l ih =>
    show (Code.op a (Code.ops l c)).expand f = _
    rw [Code.expand, ih, List.flatMap_cons, ops_append]

section
variable {α : Type} {gen : String → Collected → Except Err (List Stmt × Collected)} {gen' : String → Except Err α}
  {skip : String → Except Err Bool} {f : α → List Stmt}

mutual
theorem linesLevel_expand (hg : ∀ n st r, gen n st = .ok r → ∃ a, gen' n = .ok a ∧ r.1 = f a) :
    ∀ (t : SigTree) (st : Collected) (r : (List Stmt × Code Stmt) × Collected), linesLevel gen skip t st = .ok r →
      ∃ b, genLevel gen' skip t = .ok b ∧ r.1.1 = b.1.flatMap f ∧ r.1.2 = b.2.expand f
  | .nil, st, r, h => by
    rw [linesLevel] at h
    injection h with h
    subst h
    exact ⟨_, by rw [genLevel], rfl, by rw [Code.expand]⟩
  | .leaf n rest, st, r, h => by
    rw [linesLevel] at h
    rw [genLevel]
    cases hk : skip n with
    | error e => simp only [hk, bind, Except.bind] at h; cases h
    | ok sk =>
      simp only [hk, bind, Except.bind, pure, Except.pure] at h ⊢
      cases hh : (if sk then .ok ([], st) else gen n st : Except Err (List Stmt × Collected)) with
      | error e => rw [hh] at h; cases h
      | ok here =>
        rw [hh] at h
        dsimp only at h
        cases hr : linesLevel gen skip rest here.2 with
        | error e => rw [hr] at h; cases h
        | ok r' =>
          rw [hr] at h
          injection h with h
          subst h
          obtain ⟨b, hb, h1, h2⟩ := linesLevel_expand hg rest _ _ hr
          cases sk with
          | true =>
            injection hh with hh
            subst hh
            simp only [if_true, hb]
            exact ⟨_, rfl, by simpa using h1, h2⟩
          | false =>
            obtain ⟨a, ha, e⟩ := hg n st here hh
            simp only [Bool.false_eq_true, if_false, ha, hb]
            exact ⟨_, rfl, by simp [e, h1], h2⟩
  | .mux n branches rest, st, r, h => by
    rw [linesLevel] at h
    rw [genLevel]
    cases ha : gen n st with
    | error e => simp only [ha, bind, Except.bind] at h; cases h
    | ok a =>
      simp only [ha, bind, Except.bind, pure, Except.pure] at h ⊢
      cases hc : linesCases gen skip branches a.2 with
      | error e => rw [hc] at h; cases h
      | ok c =>
        rw [hc] at h
        dsimp only at h
        cases hr : linesLevel gen skip rest c.2 with
        | error e => rw [hr] at h; cases h
        | ok r' =>
          rw [hr] at h
          injection h with h
          subst h
          obtain ⟨x, hx, e⟩ := hg n st a ha
          obtain ⟨y, hy, e2⟩ := linesCases_expand hg branches _ _ hc
          obtain ⟨b, hb, h1, h2⟩ := linesLevel_expand hg rest _ _ hr
          simp only [hx, hy, hb]
          exact ⟨_, rfl, by simp [e, h1], by rw [Code.expand, e2, h2]⟩
theorem linesCases_expand (hg : ∀ n st r, gen n st = .ok r → ∃ a, gen' n = .ok a ∧ r.1 = f a) :
    ∀ (t : TreeBranches) (st : Collected) (r : Cases Stmt × Collected), linesCases gen skip t st = .ok r →
      ∃ b, genCases gen' skip t = .ok b ∧ r.1 = b.expand f
  | .nil, st, r, h => by
    rw [linesCases] at h
    injection h with h
    subst h
    exact ⟨_, by rw [genCases], by rw [Cases.expand]⟩
  | .cons i tree rest, st, r, h => by
    rw [linesCases] at h
    rw [genCases]
    cases hb : linesLevel gen skip tree st with
    | error e => simp only [hb, bind, Except.bind] at h; cases h
    | ok b =>
      simp only [hb, bind, Except.bind, pure, Except.pure] at h ⊢
      cases hr : linesCases gen skip rest b.2 with
      | error e => rw [hr] at h; cases h
      | ok r' =>
        rw [hr] at h
        injection h with h
        subst h
        obtain ⟨x, hx, e1, e2⟩ := linesLevel_expand hg tree _ _ hb
        obtain ⟨y, hy, e3⟩ := linesCases_expand hg rest _ _ hr
        simp only [hx, hy]
        exact ⟨_, rfl, by rw [Cases.expand, expand_ops, e1, e2, e3]⟩
end

theorem formatCode_expand (hg : ∀ n st r, gen n st = .ok r → ∃ a, gen' n = .ok a ∧ r.1 = f a) {t : SigTree}
    {kinds : List (Bool × Nat)} {r : (List (Nat × Chars) × Code Stmt) × List (Bool × Nat)}
    (h : formatCode gen skip t kinds = .ok r) : ∃ c, genBody gen' skip t = .ok c ∧ r.1.2 = c.expand f := by
  unfold formatCode at h
  cases hl : linesLevel gen skip t { kinds } with
  | error e => simp only [hl, bind, Except.bind] at h; cases h
  | ok l =>
    simp only [hl, bind, Except.bind, pure, Except.pure] at h
    injection h with h
    subst h
    obtain ⟨b, hb, h1, h2⟩ := linesLevel_expand hg t _ _ hl
    refine ⟨Code.ops b.1 b.2, by unfold genBody; rw [hb]; rfl, ?_⟩
    rw [expand_ops, ← h1, ← h2]

end

theorem packText_expand (sigs : List Signal) (n : String) (st : Collected) (r : List Stmt × Collected)
    (h : packText sigs n st = .ok r) : ∃ a, genPackSignal sigs n = .ok a ∧ r.1 = a.text sigs := by
  unfold packText at h
  unfold genPackSignal
  cases hg : getSignal sigs n with
  | error e => rw [hg] at h; cases h
  | ok s =>
    rw [hg] at h
    injection h with h
    subst h
    refine ⟨_, rfl, ?_⟩
    simp only [PackSignal.text, hg]

theorem unpackCalls_mapIdx (s : Signal) (b : Bool) (segs : List Segment) :
    unpackCalls s b segs = segs.mapIdx fun i g => .unpack (placeOf s) (b && i == 0) (typeLength s) g := by
  induction segs generalizing b with
  | nil => rfl
  | cons g r ih =>
    rw [unpackCalls, ih, List.mapIdx_cons]
    simp

theorem unpackText_expand (sigs : List Signal) (n : String) (st : Collected) (r : List Stmt × Collected)
    (h : unpackText sigs n st = .ok r) : ∃ a, genUnpackSignal sigs n = .ok a ∧ r.1 = a.text := by
  unfold unpackText at h
  unfold genUnpackSignal
  cases hg : getSignal sigs n with
  | error e => rw [hg] at h; cases h
  | ok s =>
    rw [hg] at h
    obtain ⟨_, rfl⟩ := getSignal_ok hg
    cases he : signExtension s with
    | error e => simp only [he, bind, Except.bind] at h; cases h
    | ok ext =>
      simp only [he, bind, Except.bind, pure, Except.pure] at h ⊢
      injection h with h
      subst h
      refine ⟨_, rfl, ?_⟩
      simp only [UnpackSignal.text, unpackCalls_mapIdx, placeOf, hasVariable, snakeOf, Bool.true_and]
      have none_of : s.conversion.isFloat = true ∨ s.isSigned = false → ext = none := by
        intro hc
        unfold signExtension at he
        rw [if_pos hc] at he
        injection he with he
        exact he.symm
      rcases Bool.eq_false_or_eq_true s.conversion.isFloat with hf | hf
      · rw [none_of (.inl hf)]; simp [hf]
      · rcases Bool.eq_false_or_eq_true s.isSigned with hs | hs
        · cases ext <;> simp [hf, hs]
        · rw [none_of (.inr hs)]; simp [hf, hs]

/-- How the functions of one direction were generated. -/
theorem defineFrom_codes {o : Options} (ms : List UnitMessage) : ∀ (d d' : Definitions),
    ms.foldlM (defineMessage o) d = .ok d' →
      (∀ f ∈ d'.packs, f ∈ d.packs ∨ ∃ m ∈ ms, f.message = m.info ∧ ∃ c,
        genBody (genPackSignal (m.info.signals.map (·.signal))) (fun _ => .ok false) m.tree = .ok c ∧
          f.body = c.expand (PackSignal.text (m.info.signals.map (·.signal)))) ∧
      ∀ f ∈ d'.unpacks, f ∈ d.unpacks ∨ ∃ m ∈ ms, f.message = m.info ∧ ∃ c,
        genBody (genUnpackSignal (m.info.signals.map (·.signal))) (notReceived o m.info.signals) m.tree = .ok c ∧
          f.body = c.expand UnpackSignal.text := by
  induction ms with
  | nil =>
    intro d d' h
    injection h with h
    subst h
    exact ⟨fun _ h => .inl h, fun _ h => .inl h⟩
  | cons m ms ih =>
    intro d d' h
    rw [List.foldlM_cons] at h
    cases hm : defineMessage o d m with
    | error e => rw [hm] at h; cases h
    | ok d1 =>
      rw [hm] at h
      obtain ⟨i1, i2⟩ := ih d1 d' h
      unfold defineMessage at hm
      by_cases hlen : 0 < m.info.length
      · rw [if_pos hlen] at hm
        cases h1 : formatCode (packText (m.info.signals.map (·.signal))) (fun _ => .ok false) m.tree d.packKinds with
        | error e => simp only [h1, bind, Except.bind] at hm; cases hm
        | ok p =>
          cases h2 : formatCode (unpackText (m.info.signals.map (·.signal))) (notReceived o m.info.signals) m.tree d.unpackKinds with
          | error e => simp only [h1, h2, bind, Except.bind] at hm; cases hm
          | ok u =>
            simp only [h1, h2, bind, Except.bind, pure, Except.pure] at hm
            injection hm with hm
            subst hm
            constructor
            · intro f hf
              rcases i1 f hf with hf | ⟨m', hm', r⟩
              · rcases List.mem_append.1 hf with hf | hf
                · exact .inl hf
                · split at hf
                  · rw [List.mem_singleton.1 hf]
                    exact .inr ⟨m, List.mem_cons_self, rfl, formatCode_expand (packText_expand _) h1⟩
                  · cases hf
              · exact .inr ⟨m', List.mem_cons_of_mem _ hm', r⟩
            · intro f hf
              rcases i2 f hf with hf | ⟨m', hm', r⟩
              · rcases List.mem_append.1 hf with hf | hf
                · exact .inl hf
                · split at hf
                  · rw [List.mem_singleton.1 hf]
                    exact .inr ⟨m, List.mem_cons_self, rfl, formatCode_expand (unpackText_expand _) h2⟩
                  · cases hf
              · exact .inr ⟨m', List.mem_cons_of_mem _ hm', r⟩
      · rw [if_neg hlen] at hm
        injection hm with hm
        subst hm
        exact ⟨fun f hf => (i1 f hf).imp id fun ⟨m', hm', r⟩ => ⟨m', List.mem_cons_of_mem _ hm', r⟩,
          fun f hf => (i2 f hf).imp id fun ⟨m', hm', r⟩ => ⟨m', List.mem_cons_of_mem _ hm', r⟩⟩

end C

/-- C71: the body of a pack function is the code of C30, written out line by line. -/
theorem C71_pack_code {o : Options} {ms : List UnitMessage} {d : Definitions} (h : defineAll o ms = .ok d) :
    ∀ f ∈ d.packs, ∃ m ∈ ms, f.message = m.info ∧ ∀ msg : Message, msg.signals = m.info.signals.map (·.signal) →
      treeOfCodec msg.codec = m.tree → ∃ c, genPack msg = .ok c ∧ f.body = c.expand (PackSignal.text msg.signals) := by
  intro f hf
  rcases (defineFrom_codes ms {} d h).1 f hf with hf | ⟨m, hm, hi, c, hc, hb⟩
  · cases hf
  · refine ⟨m, hm, hi, fun msg hs ht => ⟨c, ?_, ?_⟩⟩
    · unfold genPack
      rw [hs, ht, hc]
    · rw [hs, hb]

/-- C71: and that of an unpack function, with the receivers of the signals. -/
theorem C71_unpack_code {o : Options} {ms : List UnitMessage} {d : Definitions} (h : defineAll o ms = .ok d) :
    ∀ f ∈ d.unpacks, ∃ m ∈ ms, f.message = m.info ∧ ∀ (msg : Message) (receiver : Signal → Bool),
      msg.signals = m.info.signals.map (·.signal) → treeOfCodec msg.codec = m.tree →
        (∀ s ∈ m.info.signals, receiver s.signal = isReceiver o s) →
          ∃ c, genUnpack receiver msg = .ok c ∧ f.body = c.expand UnpackSignal.text := by
  intro f hf
  rcases (defineFrom_codes ms {} d h).2 f hf with hf | ⟨m, hm, hi, c, hc, hb⟩
  · cases hf
  · refine ⟨m, hm, hi, fun msg receiver hs ht hr => ⟨c, ?_, hb⟩⟩
    unfold genUnpack
    rw [hs, ht, ← hc]
    congr 1
    funext n
    unfold getSignal notReceived
    rw [List.find?_map]
    cases hx : m.info.signals.find? fun s => s.signal.name == n with
    | none =>
      have : List.find? ((fun s : Signal => s.name == n) ∘ fun x : GenSignal => x.signal) m.info.signals = none := hx
      rw [this]
      rfl
    | some s =>
      have : List.find? ((fun s : Signal => s.name == n) ∘ fun x : GenSignal => x.signal) m.info.signals = some s := hx
      rw [this]
      show Except.ok (!receiver s.signal) = _
      rw [hr s (List.mem_of_find?_eq_some hx)]

section
open C.UnitExample

/-- The pack function of `oil`: two lines for the first signal, and a copy and two lines for the second one. -/
example : ∃ f ∈ (defined { database := ['d'] } [oil]).packs, f.body.places =
    [.member "fill_level".toList, .member "fill_level".toList, .var "oil_temp".toList, .member "oil_temp".toList,
      .var "oil_temp".toList, .var "oil_temp".toList] := by decide +kernel

end

end Cantools
