import Verif.Model.SignalEdit
import Verif.Spec.Codec
import Verif.Lemmas.Node

/-
C72: assignments to scale, offset, value table and kind of a signal.
-/

namespace Cantools

/-! ### Specification -/

def Assignment.scale? : Assignment → Option Rat | .scale v => some v | _ => none
def Assignment.offset? : Assignment → Option Rat | .offset v => some v | _ => none
def Assignment.choices? : Assignment → Option (Option Choices) | .choices v => some v | _ => none
def Assignment.isFloat? : Assignment → Option Bool | .isFloat v => some v | _ => none

/-- The value that was assigned last, or the original one. -/
def lastAssigned {α : Type} (get : Assignment → Option α) (original : α) (history : List Assignment) : α :=
  ((history.filterMap get).getLast?).getD original

/-- The assignments to a signal in a history of assignments to signals of a message. -/
def assignmentsTo (name : String) (history : List (String × Assignment)) : List Assignment :=
  (history.filter (·.1 == name)).map (·.2)

/-! ### One signal -/

theorem conversion_factory_scale (s o : Rat) (c : Option Choices) (f : Bool) : (Conversion.factory s o c f).scale = s := by
  cases c with
  | some _ => rfl
  | none =>
    show (BaseConv.factory s o f).scale = s
    unfold BaseConv.factory
    split
    · rename_i h; exact h.1.symm
    · split
      · rename_i h
        exact Rat.den_eq_one_iff _ |>.1 h.1
      · rfl

theorem conversion_factory_offset (s o : Rat) (c : Option Choices) (f : Bool) : (Conversion.factory s o c f).offset = o := by
  cases c with
  | some _ => rfl
  | none =>
    show (BaseConv.factory s o f).offset = o
    unfold BaseConv.factory
    split
    · rename_i h; exact h.2.symm
    · split
      · rename_i h
        exact Rat.den_eq_one_iff _ |>.1 h.2.1
      · rfl

theorem conversion_factory_choices (s o : Rat) (c : Option Choices) (f : Bool) : (Conversion.factory s o c f).choices = c := by
  cases c <;> rfl

theorem conversion_factory_isFloat (s o : Rat) (c : Option Choices) (f : Bool) : (Conversion.factory s o c f).isFloat = f := by
  have : (BaseConv.factory s o f).isFloat = f := by
    unfold BaseConv.factory
    split
    · rfl
    · split
      · rename_i h; exact h.2.2.symm
      · rfl
  cases c <;> exact this

theorem lastAssigned_cons {α : Type} (get : Assignment → Option α) (x : α) (a : Assignment) (l : List Assignment) :
    lastAssigned get x (a :: l) = lastAssigned get ((get a).getD x) l := by
  unfold lastAssigned
  cases h : get a with
  | none => rw [List.filterMap_cons_none h]; rfl
  | some v =>
    rw [List.filterMap_cons_some h, List.getLast?_cons]
    rfl

theorem assign_all (history : List Assignment) : ∀ (s : Signal) (scale offset : Rat) (choices : Option Choices)
    (isFloat : Bool), s.conversion = .factory scale offset choices isFloat →
      history.foldl Signal.assign s = { s with conversion := (.factory (lastAssigned Assignment.scale? scale history)
        (lastAssigned Assignment.offset? offset history) (lastAssigned Assignment.choices? choices history)
        (lastAssigned Assignment.isFloat? isFloat history) : Conversion) } := by
  induction history with
  | nil =>
    intro s sc o c f hs
    show s = { s with conversion := .factory sc o c f }
    rw [← hs]
  | cons a l ih =>
    intro s sc o c f hs
    rw [List.foldl_cons, lastAssigned_cons, lastAssigned_cons, lastAssigned_cons, lastAssigned_cons,
      ih (s.assign a) ((a.scale?).getD sc) ((a.offset?).getD o) ((a.choices?).getD c) ((a.isFloat?).getD f) ?_]
    · rfl
    · cases a <;>
        simp only [Signal.assign, Conversion.assign, hs, conversion_factory_scale, conversion_factory_offset, conversion_factory_choices, conversion_factory_isFloat,
          Assignment.scale?, Assignment.offset?, Assignment.choices?, Assignment.isFloat?, Option.getD_some,
          Option.getD_none]

/-- C72: after any assignments to its attributes, a signal converts values like one that was constructed with the values
that were assigned last, and these are what its attributes show. -/
theorem C72_last_assigned (s : Signal) (scale offset : Rat) (choices : Option Choices) (isFloat : Bool)
    (hs : s.conversion = .factory scale offset choices isFloat) (history : List Assignment) :
    let t := history.foldl Signal.assign s
    let scale' := lastAssigned Assignment.scale? scale history
    let offset' := lastAssigned Assignment.offset? offset history
    let choices' := lastAssigned Assignment.choices? choices history
    let isFloat' := lastAssigned Assignment.isFloat? isFloat history
    t = { s with conversion := .factory scale' offset' choices' isFloat' } ∧ t.conversion.scale = scale' ∧
      t.conversion.offset = offset' ∧ t.conversion.choices = choices' ∧ t.conversion.isFloat = isFloat' := by
  intro t scale' offset' choices' isFloat'
  have key : t = { s with conversion := .factory scale' offset' choices' isFloat' } :=
    assign_all history s scale offset choices isFloat hs
  rw [key]
  exact ⟨rfl, conversion_factory_scale .., conversion_factory_offset .., conversion_factory_choices .., conversion_factory_isFloat ..⟩

/-! ### Messages -/

section
variable {c : Signal → Conversion}

/-- A signal with another conversion. -/
def withConv (c : Signal → Conversion) (s : Signal) : Signal := { s with conversion := c s }

theorem insertBy_keyed {α β : Type} (key : α → Nat) (key' : β → Nat) (f : α → β) (hk : ∀ a, key' (f a) = key a) (a : α)
    (l : List α) : insertBy key' (f a) (l.map f) = (insertBy key a l).map f := by
  induction l with
  | nil => rfl
  | cons b r ih =>
    show (if key' (f a) ≤ key' (f b) then f a :: f b :: r.map f else f b :: insertBy key' (f a) (r.map f)) =
      (if key a ≤ key b then a :: b :: r else b :: insertBy key a r).map f
    rw [hk, hk]
    split
    · rfl
    · rw [ih]; rfl

theorem sortedBy_keyed {α β : Type} (key : α → Nat) (key' : β → Nat) (f : α → β) (hk : ∀ a, key' (f a) = key a)
    (l : List α) : sortedBy key' (l.map f) = (sortedBy key l).map f := by
  induction l with
  | nil => rfl
  | cons b r ih =>
    show insertBy key' (f b) (sortedBy key' (r.map f)) = (insertBy key b (sortedBy key r)).map f
    rw [ih, insertBy_keyed key key' f hk]

theorem mapM_map_option {α β γ δ : Type} (f : α → β) (h : γ → δ) (F : α → Option γ) (G : β → Option δ) (l : List α)
    (hfg : ∀ a ∈ l, G (f a) = (F a).map h) : (l.map f).mapM G = (l.mapM F).map (List.map h) := by
  induction l with
  | nil => rfl
  | cons a r ih =>
    rw [List.map_cons, List.mapM_cons, List.mapM_cons, hfg a List.mem_cons_self,
      ih fun x hx => hfg x (List.mem_cons_of_mem _ hx)]
    cases F a with
    | none => rfl
    | some y =>
      cases r.mapM F with
      | none => rfl
      | some z => rfl

theorem filter_withConv (p : Signal → Bool) (hp : ∀ s, p (withConv c s) = p s) (l : List Signal) :
    (l.map (withConv c)).filter p = (l.filter p).map (withConv c) := by
  rw [List.filter_map]
  congr 1
  exact List.filter_congr fun s _ => hp s

theorem childrenIds_withConv (sigs : List Signal) (s : Signal) (hs : (c s).choices = s.conversion.choices) :
    childrenIds (sigs.map (withConv c)) (withConv c s) = childrenIds sigs s := by
  unfold childrenIds
  rw [filter_withConv (c := c) _ (fun _ => rfl), List.flatMap_map]
  show dedupInt (_ ++ List.map _ ((c s).choices.getD [])) = _
  rw [hs]
  rfl

theorem muxes_onSignals (f : Signal → Signal) (l : List (String × Branches)) :
    (Muxes.ofList l).onSignals f = Muxes.ofList (l.map fun e => (e.1, e.2.onSignals f)) := by
  induction l with
  | nil => rfl
  | cons e r ih => rw [Muxes.ofList, Muxes.onSignals, ih]; rfl

theorem branches_onSignals (f : Signal → Signal) (l : List (Int × Codec)) :
    (Branches.ofList l).onSignals f = Branches.ofList (l.map fun e => (e.1, e.2.onSignals f)) := by
  induction l with
  | nil => rfl
  | cons e r ih => rw [Branches.ofList, Branches.onSignals, ih]; rfl

theorem createCodec_withConv (sigs : List Signal)
    (hc : ∀ s ∈ sigs, s.isMultiplexer = true → (c s).choices = s.conversion.choices) :
    ∀ (fuel : Nat) (p : Option String) (id : Option Int),
      createCodec (sigs.map (withConv c)) fuel p id = (createCodec sigs fuel p id).map (Codec.onSignals (withConv c)) := by
  intro fuel
  induction fuel with
  | zero => intro p id; rfl
  | succ fuel ih =>
    intro p id
    rw [createCodec, createCodec]
    have hhere : (sigs.map (withConv c)).filter (atNode p id) = (sigs.filter (atNode p id)).map (withConv c) :=
      filter_withConv (c := c) _ (fun _ => rfl) _
    have hsel : ((sigs.filter (atNode p id)).map (withConv c)).filter
          (fun s => s.isMultiplexer && !(childrenIds (sigs.map (withConv c)) s).isEmpty) =
        ((sigs.filter (atNode p id)).filter fun s => s.isMultiplexer && !(childrenIds sigs s).isEmpty).map (withConv c) := by
      rw [List.filter_map]
      congr 1
      refine List.filter_congr fun s hs => ?_
      show (s.isMultiplexer && !(childrenIds (sigs.map (withConv c)) (withConv c s)).isEmpty) = _
      cases hm : s.isMultiplexer with
      | false => rfl
      | true => rw [childrenIds_withConv sigs s (hc s (List.mem_filter.1 hs).1 hm)]
    rw [hhere]
    rw [hsel, mapM_map_option (withConv c) (fun e : String × Branches => (e.1, e.2.onSignals (withConv c)))
      (fun s => do
        let branches ← (childrenIds sigs s).mapM fun i => do
          let c ← createCodec sigs fuel (some s.name) (some i)
          return (i, c)
        return (s.name, Branches.ofList branches))]
    · cases List.mapM (m := Option) _ _ with
      | none => rfl
      | some ms =>
        show some (Codec.mk _ _) = some (Codec.onSignals _ (Codec.mk _ _))
        rw [Codec.onSignals, muxes_onSignals]
    · intro s hs
      obtain ⟨hs, hb⟩ := List.mem_filter.1 hs
      rw [childrenIds_withConv sigs s (hc s (List.mem_filter.1 hs).1 (by simpa using (Bool.and_eq_true_iff.1 hb).1))]
      have := mapM_map_option (fun i : Int => i) (fun e : Int × Codec => (e.1, e.2.onSignals (withConv c)))
        (fun i => do
          let c ← createCodec sigs fuel (some s.name) (some i)
          return (i, c))
        (fun i => do
          let c ← createCodec (sigs.map (withConv c)) fuel (some (withConv c s).name) (some i)
          return (i, c)) (childrenIds sigs s) (by
            intro i _
            show (do let c ← createCodec (sigs.map (withConv c)) fuel (some s.name) (some i); pure (i, c)) = _
            rw [ih]
            cases createCodec sigs fuel (some s.name) (some i) <;> rfl)
      rw [List.map_id'] at this
      rw [this]
      cases List.mapM (m := Option) _ _ with
      | none => rfl
      | some bs =>
        show some (s.name, Branches.ofList _) = some (s.name, Branches.onSignals _ (Branches.ofList _))
        rw [branches_onSignals]

theorem treeOfSignals_withConv (ms : List (String × TreeBranches)) (l : List Signal) :
    treeOfSignals ms (l.map (withConv c)) = treeOfSignals ms l := by
  induction l with
  | nil => rfl
  | cons s r ih =>
    rw [List.map_cons, treeOfSignals, treeOfSignals, ih]
    rfl

mutual
theorem treeOfCodec_withConv : ∀ x : Codec, treeOfCodec (x.onSignals (withConv c)) = treeOfCodec x
  | .mk signals muxes => by
    rw [Codec.onSignals, treeOfCodec, treeOfCodec, treeOfMuxes_withConv muxes, treeOfSignals_withConv]
theorem treeOfMuxes_withConv : ∀ x : Muxes, treeOfMuxes (x.onSignals (withConv c)) = treeOfMuxes x
  | .nil => by rw [Muxes.onSignals]
  | .cons n b r => by
    rw [Muxes.onSignals, treeOfMuxes, treeOfMuxes, treeOfBranches_withConv b, treeOfMuxes_withConv r]
theorem treeOfBranches_withConv : ∀ x : Branches, treeOfBranches (x.onSignals (withConv c)) = treeOfBranches x
  | .nil => by rw [Branches.onSignals]
  | .cons i x r => by
    rw [Branches.onSignals, treeOfBranches, treeOfBranches, treeOfCodec_withConv x, treeOfBranches_withConv r]
end

theorem signalByName_withConv (sigs : List Signal) (n : String) :
    signalByName (sigs.map (withConv c)) n = (signalByName sigs n).map (withConv c) := by
  unfold signalByName
  rw [← List.map_reverse, List.find?_map]
  have : ((fun s : Signal => s.name == n) ∘ withConv c) = fun s : Signal => s.name == n := rfl
  rw [this]
  cases List.find? (fun s : Signal => s.name == n) sigs.reverse <;> rfl

mutual
theorem checkTree_withConv (sigs : List Signal) : ∀ (t : SigTree) (bits : List (Option String)),
    checkTree (sigs.map (withConv c)) bits t = checkTree sigs bits t
  | .nil, bits => by rw [checkTree, checkTree]
  | .leaf n rest, bits => by
    rw [checkTree, checkTree, signalByName_withConv]
    cases signalByName sigs n with
    | error e => rfl
    | ok s =>
      show (checkSignal bits s >>= fun bits => checkTree (sigs.map (withConv c)) bits rest) = _
      simp only [checkTree_withConv sigs rest]
      rfl
  | .mux n branches rest, bits => by
    rw [checkTree, checkTree, signalByName_withConv]
    cases signalByName sigs n with
    | error e => rfl
    | ok s =>
      show (checkSignal bits s >>= fun bits => checkBranches (sigs.map (withConv c)) bits bits branches >>= fun bits =>
        checkTree (sigs.map (withConv c)) bits rest) = _
      simp only [checkTree_withConv sigs rest, checkBranches_withConv sigs branches]
      rfl
theorem checkBranches_withConv (sigs : List Signal) : ∀ (t : TreeBranches) (children bits : List (Option String)),
    checkBranches (sigs.map (withConv c)) children bits t = checkBranches sigs children bits t
  | .nil, children, bits => by rw [checkBranches, checkBranches]
  | .cons i tree rest, children, bits => by
    rw [checkBranches, checkBranches, checkTree_withConv sigs tree]
    simp only [checkBranches_withConv sigs rest]
end

theorem create_withConv {fid : Int} {name : String} {len : Nat} {sigs : List Signal} {pat : UInt8} {ext strict : Bool}
    {sort : SortSignals} (hsort : sort = .default ∨ sort = .none)
    (hc : ∀ s ∈ sigs, s.isMultiplexer = true → (c s).choices = s.conversion.choices) :
    Message.create fid name len (sigs.map (withConv c)) pat ext strict sort =
      (Message.create fid name len sigs pat ext strict sort).map fun m =>
        { m with signals := m.signals.map (withConv c), codec := m.codec.onSignals (withConv c) } := by
  have hs : sort.apply (sigs.map (withConv c)) = (sort.apply sigs).map (withConv c) := by
    rcases hsort with rfl | rfl
    · exact sortedBy_keyed _ _ _ (fun _ => rfl) _
    · rfl
  have hmem : ∀ s ∈ sort.apply sigs, s ∈ sigs := by
    rcases hsort with rfl | rfl
    · intro s h
      exact (sortedBy_perm startBit sigs).mem_iff.1 h
    · exact fun _ h => h
  unfold Message.create
  split
  · rfl
  · rw [hs]
    dsimp only
    have hany : ((sort.apply sigs).map (withConv c)).any (fun s => s.length == 0) =
        (sort.apply sigs).any fun s => s.length == 0 := by
      rw [List.any_map]
      rfl
    rw [hany]
    split
    · rfl
    · rw [List.length_map, createCodec_withConv _ fun s h => hc s (hmem s h)]
      cases createCodec (sort.apply sigs) _ none none with
      | none => rfl
      | some codec =>
        show (if strict = true then Except.map _ (checkTree _ _ (treeOfCodec (codec.onSignals (withConv c)))) else _) = _
        rw [treeOfCodec_withConv, checkTree_withConv]
        cases strict with
        | false => rfl
        | true =>
          show Except.map _ (checkTree _ _ _) = Except.map _ (Except.map _ (checkTree _ _ _))
          cases checkTree (sort.apply sigs) (List.replicate (8 * len) none) (treeOfCodec codec) <;> rfl

end

/-- The assignment does not change formats or branches: `is_float` is not assigned, and value tables only for signals that are not
selectors. -/
def Allowed (sigs : List Signal) (name : String) (a : Assignment) : Prop :=
  (∀ b, a ≠ .isFloat b) ∧ ∀ cs, a = .choices cs → ∀ s ∈ sigs, s.name = name → s.isMultiplexer = false

theorem assignTo_eq (name : String) (a : Assignment) :
    assignTo name a = withConv fun s => if s.name == name then s.conversion.assign a else s.conversion := by
  funext s
  unfold assignTo withConv Signal.assign
  by_cases h : (s.name == name) = true
  · simp only [h, if_true]
  · simp only [h, if_false, Bool.false_eq_true]

theorem assign_choices (c : Conversion) (a : Assignment) (h : ∀ cs, a ≠ .choices cs) : (c.assign a).choices = c.choices := by
  cases a with
  | choices cs => exact absurd rfl (h cs)
  | _ => exact conversion_factory_choices ..

theorem assign_isFloat (c : Conversion) (a : Assignment) (h : ∀ b, a ≠ .isFloat b) : (c.assign a).isFloat = c.isFloat := by
  cases a with
  | isFloat b => exact absurd rfl (h b)
  | _ => exact conversion_factory_isFloat ..

/-- C72: an assignment to an attribute of a signal of a message has the effect of constructing the message with it. -/
theorem C72_message {fid : Int} {name : String} {len : Nat} {sigs : List Signal} {pat : UInt8} {ext strict : Bool}
    {sort : SortSignals} (hsort : sort = .default ∨ sort = .none) {n : String} {a : Assignment} (ha : Allowed sigs n a) :
    Message.create fid name len (sigs.map (assignTo n a)) pat ext strict sort =
      (Message.create fid name len sigs pat ext strict sort).map fun m => m.assign n a := by
  unfold Message.assign
  rw [assignTo_eq]
  refine create_withConv hsort fun s hs hm => ?_
  split
  · rename_i he
    refine assign_choices _ _ fun cs hcs => ?_
    have := ha.2 cs hcs s hs (by simpa using he)
    rw [hm] at this
    cases this
  · rfl

theorem allowed_map {sigs : List Signal} {n k : String} {a b : Assignment} (h : Allowed sigs n a) :
    Allowed (sigs.map (assignTo k b)) n a := by
  refine ⟨h.1, fun cs hcs s hs hn => ?_⟩
  obtain ⟨t, ht, rfl⟩ := List.mem_map.1 hs
  rw [assignTo_eq] at hn ⊢
  exact h.2 cs hcs t ht hn

theorem foldl_assignTo (history : List (String × Assignment)) : ∀ s : Signal,
    history.foldl (fun s e => assignTo e.1 e.2 s) s = (assignmentsTo s.name history).foldl Signal.assign s := by
  induction history with
  | nil => intro s; rfl
  | cons e l ih =>
    intro s
    have hn : (assignTo e.1 e.2 s).name = s.name := by rw [assignTo_eq]; rfl
    rw [List.foldl_cons, ih, hn]
    unfold assignmentsTo assignTo
    by_cases h : (s.name == e.1) = true
    · have h' : (e.1 == s.name) = true := by rw [beq_iff_eq] at h ⊢; exact h.symm
      rw [if_pos h, List.filter_cons, if_pos h', List.map_cons, List.foldl_cons]
    · have h' : ¬ (e.1 == s.name) = true := by rw [beq_iff_eq] at h ⊢; exact fun x => h x.symm
      rw [if_neg h, List.filter_cons, if_neg h']

/-- C72: so does any sequence of assignments: the message is the one that is constructed with the signals after the
assignments to each of them, so it encodes and decodes in the same way. -/
theorem C72_history {fid : Int} {name : String} {len : Nat} {pat : UInt8} {ext strict : Bool}
    {sort : SortSignals} (hsort : sort = .default ∨ sort = .none) (history : List (String × Assignment)) :
    ∀ (sigs : List Signal) (m : Message), (∀ e ∈ history, Allowed sigs e.1 e.2) →
      Message.create fid name len sigs pat ext strict sort = .ok m →
        Message.create fid name len (sigs.map fun s => (assignmentsTo s.name history).foldl Signal.assign s) pat ext strict
          sort = .ok (history.foldl (fun m e => m.assign e.1 e.2) m) := by
  have key : ∀ (sigs : List Signal) (m : Message), (∀ e ∈ history, Allowed sigs e.1 e.2) →
      Message.create fid name len sigs pat ext strict sort = .ok m →
        Message.create fid name len (sigs.map fun s => history.foldl (fun s e => assignTo e.1 e.2 s) s) pat ext strict sort =
          .ok (history.foldl (fun m e => m.assign e.1 e.2) m) := by
    induction history with
    | nil => intro sigs m _ hm; simpa using hm
    | cons e l ih =>
      intro sigs m ha hm
      have := ih (sigs.map (assignTo e.1 e.2)) (m.assign e.1 e.2)
        (fun x hx => allowed_map (ha x (List.mem_cons_of_mem _ hx)))
        (by rw [C72_message hsort (ha e List.mem_cons_self), hm]; rfl)
      rw [List.map_map] at this
      exact this
  intro sigs m ha hm
  rw [← key sigs m ha hm]
  congr 1
  exact List.map_congr_left fun s _ => (foldl_assignTo history s).symm

/-- The formats of a node are the same after such an assignment, so that it does not matter that they are not made again. -/
theorem C72_formats (l : List Signal) (len : Nat) (n : String) (a : Assignment) (h : ∀ b, a ≠ .isFloat b) :
    createFormats (l.map (assignTo n a)) len = createFormats l len := by
  have hf : ∀ s, (assignTo n a s).conversion.isFloat = s.conversion.isFloat := by
    intro s
    unfold assignTo
    split
    · exact assign_isFloat _ _ h
    · rfl
  have hproj : ∀ s, (assignTo n a s).name = s.name ∧ (assignTo n a s).start = s.start ∧
      (assignTo n a s).length = s.length ∧ (assignTo n a s).byteOrder = s.byteOrder ∧
        (assignTo n a s).isSigned = s.isSigned := by
    intro s
    rw [assignTo_eq]
    exact ⟨rfl, rfl, rfl, rfl, rfl⟩
  have hitem : ∀ s, dataItem (assignTo n a s) = dataItem s := by
    intro s
    obtain ⟨h1, -, h3, -, h5⟩ := hproj s
    unfold dataItem Signal.kind
    rw [hf, h1, h3, h5]
  have hbit : ∀ s, startBit (assignTo n a s) = startBit s := by
    intro s
    obtain ⟨-, h2, -, h4, -⟩ := hproj s
    unfold startBit
    rw [h2, h4]
  have hbig : ∀ (l : List Signal) (k : Nat), bigItems (8 * len) k (l.map (assignTo n a)) = bigItems (8 * len) k l := by
    intro l
    induction l with
    | nil => intro k; rfl
    | cons s r ih =>
      intro k
      rw [List.map_cons, bigItems, bigItems, ih, hbit, hitem, (hproj s).2.2.1]
  have hlittle : ∀ (l : List Signal) (k : Nat), littleItems k (l.map (assignTo n a)) = littleItems k l := by
    intro l
    induction l with
    | nil => intro k; rfl
    | cons s r ih =>
      intro k
      rw [List.map_cons, littleItems, littleItems, ih, hitem, (hproj s).2.2.1, (hproj s).2.1]
  have h1 : createBig (l.map (assignTo n a)) (8 * len) = createBig l (8 * len) := by
    unfold createBig
    rw [List.filter_map, sortedBy_keyed (fun s : Signal => sawtoothToNetworkBitnum s.start) _ _
      (fun s => by rw [(hproj s).2.1]), hbig]
    congr 2
    exact List.filter_congr fun s _ => by simp only [Function.comp, (hproj s).2.2.2.1]
  have h2 : createLittle (l.map (assignTo n a)) (8 * len) = createLittle l (8 * len) := by
    unfold createLittle
    rw [← List.map_reverse, List.filter_map, hlittle]
    congr 1
    exact List.filter_congr fun s _ => by simp only [Function.comp, (hproj s).2.2.2.1]
  unfold createFormats
  simp only [h1, h2]

/-! ### Where it fails -/

namespace EditExample

def speed : Signal := { name := "Speed", start := 8, length := 8, conversion := .factory 1 0 none false }
def mode : Signal :=
  { name := "Mode", start := 0, length := 8, isMultiplexer := true, conversion := .factory 1 0 none false }
def load : Signal := { speed with name := "Load", multiplexerSignal := some "Mode", multiplexerIds := some [0] }

end EditExample

open EditExample

/-- C72: the initial value is not converted again. -/
theorem C72_initial_stale : ∃ (o : SignalObject) (a : Assignment), o = SignalObject.create o.signal o.rawInitial ∧
    (o.assign a).initial ≠ (SignalObject.create (o.assign a).signal (o.assign a).rawInitial).initial :=
  ⟨.create speed (some 5), .scale 2, rfl, by decide +kernel⟩

def noFloats : FloatOps := ⟨fun _ _ => .error .error, fun _ => 0, by intro n q l h; cases h⟩

/-- The result of decoding, with errors. -/
def decoded (r : Except Err Message) (data : Bytes) : Option (Except Err (List (String × Value))) :=
  match r with
  | .ok m => some (decode noFloats m data true true false true)
  | .error _ => none

/-- C72: a value table that is assigned to a selector has no effect on the branches: a message constructed with it accepts
the new value, the existing one does not. -/
theorem C72_selector_choices_fails : ∃ (sigs : List Signal) (a : Assignment) (data : Bytes),
    decoded (Message.create 1 "M" 2 (sigs.map (assignTo "Mode" a))) data =
        some (.ok [("Mode", .str "off")]) ∧
      decoded ((Message.create 1 "M" 2 sigs).map fun m => m.assign "Mode" a) data = some (.error .decodeError) :=
  ⟨[mode, load], .choices (some [(7, .str "off")]), [7, 0], by decide +kernel, by decide +kernel⟩

/-- Assignments to two signals, one of them in a branch. -/
example : ∃ m, Message.create 1 "M" 2 [mode, load] = .ok m ∧
    (∀ e ∈ [("Load", Assignment.scale 3), ("Load", .offset (1 / 2)), ("Mode", .scale 2)], Allowed [mode, load] e.1 e.2) ∧
      decode noFloats
        ([("Load", Assignment.scale 3), ("Load", .offset (1 / 2)), ("Mode", .scale 2)].foldl
          (fun m e => m.assign e.1 e.2) m) [0, 5] true true false true =
        .ok [("Mode", .num 0), ("Load", .num (31 / 2))] := by
  refine ⟨_, rfl, ?_, by decide +kernel⟩
  intro e he
  simp only [List.mem_cons, List.not_mem_nil, or_false] at he
  rcases he with rfl | rfl | rfl <;> exact ⟨by simp, by simp⟩

end Cantools
