import Verif.Lemmas.Plot
import Verif.Lemmas.SpreadFrame
import Mathlib.Data.List.Dedup

/-!
Lemmas about the curves of the `plot` command.
-/

namespace Cantools.Plot
open Regex Spec.Plot

/-! ### Arguments -/

/-- What an argument asks for. -/
def toSg (cs : Bool) (a : Argument) : Sg :=
  { pattern := patternText a.pattern, caseSensitive := cs, subplot := a.subplot, axis := a.axis, stem := a.stem, fmt := a.fmt }

def argOf (text : Chars) (p : Nat × Nat) : Argument :=
  { pattern := (splitFormat text).1, stem := (splitFormat text).2.1, fmt := (splitFormat text).2.2, subplot := p.1, axis := p.2 }

theorem makeSg_eq (cs : Bool) (s x : Nat) (a : Chars) : makeSg cs s x a = toSg cs (argOf a (s, x)) := rfl

theorem split_colon {a : Chars} (h : ':' ∈ a) :
    ':' ∉ a.takeWhile (· ≠ ':') ∧ a = a.takeWhile (· ≠ ':') ++ ':' :: (a.dropWhile (· ≠ ':')).drop 1 := by
  induction a with
  | nil => cases h
  | cons c a ih =>
    by_cases hc : c = ':'
    · subst hc; simp
    · obtain ⟨h1, h2⟩ := ih ((List.mem_cons.1 h).resolve_left (Ne.symm hc))
      rw [List.takeWhile_cons_of_pos (by simpa using hc), List.dropWhile_cons_of_pos (by simpa using hc)]
      refine ⟨?_, ?_⟩
      · rw [List.mem_cons, not_or]
        exact ⟨fun e => hc e.symm, h1⟩
      · rw [List.cons_append]
        exact congrArg _ h2

theorem written_argOf (a : Chars) (p : Nat × Nat) : Written a (argOf a p) := by
  unfold Written argOf splitFormat
  by_cases h : ':' ∈ a
  · right
    obtain ⟨h1, h2⟩ := split_colon h
    simp only [if_pos h]
    cases hf : (a.dropWhile (· ≠ ':')).drop 1 with
    | nil =>
      rw [hf] at h2
      refine ⟨[], ?_, ?_, .inr ⟨?_, ?_, by intro r e; cases e⟩⟩
      · exact h2
      · exact h1
      · rfl
      · rfl
    | cons c r =>
      rw [hf] at h2
      by_cases hc : c = '|'
      · subst hc
        exact ⟨'|' :: r, h2, h1, .inl ⟨by simp, by simp⟩⟩
      · have e : ((c :: r).head? = some '|') = False := by simp [hc]
        simp only [e, if_false]
        exact ⟨c :: r, h2, h1, .inr ⟨by simp, by simp, by intro r' e; injection e with e _; exact hc e⟩⟩
  · left
    simp [h]

theorem place_dash (b : List Chars) : place (b ++ [['-']]) = ((place b).1 + 1, 0) := by
  unfold place
  simp only [List.count_append, List.reverse_append, List.reverse_singleton, List.singleton_append]
  rw [List.takeWhile_cons_of_neg (by simp)]
  simp [Nat.add_assoc]

theorem place_comma (b : List Chars) : place (b ++ [[',']]) = ((place b).1, (place b).2 + 1) := by
  unfold place
  simp only [List.count_append, List.reverse_append, List.reverse_singleton, List.singleton_append]
  rw [List.takeWhile_cons_of_pos (by decide), List.count_cons_self]
  rfl

theorem place_signal {b : List Chars} {a : Chars} (h : IsSignal a) : place (b ++ [a]) = place b := by
  unfold place
  simp only [List.count_append, List.reverse_append, List.reverse_singleton, List.singleton_append]
  rw [List.takeWhile_cons_of_pos (by simpa using h.1), List.count_cons_of_ne h.2]
  rw [List.count_singleton, if_neg (by simpa using h.1)]
  rfl

theorem groupsOf_eq (b r : List Chars) : groupsOf (place b).1 (place b).2 r =
    (((r.zipIdx b.length).filter fun e => IsSignal e.1).map (fun e => (e.1, place ((b ++ r).take e.2))), place (b ++ r)) := by
  induction r generalizing b with
  | nil => simp [groupsOf]
  | cons a r ih =>
    have key := ih (b ++ [a])
    simp only [List.length_append, List.length_singleton, List.append_assoc, List.singleton_append] at key
    rw [groupsOf, List.zipIdx_cons]
    by_cases h1 : a = ['-']
    · subst h1
      rw [place_dash] at key
      rw [if_pos rfl, key, List.filter_cons_of_neg (by simp [IsSignal])]
    · rw [if_neg h1]
      by_cases h2 : a = [',']
      · subst h2
        rw [place_comma] at key
        rw [if_pos rfl, key, List.filter_cons_of_neg (by simp [IsSignal])]
      · rw [if_neg h2]
        rw [place_signal ⟨h1, h2⟩] at key
        rw [key, List.filter_cons_of_pos (by simpa using ⟨h1, h2⟩), List.map_cons]
        dsimp only
        rw [List.take_left']
        rfl

/-- The arguments of the command. -/
theorem parseSignals_means (cs : Bool) (args : List Chars) :
    ∃ as, Means args as ∧ parseSignals cs args = as.map (toSg cs) := by
  have h := groupsOf_eq [] args
  rw [show place [] = (1, 0) from rfl] at h
  simp only [List.nil_append, List.length_nil] at h
  unfold parseSignals Means
  rw [h]
  dsimp only
  by_cases hs : ∀ a ∈ args, ¬ IsSignal a
  · have hf : (args.zipIdx.filter fun e => IsSignal e.1) = [] := by
      rw [List.filter_eq_nil_iff]
      rintro ⟨a, i⟩ he
      simpa using hs a (List.fst_mem_of_mem_zipIdx he)
    simp only [if_pos hs, hf]
    exact ⟨[argOf ['*'] (place args)], ⟨_, rfl, written_argOf _ _, rfl⟩, rfl⟩
  · simp only [if_neg hs]
    have hf : (args.zipIdx.filter fun e => IsSignal e.1) ≠ [] := by
      intro hf
      rw [List.filter_eq_nil_iff] at hf
      refine hs fun a ha hia => ?_
      obtain ⟨i, hi, rfl⟩ := List.getElem_of_mem ha
      exact hf (args[i], i) (by rw [List.mk_mem_zipIdx_iff_getElem?]; exact List.getElem?_eq_getElem hi) (by simpa using hia)
    generalize hl : (args.zipIdx.filter fun e => IsSignal e.1) = l at hf
    refine ⟨l.map fun e => argOf e.1 (place (args.take e.2)), ?_, ?_⟩
    · rw [List.forall₂_map_right_iff, List.forall₂_same]
      exact fun e _ => ⟨written_argOf _ _, rfl⟩
    · rw [if_neg]
      · rw [List.map_map, List.map_map]
        rfl
      · cases l with
        | nil => exact absurd rfl hf
        | cons => simp

theorem means_ne {args : List Chars} {as : List Argument} (h : Means args as) : as ≠ [] := by
  rintro rfl
  unfold Means at h
  split at h
  · obtain ⟨a, e, _⟩ := h; cases e
  · rename_i hs
    cases hl : (args.zipIdx.filter fun e => IsSignal e.1) with
    | nil =>
      rw [List.filter_eq_nil_iff] at hl
      refine hs fun a ha hia => ?_
      obtain ⟨i, hi, rfl⟩ := List.getElem_of_mem ha
      exact hl (args[i], i) (by rw [List.mk_mem_zipIdx_iff_getElem?]; exact List.getElem?_eq_getElem hi) (by simpa using hia)
    | cons e l => rw [hl] at h; cases h

theorem written_unique {t : Chars} {a b : Argument} (ha : Written t a) (hb : Written t b) :
    a.pattern = b.pattern ∧ a.stem = b.stem ∧ a.fmt = b.fmt := by
  rcases ha with ⟨h, h1, h2, h3⟩ | ⟨f, h, h1, h2⟩
  · rcases hb with ⟨_, g1, g2, g3⟩ | ⟨f', g, _⟩
    · exact ⟨h1.trans g1.symm, h2.trans g2.symm, h3.trans g3.symm⟩
    · exact absurd (by rw [g]; simp) h
  · rcases hb with ⟨g, _⟩ | ⟨f', g, g1, g2⟩
    · exact absurd (by rw [h]; simp) g
    · have e : a.pattern = b.pattern ∧ f = f' := by
        have := h.symm.trans g
        revert this h1 g1
        generalize a.pattern = p
        generalize b.pattern = q
        intro hp hq e
        induction p generalizing q with
        | nil =>
          cases q with
          | nil => injection e with _ e; exact ⟨rfl, e⟩
          | cons c q => injection e with e _; subst e; simp at hq
        | cons c p ih =>
          cases q with
          | nil => injection e with e _; subst e; simp at hp
          | cons d q =>
            simp only [List.cons_append, List.cons.injEq] at e
            obtain ⟨e1, e2⟩ := e
            obtain ⟨i1, i2⟩ := ih q (fun hm => hp (by simp [hm])) (fun hm => hq (by simp [hm])) e2
            exact ⟨by rw [e1, i1], i2⟩
      refine ⟨e.1, ?_⟩
      rw [← e.2] at g2
      rcases h2 with ⟨s1, s2⟩ | ⟨s1, s2, s3⟩ <;> rcases g2 with ⟨t1, t2⟩ | ⟨t1, t2, t3⟩
      · refine ⟨s1.trans t1.symm, ?_⟩
        have := s2.symm.trans t2; injection this
      · exact absurd s2 (t3 _)
      · exact absurd t2 (s3 _)
      · exact ⟨s1.trans t1.symm, s2.symm.trans t2⟩

theorem argument_ext {t : Chars} {p : Nat × Nat} {a b : Argument} (ha : Written t a ∧ (a.subplot, a.axis) = p)
    (hb : Written t b ∧ (b.subplot, b.axis) = p) : a = b := by
  obtain ⟨h1, h2, h3⟩ := written_unique ha.1 hb.1
  have := ha.2.trans hb.2.symm
  injection this with h4 h5
  cases a; cases b
  simp_all

/-- The meaning of arguments is unique. -/
theorem means_unique {args : List Chars} {as bs : List Argument} (ha : Means args as) (hb : Means args bs) : as = bs := by
  unfold Means at ha hb
  split at ha
  · rename_i hs
    rw [if_pos hs] at hb
    obtain ⟨a, rfl, h⟩ := ha
    obtain ⟨b, rfl, h'⟩ := hb
    rw [argument_ext h h']
  · rename_i hs
    rw [if_neg hs] at hb
    generalize (args.zipIdx.filter fun e => IsSignal e.1) = l at ha hb
    induction ha generalizing bs with
    | nil => cases hb; rfl
    | cons h _ ih =>
      cases hb with
      | cons h' hb => rw [argument_ext h h', ih hb]

/-! ### Graphs -/

theorem interrupted_ne {bt : Rat} {l : List (Rat × Value)} (h : l ≠ []) : interrupted bt l ≠ [] := by
  match l with
  | [] => exact absurd rfl h
  | [(x, y)] => simp [interrupted]
  | (x, y) :: (x', y') :: r => simp [interrupted]

theorem interrupted_last (bt : Rat) (l : List (Rat × Value)) (x : Rat) (y : Value) :
    (interrupted bt (l ++ [(x, y)])).getLast? = some (x, some y) := by
  induction l with
  | nil => rfl
  | cons e l ih =>
    obtain ⟨a, b⟩ := e
    cases l with
    | nil =>
      simp only [List.cons_append, List.nil_append, interrupted]
      split <;> simp
    | cons f l =>
      obtain ⟨a', b'⟩ := f
      simp only [List.cons_append, interrupted]
      simp only [List.cons_append] at ih
      rw [List.getLast?_cons, List.getLast?_append, ih]
      rfl

theorem interrupted_snoc (bt : Rat) (l : List (Rat × Value)) (a x : Rat) (b y : Value) :
    interrupted bt (l ++ [(a, b)] ++ [(x, y)]) = interrupted bt (l ++ [(a, b)]) ++
      ((if 0 < bt ∧ a + bt < x then [(a + bt / 2, none)] else []) ++ [(x, some y)]) := by
  induction l with
  | nil => simp [interrupted]
  | cons e l ih =>
    obtain ⟨c, d⟩ := e
    cases l with
    | nil => simp [interrupted]
    | cons f l =>
      obtain ⟨c', d'⟩ := f
      simp only [List.cons_append] at ih ⊢
      simp only [interrupted, ih]
      simp

/-- The values that have been added, with their names. -/
abbrev Log := List (Chars × Rat × Value)

def ofName (vals : Log) (n : Chars) : List (Rat × Value) := (vals.filter fun v => v.1 = n).map (·.2)

/-- The graphs show the values. -/
structure Tracks (sgs : List Sg) (bt : Rat) (vals : Log) (graphs : List (Chars × List Point)) : Prop where
  get : ∀ n, dictGet? graphs n =
    if isDisplayed sgs n = true ∧ ofName vals n ≠ [] then some (interrupted bt (ofName vals n)) else none
  nodup : (graphs.map (·.1)).Nodup

theorem ofName_append (a b : Log) (n : Chars) : ofName (a ++ b) n = ofName a n ++ ofName b n := by
  simp [ofName]

theorem addValue_tracks {sgs : List Sg} {bt : Rat} {vals : Log} {graphs : List (Chars × List Point)}
    (h : Tracks sgs bt vals graphs) (n : Chars) (x : Rat) (y : Value) :
    Tracks sgs bt (vals ++ [(n, x, y)]) (addValue sgs bt graphs n x y) := by
  have hself : ofName (vals ++ [(n, x, y)]) n = ofName vals n ++ [(x, y)] := by
    rw [ofName_append]; simp [ofName]
  have hother : ∀ m, m ≠ n → ofName (vals ++ [(n, x, y)]) m = ofName vals m := by
    intro m hm
    rw [ofName_append]
    simp [ofName, Ne.symm hm]
  unfold addValue
  by_cases hd : isDisplayed sgs n = true
  · rw [if_pos hd]
    -- what is set
    have fin : ∀ new, new = interrupted bt (ofName vals n ++ [(x, y)]) →
        Tracks sgs bt (vals ++ [(n, x, y)]) (dictSet graphs n new) := by
      rintro new rfl
      refine ⟨fun m => ?_, dictSet_nodup n _ h.nodup⟩
      rw [dictGet?_set]
      by_cases hm : m = n
      · subst hm
        rw [hself]
        simp [hd]
      · rw [hother m hm, ← h.get m]
        rw [if_neg (Ne.symm hm)]
    rw [h.get n]
    by_cases he : ofName vals n = []
    · rw [if_neg (by simp [he])]
      exact fin _ (by rw [he]; rfl)
    · rw [if_pos ⟨hd, he⟩]
      obtain ⟨l, ⟨a, b⟩, hl⟩ : ∃ l e, ofName vals n = l ++ [e] := ⟨_, _, (List.dropLast_append_getLast he).symm⟩
      dsimp only
      rw [hl, interrupted_last]
      dsimp only
      split
      · rename_i hc
        refine fin _ ?_
        rw [hl, interrupted_snoc, if_pos hc]
        rfl
      · rename_i hc
        refine fin _ ?_
        rw [hl, interrupted_snoc, if_neg hc]
        rfl
  · rw [if_neg hd]
    refine ⟨fun m => ?_, h.nodup⟩
    rw [h.get m]
    by_cases hm : m = n
    · subst hm
      simp [hd]
    · rw [hother m hm]

theorem addValues_tracks {sgs : List Sg} {bt : Rat} {d : List (String × Value)} {name : Chars} {x : Rat} :
    ∀ {vals : Log} {graphs : List (Chars × List Point)}, Tracks sgs bt vals graphs →
    Tracks sgs bt (vals ++ d.map fun e => (name ++ '.' :: e.1.toList, x, plotValue e.2))
      (d.foldl (fun g e => addValue sgs bt g (name ++ '.' :: e.1.toList) x (plotValue e.2)) graphs) := by
  induction d with
  | nil => intro vals graphs h; simpa using h
  | cons e d ih =>
    intro vals graphs h
    have := ih (addValue_tracks h (name ++ '.' :: e.1.toList) x (plotValue e.2))
    simpa using this

/-- The values of an entry. -/
def valuesOf (fo : FloatOps) (o : Options) (db : Db) : Entry → Log
  | .frame x id data => (valuesIn fo o db id data).map fun p => (p.1, x, p.2)
  | .junk .. => []

theorem samples_eq (fo : FloatOps) (o : Options) (db : Db) (es : List Entry) (n : Chars) :
    samples fo o db es n = ofName (es.flatMap (valuesOf fo o db)) n := by
  induction es with
  | nil => rfl
  | cons e es ih =>
    rw [List.flatMap_cons, ofName_append, ← ih]
    unfold samples
    rw [List.flatMap_cons]
    congr 1
    cases e with
    | junk => rfl
    | frame x id data =>
      simp only [ofName, valuesOf, List.filter_map, List.map_map]
      rfl

/-- What an entry does. -/
def addEntry (fo : FloatOps) (o : Options) (db : Db) (sgs : List Sg) (p : Plotter) : Entry → Plotter
  | .frame x id data => addMsg fo o db sgs p x id data
  | .junk n t => failedLine o p n t

theorem plotValue_eq : plotValue = shownValue := by
  funext v; cases v <;> rfl

/-- The plotter shows the entries. -/
structure Holds (fo : FloatOps) (o : Options) (db : Db) (sgs : List Sg) (es : List Entry) (p : Plotter) : Prop where
  tracks : Tracks sgs o.breakTime (es.flatMap (valuesOf fo o db)) p.graphs
  unknowns : p.unknowns = unknowns o db es
  invalids : p.invalids = invalids fo o db es
  syntaxes : p.syntaxes = syntaxes o es
  printed : p.printed = es.flatMap (notes fo o db)

theorem holds_nil (fo : FloatOps) (o : Options) (db : Db) (sgs : List Sg) : Holds fo o db sgs [] {} where
  tracks := ⟨fun n => by simp [dictGet?, ofName], by simp⟩
  unknowns := by simp [Spec.Plot.unknowns]
  invalids := by simp [Spec.Plot.invalids]
  syntaxes := by simp [Spec.Plot.syntaxes]
  printed := rfl

theorem unknowns_snoc (o : Options) (db : Db) (es : List Entry) (e : Entry) :
    unknowns o db (es ++ [e]) = unknowns o db es ++ unknowns o db [e] := by
  unfold unknowns
  split
  · rw [List.filterMap_append]
  · rfl

theorem invalids_snoc (fo : FloatOps) (o : Options) (db : Db) (es : List Entry) (e : Entry) :
    invalids fo o db (es ++ [e]) = invalids fo o db es ++ invalids fo o db [e] := by
  unfold invalids
  split
  · rw [List.filterMap_append]
  · rfl

theorem syntaxes_snoc (o : Options) (es : List Entry) (e : Entry) :
    syntaxes o (es ++ [e]) = syntaxes o es ++ syntaxes o [e] := by
  unfold syntaxes
  split
  · rw [List.filterMap_append]
  · rfl

theorem holds_add {fo : FloatOps} {o : Options} {db : Db} {sgs : List Sg} {es : List Entry} {p : Plotter}
    (h : Holds fo o db sgs es p) (e : Entry) : Holds fo o db sgs (es ++ [e]) (addEntry fo o db sgs p e) := by
  cases e with
  | junk n t =>
    refine ⟨?_, ?_, ?_, ?_, ?_⟩
    · simpa [valuesOf, addEntry, failedLine] using h.tracks
    · rw [unknowns_snoc, ← h.unknowns]
      simp [Spec.Plot.unknowns, addEntry, failedLine]
    · rw [invalids_snoc, ← h.invalids]
      simp [Spec.Plot.invalids, addEntry, failedLine]
    · rw [syntaxes_snoc, ← h.syntaxes]
      unfold Spec.Plot.syntaxes addEntry failedLine
      cases o.showSyntax <;> simp
    · rw [List.flatMap_append, ← h.printed]
      unfold addEntry failedLine
      cases ho : o.ignoreSyntax <;> simp [notes, ho]
  | frame x id data =>
    unfold addEntry addMsg
    dsimp only
    cases hm : db.getByFrameId id false with
    | error err =>
      have hu : Unknown db id := ⟨_, hm⟩
      have hi : ¬ Undecodable fo o db id data := by
        rintro ⟨m, h', _⟩; rw [hm] at h'; cases h'
      dsimp only
      refine ⟨?_, ?_, ?_, ?_, ?_⟩
      · simpa [valuesOf, valuesIn, hm] using h.tracks
      · rw [unknowns_snoc, ← h.unknowns]
        unfold Spec.Plot.unknowns
        cases o.showUnknown <;> simp [hu]
      · rw [invalids_snoc, ← h.invalids]
        simp [Spec.Plot.invalids, hi]
      · rw [syntaxes_snoc, ← h.syntaxes]
        simp [Spec.Plot.syntaxes]
      · rw [List.flatMap_append, ← h.printed]
        cases ho : o.ignoreUnknown <;> simp [notes, hu, ho]
    | ok m =>
      have hu : ¬ Unknown db id := by rintro ⟨_, h'⟩; rw [hm] at h'; cases h'
      dsimp only
      cases hd : decodeBody fo o m data with
      | error err =>
        have hv : valuesIn fo o db id data = [] := by
          unfold valuesIn
          rw [hm]
          unfold decodeBody at hd
          dsimp only
          cases hb : m.body with
          | inr c => rfl
          | inl msg => rw [hb] at hd; dsimp only at hd ⊢; rw [hd]
        have hi : Undecodable fo o db id data := by
          refine ⟨m, hm, ?_⟩
          unfold decodeBody at hd
          cases hb : m.body with
          | inr c => trivial
          | inl msg => rw [hb] at hd; exact ⟨_, hd⟩
        dsimp only
        refine ⟨?_, ?_, ?_, ?_, ?_⟩
        · simpa [valuesOf, hv] using h.tracks
        · rw [unknowns_snoc, ← h.unknowns]
          simp [Spec.Plot.unknowns, hu]
        · rw [invalids_snoc, ← h.invalids]
          unfold Spec.Plot.invalids
          cases o.showInvalid <;> simp [hi]
        · rw [syntaxes_snoc, ← h.syntaxes]
          simp [Spec.Plot.syntaxes]
        · rw [List.flatMap_append, ← h.printed]
          cases ho : o.ignoreInvalid <;> simp [notes, hu, hi, ho]
      | ok d =>
        have hv : valuesIn fo o db id data = d.map fun e => (m.name.toList ++ '.' :: e.1.toList, shownValue e.2) := by
          unfold valuesIn
          rw [hm]
          unfold decodeBody at hd
          dsimp only
          cases hb : m.body with
          | inr c => rw [hb] at hd; cases hd
          | inl msg => rw [hb] at hd; dsimp only at hd ⊢; rw [hd]
        have hi : ¬ Undecodable fo o db id data := by
          rintro ⟨m', hm', h'⟩
          rw [hm] at hm'
          cases hm'
          unfold decodeBody at hd
          cases hb : m.body with
          | inr c => rw [hb] at hd; cases hd
          | inl msg =>
            rw [hb] at hd h'
            obtain ⟨_, h'⟩ := h'
            dsimp only at hd
            rw [hd] at h'
            cases h'
        dsimp only
        refine ⟨?_, ?_, ?_, ?_, ?_⟩
        · have := addValues_tracks (d := d) (name := m.name.toList) (x := x) h.tracks
          rw [plotValue_eq] at this
          rw [List.flatMap_append]
          simp only [List.flatMap_cons, List.flatMap_nil, List.append_nil, valuesOf, hv, List.map_map]
          rw [plotValue_eq]
          exact this
        · rw [unknowns_snoc, ← h.unknowns]
          simp [Spec.Plot.unknowns, hu]
        · rw [invalids_snoc, ← h.invalids]
          simp [Spec.Plot.invalids, hi]
        · rw [syntaxes_snoc, ← h.syntaxes]
          simp [Spec.Plot.syntaxes]
        · rw [List.flatMap_append, ← h.printed]
          simp [notes, hu, hi]

/-! ### Drawing -/

/-- The call that draws a graph. -/
def IsCall (o : Options) (db : Db) (unit : Signal → Chars) (graphs : List (Chars × List Point)) (sg : Sg) (n : Chars)
    (c : Curve) : Prop :=
  ∃ label, labelOf o db unit n = .ok label ∧
    c = ⟨sg.subplot, sg.axis, sg.stem, sg.fmt, label, (dictGet? graphs n).getD []⟩

/-- A name that is drawn. -/
def due (sg : Sg) (plotted : List (Chars × Sg)) (n : Chars) : Bool :=
  sg.match n && match dictGet? plotted n with
    | some p => replot sg p
    | none => true

theorem due_congr {sg : Sg} {p q : List (Chars × Sg)} {n : Chars} (h : dictGet? p n = dictGet? q n) :
    due sg p n = due sg q n := by
  unfold due; rw [h]

theorem drawNames_ok {o : Options} {db : Db} {unit : Signal → Chars} {graphs : List (Chars × List Point)} {sg : Sg} :
    ∀ {ns : List Chars} {plotted plotted' : List (Chars × Sg)} {l : List Curve}, ns.Nodup →
      drawNames o db unit graphs sg plotted ns = .ok (plotted', l) →
      (∀ n, dictGet? plotted' n = if n ∈ ns ∧ sg.match n = true then some ((dictGet? plotted n).getD sg) else dictGet? plotted n) ∧
      List.Forall₂ (IsCall o db unit graphs sg) (ns.filter (due sg plotted)) l := by
  intro ns
  induction ns with
  | nil =>
    intro plotted plotted' l _ h
    unfold drawNames at h
    injection h with h; injection h with h1 h2
    subst h1 h2
    exact ⟨fun n => by simp, .nil⟩
  | cons m ns ih =>
    intro plotted plotted' l hn h
    obtain ⟨hm, hn⟩ := List.nodup_cons.1 hn
    unfold drawNames at h
    have skip : ∀ {p : List (Chars × Sg)}, (∀ k, k ≠ m → dictGet? p k = dictGet? plotted k) →
        ns.filter (due sg p) = ns.filter (due sg plotted) := by
      intro p hp
      refine List.filter_congr fun k hk => due_congr (hp k ?_)
      rintro rfl; exact hm hk
    by_cases hs : sg.match m = true
    · rw [if_pos hs] at h
      cases hp : dictGet? plotted m with
      | some p =>
        rw [hp] at h
        dsimp only at h
        have get : ∀ {plotted'}, (∀ n, dictGet? plotted' n =
            if n ∈ ns ∧ sg.match n = true then some ((dictGet? plotted n).getD sg) else dictGet? plotted n) →
            ∀ n, dictGet? plotted' n =
              if n ∈ m :: ns ∧ sg.match n = true then some ((dictGet? plotted n).getD sg) else dictGet? plotted n := by
          intro plotted' g n
          rw [g n]
          by_cases he : n = m
          · subst he; simp [hs, hp, hm]
          · simp [he]
        by_cases hr : replot sg p = true
        · rw [if_pos hr] at h
          obtain ⟨label, h1, h⟩ := bind_ok_iff.1 h
          obtain ⟨⟨pl, l'⟩, h2, h⟩ := bind_ok_iff.1 h
          injection h with h; injection h with h3 h4
          subst h3 h4
          obtain ⟨i1, i2⟩ := ih hn h2
          refine ⟨get i1, ?_⟩
          rw [List.filter_cons_of_pos (by simp [due, hs, hp, hr])]
          exact .cons ⟨label, h1, rfl⟩ i2
        · rw [if_neg hr] at h
          obtain ⟨i1, i2⟩ := ih hn h
          refine ⟨get i1, ?_⟩
          rw [List.filter_cons_of_neg (by simp [due, hp, hr])]
          exact i2
      | none =>
        rw [hp] at h
        dsimp only at h
        obtain ⟨label, h1, h⟩ := bind_ok_iff.1 h
        obtain ⟨⟨pl, l'⟩, h2, h⟩ := bind_ok_iff.1 h
        injection h with h; injection h with h3 h4
        subst h3 h4
        obtain ⟨i1, i2⟩ := ih hn h2
        refine ⟨fun n => ?_, ?_⟩
        · rw [i1 n, dictGet?_set]
          by_cases he : n = m
          · subst he; simp [hs, hp]
          · simp [he, Ne.symm he]
        · rw [List.filter_cons_of_pos (by simp [due, hs, hp])]
          refine .cons ⟨label, h1, rfl⟩ ?_
          rw [← skip (p := dictSet plotted m sg)]
          · exact i2
          · intro k hk
            rw [dictGet?_set, if_neg (Ne.symm hk)]
    · rw [if_neg hs] at h
      obtain ⟨i1, i2⟩ := ih hn h
      refine ⟨fun n => ?_, ?_⟩
      · rw [i1 n]
        by_cases he : n = m
        · subst he; simp [hs]
        · simp [he]
      · rw [List.filter_cons_of_neg (by simp [due, hs])]
        exact i2

/-- With which arguments graphs have been plotted. -/
def firstOf (cs : Bool) (l : List Argument) (n : Chars) : Option Argument := l.find? fun a => (toSg cs a).match n

theorem match_iff {cs : Bool} {a : Argument} {n : Chars} (hn : '\n' ∉ n) :
    (toSg cs a).match n = true ↔ Selects cs a.pattern n := reMatch_pattern hn

theorem replot_iff {cs : Bool} {a b : Argument} : replot (toSg cs a) (toSg cs b) = true ↔ full a.pattern = full b.pattern := by
  have : '.' ∈ (toSg cs a).pattern := dot_mem_pattern a.pattern
  simp only [replot, this, not_true_eq_false, decide_false, Bool.or_false, decide_eq_true_eq]
  exact patternText_inj

theorem selects_congr {cs : Bool} {p q n : Chars} (h : full p = full q) : Selects cs p n ↔ Selects cs q n := by
  unfold Selects; rw [h]

theorem shown_iff {cs : Bool} {pre r : List Argument} {a : Argument} {n : Chars} (hn : '\n' ∉ n) :
    Shown cs (pre ++ a :: r) a n ↔
      (toSg cs a).match n = true ∧ ∀ b, firstOf cs pre n = some b → replot (toSg cs a) (toSg cs b) = true := by
  unfold firstOf
  constructor
  · rintro ⟨l, b, r', h1, h2, h3, h4⟩
    have ha : Selects cs a.pattern n := (selects_congr h4).2 h3
    refine ⟨(match_iff hn).2 ha, fun b' hb => ?_⟩
    have hfind : (pre ++ a :: r).find? (fun a => (toSg cs a).match n) = some b := by
      rw [h1, List.find?_append]
      have : l.find? (fun a => (toSg cs a).match n) = none := by
        rw [List.find?_eq_none]
        exact fun c hc hm => h2 c hc ((match_iff hn).1 hm)
      rw [this]
      simp [(match_iff hn).2 h3]
    rw [List.find?_append, hb] at hfind
    injection hfind with hfind
    subst hfind
    exact replot_iff.2 h4
  · rintro ⟨hm, hb⟩
    cases hf : pre.find? (fun a => (toSg cs a).match n) with
    | none =>
      rw [List.find?_eq_none] at hf
      exact ⟨pre, a, r, rfl, fun c hc hs => hf c hc ((match_iff hn).2 hs), (match_iff hn).1 hm, rfl⟩
    | some b =>
      obtain ⟨hs, l, r', e, hl⟩ := List.find?_eq_some_iff_append.1 hf
      refine ⟨l, b, r' ++ a :: r, by rw [e]; simp, fun c hc hsel => ?_, (match_iff hn).1 hs, replot_iff.1 (hb b hf)⟩
      have := hl c hc
      rw [(match_iff hn).2 hsel] at this
      cases this

open Classical in
theorem drawAll_ok {o : Options} {db : Db} {unit : Signal → Chars} {graphs : List (Chars × List Point)} {cs : Bool}
    {names : List Chars} (hnd : names.Nodup) (hnl : ∀ n ∈ names, '\n' ∉ n) :
    ∀ {r pre : List Argument} {plotted : List (Chars × Sg)} {l : List Curve} {w : List Note},
      (∀ n ∈ names, dictGet? plotted n = (firstOf cs pre n).map (toSg cs)) →
      drawAll o db unit graphs names plotted (r.map (toSg cs)) = .ok (l, w) →
      List.Forall₂ (fun (e : Argument × Chars) => IsCall o db unit graphs (toSg cs e.1) e.2)
        (r.flatMap fun a => (names.filter fun n => Shown cs (pre ++ r) a n).map fun n => (a, n)) l ∧
      List.Forall₂ (fun (a : Argument) n => ∃ p, n = .notPlotted p a.fmt)
        (r.filter fun a => ∀ n ∈ names, ¬ Shown cs (pre ++ r) a n) w := by
  intro r
  induction r with
  | nil =>
    intro pre plotted l w _ h
    unfold drawAll at h
    injection h with h; injection h with h1 h2
    subst h1 h2
    exact ⟨.nil, .nil⟩
  | cons a r ih =>
    intro pre plotted l w hp h
    rw [List.map_cons] at h
    unfold drawAll at h
    obtain ⟨⟨pl, l1⟩, h1, h⟩ := bind_ok_iff.1 h
    obtain ⟨⟨l2, w'⟩, h2, h⟩ := bind_ok_iff.1 h
    injection h with h; injection h with h3 h4
    subst h3 h4
    obtain ⟨g1, g2⟩ := drawNames_ok hnd h1
    have inv : ∀ n ∈ names, dictGet? pl n = (firstOf cs (pre ++ [a]) n).map (toSg cs) := by
      intro n hn
      rw [g1 n, hp n hn]
      unfold firstOf
      rw [List.find?_append]
      cases pre.find? (fun a => (toSg cs a).match n) with
      | some b => simp [hn]
      | none =>
        cases hm : (toSg cs a).match n with
        | true => simp [hn, hm]
        | false => simp [hm]
    obtain ⟨i1, i2⟩ := ih inv h2
    rw [List.append_assoc, List.singleton_append] at i1 i2
    have hf : names.filter (due (toSg cs a) plotted) = names.filter fun n => Shown cs (pre ++ a :: r) a n := by
      refine List.filter_congr fun n hn => ?_
      rw [Bool.eq_iff_iff, decide_eq_true_iff, shown_iff (hnl n hn)]
      unfold due
      rw [hp n hn, Bool.and_eq_true]
      refine and_congr_right fun _ => ?_
      cases firstOf cs pre n with
      | none => simp
      | some b => simp
    rw [hf] at g2
    refine ⟨?_, ?_⟩
    · rw [List.flatMap_cons]
      refine List.rel_append ?_ i1
      rw [List.forall₂_map_left_iff]
      exact g2
    · have he : l1.isEmpty = true ↔ ∀ n ∈ names, ¬ Shown cs (pre ++ a :: r) a n := by
        rw [List.isEmpty_iff, ← List.length_eq_zero_iff, ← g2.length_eq, List.length_eq_zero_iff, List.filter_eq_nil_iff]
        simp
      by_cases hl : l1.isEmpty = true
      · rw [if_pos hl, List.filter_cons_of_pos (by simpa using he.1 hl)]
        exact .cons ⟨_, rfl⟩ i2
      · rw [if_neg hl, List.filter_cons_of_neg (fun h => hl (he.2 (by simpa using h)))]
        exact i2

/-! ### Names -/

/-- The sorted list of the members. -/
def sorted (l : List Chars) : List Chars := l.insertionSort (· ≤ ·)

theorem sorted_le (l : List Chars) : (sorted l).Pairwise (· ≤ ·) :=
  have : Std.Total (α := Chars) (· ≤ ·) := ⟨List.le_total⟩
  have : IsTrans Chars (· ≤ ·) := ⟨fun _ _ _ => List.le_trans⟩
  List.pairwise_insertionSort (· ≤ ·) l

theorem sorted_perm (l : List Chars) : (sorted l).Perm l := List.perm_insertionSort (· ≤ ·) l

theorem sorted_lt {l : List Chars} (h : l.Nodup) : (sorted l).Pairwise (· < ·) := by
  have hn : (sorted l).Nodup := (sorted_perm l).nodup_iff.2 h
  exact ((sorted_le l).and hn).imp fun ⟨h, h'⟩ => Std.lt_of_le_of_ne h h'

theorem sorted_unique {a b : List Chars} (ha : a.Pairwise (· < ·)) (hb : b.Pairwise (· < ·)) (h : ∀ n, n ∈ a ↔ n ∈ b) :
    a = b := by
  have nd : ∀ {l : List Chars}, l.Pairwise (· < ·) → l.Nodup := fun hl =>
    hl.imp fun h e => by subst e; exact absurd h (List.lt_irrefl _)
  have hp : a.Perm b := (List.perm_ext_iff_of_nodup (nd ha) (nd hb)).2 h
  exact hp.eq_of_pairwise (fun x y _ _ h1 h2 => absurd (List.lt_trans h1 h2) (List.lt_irrefl _)) ha hb

theorem glob_weaken {cs : Bool} {p t : Chars} (h : Glob cs p t) : Glob false p t := by
  induction h with
  | nil => exact .nil
  | char h1 h2 h3 _ ih =>
    refine .char h1 h2 ?_ ih
    unfold Same at h3 ⊢
    cases cs with
    | false => exact h3
    | true => simp only [if_true] at h3; rw [h3]; simp
  | one _ ih => exact .one ih
  | many _ ih => exact .many ih

theorem isDisplayed_iff {cs : Bool} {as : List Argument} (hne : as ≠ []) {n : Chars} (hn : '\n' ∉ n) :
    isDisplayed (as.map (toSg cs)) n = true ↔ ∃ a ∈ as, Selects false a.pattern n := by
  unfold isDisplayed
  rw [List.map_map, show (Sg.pattern ∘ toSg cs) = patternText ∘ Argument.pattern from rfl, ← List.map_map]
  rw [reMatch_join (by simpa using hne) hn]
  simp

theorem split_dot {n : Chars} (hd : '.' ∈ n) :
    n = n.takeWhile (· ≠ '.') ++ '.' :: (n.dropWhile (· ≠ '.')).drop 1 := by
  induction n with
  | nil => cases hd
  | cons c n ih =>
    by_cases hc : c = '.'
    · subst hc; simp
    · have := ih ((List.mem_cons.1 hd).resolve_left (Ne.symm hc))
      rw [List.takeWhile_cons_of_pos (by simpa using hc), List.dropWhile_cons_of_pos (by simpa using hc)]
      rw [List.cons_append]
      exact congrArg _ this

theorem label_ok {o : Options} {db : Db} {unit : Signal → Chars} {n l : Chars} (h : labelOf o db unit n = .ok l) :
    Label o db unit n l := by
  unfold labelOf at h
  unfold Label
  cases hu : o.showUnits with
  | false =>
    rw [hu] at h
    injection h with h
    exact h.symm
  | true =>
    rw [hu] at h
    simp only [if_true] at h ⊢
    by_cases hc : n.count '.' = 1
    · rw [if_neg (by simpa using hc)] at h
      obtain ⟨m, h1, h⟩ := bind_ok_iff.1 h
      cases hb : m.body with
      | inr c => rw [hb] at h; cases h
      | inl msg =>
        rw [hb] at h
        dsimp only at h
        cases hf : msg.signals.find? (fun s => s.name.toList == (n.dropWhile (· ≠ '.')).drop 1) with
        | none => rw [hf] at h; cases h
        | some s =>
          rw [hf] at h
          injection h with h
          refine ⟨_, m, msg, s, h1, hb, List.mem_of_find?_eq_some hf, ?_, h.symm⟩
          have hs : s.name.toList = (n.dropWhile (· ≠ '.')).drop 1 := by simpa using List.find?_some hf
          have hd : '.' ∈ n := List.count_pos_iff.1 (by omega)
          rw [String.toList_ofList, hs]
          exact split_dot hd
    · rw [if_pos hc] at h
      cases h

open Classical in
/-- The picture of a plotter that holds the entries. -/
theorem picture_shows {fo : FloatOps} {o : Options} {db : Db} {unit : Signal → Chars} {as : List Argument}
    {es : List Entry} {p : Plotter} {l : List Curve} {w : List Note} (hne : as ≠ [])
    (hnl : ∀ n, samples fo o db es n ≠ [] → '\n' ∉ n)
    (h : Holds fo o db (as.map (toSg o.caseSensitive)) es p)
    (hd : drawAll o db unit p.graphs (sortedNames p.graphs) [] (as.map (toSg o.caseSensitive)) = .ok (l, w)) :
    Shows fo o db unit es as
      { curves := l, syntaxes := p.syntaxes, unknowns := p.unknowns, invalids := p.invalids, printed := p.printed ++ w } := by
  refine ⟨h.unknowns, h.invalids, h.syntaxes, ?_⟩
  have hk : ∀ n, n ∈ p.graphs.map (·.1) ↔ isDisplayed (as.map (toSg o.caseSensitive)) n = true ∧ samples fo o db es n ≠ [] := by
    intro n
    rw [samples_eq, ← not_iff_not, ← dictGet?_eq_none_iff, h.tracks.get n]
    split <;> rename_i hc <;> simp [hc]
  have hmem : ∀ n, n ∈ sortedNames p.graphs ↔ n ∈ p.graphs.map (·.1) := fun n => (sorted_perm _).mem_iff
  have hsort : (sortedNames p.graphs).Pairwise (· < ·) := sorted_lt h.tracks.nodup
  have hnd : (sortedNames p.graphs).Nodup := (sorted_perm _).nodup_iff.2 h.tracks.nodup
  have hnl' : ∀ n ∈ sortedNames p.graphs, '\n' ∉ n := fun n hn => hnl n ((hk n).1 ((hmem n).1 hn)).2
  obtain ⟨d1, d2⟩ := drawAll_ok (pre := []) (plotted := []) hnd hnl' (by intro n _; rfl) hd
  rw [List.nil_append] at d1 d2
  -- all names
  let all := sorted ((es.flatMap (valuesOf fo o db)).map (·.1)).dedup
  have hall : all.Pairwise (· < ·) := sorted_lt (List.nodup_dedup _)
  have hallm : ∀ n, n ∈ all ↔ samples fo o db es n ≠ [] := by
    intro n
    rw [(sorted_perm _).mem_iff, List.mem_dedup, samples_eq]
    unfold ofName
    rw [Ne, List.map_eq_nil_iff, List.filter_eq_nil_iff]
    simp
  have hshown : ∀ {a n}, '\n' ∉ n → Shown o.caseSensitive as a n → isDisplayed (as.map (toSg o.caseSensitive)) n = true := by
    rintro a n hn ⟨l, b, r, e, _, hs, _⟩
    rw [isDisplayed_iff hne hn]
    exact ⟨b, by rw [e]; simp, glob_weaken hs⟩
  have hfil : ∀ a, (sortedNames p.graphs).filter (fun n => Shown o.caseSensitive as a n) =
      all.filter (fun n => Shown o.caseSensitive as a n) := by
    intro a
    refine sorted_unique (hsort.filter _) (hall.filter _) fun n => ?_
    simp only [List.mem_filter, decide_eq_true_eq, hmem, hk, hallm]
    constructor
    · rintro ⟨⟨_, h1⟩, h2⟩; exact ⟨h1, h2⟩
    · rintro ⟨h1, h2⟩; exact ⟨⟨hshown (hnl n h1) h2, h1⟩, h2⟩
  refine ⟨all, hall, hallm, ?_, w, by rw [h.printed], ?_⟩
  · unfold drawn
    simp only [hfil] at d1
    refine List.Forall₂.imp ?_ (List.forall₂_iff_zip.2 ⟨d1.length_eq, fun {a b} hab => (⟨(List.forall₂_iff_zip.1 d1).2 hab, (List.of_mem_zip hab).1⟩ : _ ∧ _)⟩)
    rintro ⟨a, n⟩ c ⟨⟨label, h1, rfl⟩, hm⟩
    refine ⟨rfl, rfl, rfl, rfl, ?_, label_ok h1⟩
    simp only [List.mem_flatMap, List.mem_map, List.mem_filter, decide_eq_true_eq] at hm
    obtain ⟨a', _, n', ⟨hn1, hn2⟩, e⟩ := hm
    injection e with e1 e2
    subst e1 e2
    have hs := (hallm _).1 hn1
    show (dictGet? p.graphs n').getD [] = _
    rw [h.tracks.get n', samples_eq, if_pos ⟨hshown (hnl _ hs) hn2, by rw [← samples_eq]; exact hs⟩]
    rfl
  · unfold idle
    have : (as.filter fun a => ∀ n ∈ sortedNames p.graphs, ¬ Shown o.caseSensitive as a n) =
        as.filter fun a => ∀ n ∈ all, ¬ Shown o.caseSensitive as a n := by
      refine List.filter_congr fun a _ => ?_
      have e := hfil a
      rw [Bool.eq_iff_iff, decide_eq_true_iff, decide_eq_true_iff]
      have h1 : ∀ L : List Chars, (∀ n ∈ L, ¬ Shown o.caseSensitive as a n) ↔ L.filter (fun n => Shown o.caseSensitive as a n) = [] := by
        intro L; rw [List.filter_eq_nil_iff]; simp
      rw [h1, h1, e]
    rw [← this]
    exact d2

/-! ### Acceptance -/

theorem drawNames_total {o : Options} {db : Db} {unit : Signal → Chars} {graphs : List (Chars × List Point)} {sg : Sg} :
    ∀ {ns : List Chars} {plotted : List (Chars × Sg)}, (∀ n ∈ ns, ∃ l, labelOf o db unit n = .ok l) →
      ∃ r, drawNames o db unit graphs sg plotted ns = .ok r := by
  intro ns
  induction ns with
  | nil => intro plotted _; exact ⟨_, rfl⟩
  | cons n ns ih =>
    intro plotted h
    have h' : ∀ n ∈ ns, ∃ l, labelOf o db unit n = .ok l := fun m hm => h m (by simp [hm])
    obtain ⟨label, hl⟩ := h n (by simp)
    unfold drawNames
    split
    · split
      · split
        · obtain ⟨r, hr⟩ := ih (plotted := plotted) h'
          exact ⟨_, bind_ok_iff.2 ⟨label, hl, bind_ok_iff.2 ⟨r, hr, rfl⟩⟩⟩
        · exact ih h'
      · obtain ⟨r, hr⟩ := ih (plotted := dictSet plotted n sg) h'
        exact ⟨_, bind_ok_iff.2 ⟨label, hl, bind_ok_iff.2 ⟨r, hr, rfl⟩⟩⟩
    · exact ih h'

theorem drawAll_total {o : Options} {db : Db} {unit : Signal → Chars} {graphs : List (Chars × List Point)} {names : List Chars}
    (h : ∀ n ∈ names, ∃ l, labelOf o db unit n = .ok l) :
    ∀ {sgs : List Sg} {plotted : List (Chars × Sg)}, ∃ r, drawAll o db unit graphs names plotted sgs = .ok r := by
  intro sgs
  induction sgs with
  | nil => intro plotted; exact ⟨_, rfl⟩
  | cons sg sgs ih =>
    intro plotted
    obtain ⟨⟨p, l⟩, hr⟩ := drawNames_total (graphs := graphs) (sg := sg) (plotted := plotted) h
    obtain ⟨r, hr'⟩ := ih (plotted := p)
    unfold drawAll
    exact ⟨_, bind_ok_iff.2 ⟨(p, l), hr, bind_ok_iff.2 ⟨r, hr', rfl⟩⟩⟩

theorem label_total {o : Options} {db : Db} {unit : Signal → Chars} {a b : Chars} {m : DbMessage} {msg : Message} {s : Signal}
    (h1 : '.' ∉ a) (h2 : '.' ∉ b) (h3 : db.getByName (String.ofList a) = .ok m) (h4 : m.body = .inl msg) (h5 : s ∈ msg.signals)
    (h6 : s.name.toList = b) : ∃ l, labelOf o db unit (a ++ '.' :: b) = .ok l := by
  unfold labelOf
  split
  · have ht : (a ++ '.' :: b).takeWhile (· ≠ '.') = a := by
      rw [List.takeWhile_append_of_pos]
      · simp
      · intro c hc
        simp only [ne_eq, decide_eq_true_eq]
        rintro rfl
        exact h1 hc
    have hd : (a ++ '.' :: b).dropWhile (· ≠ '.') = '.' :: b := by
      rw [List.dropWhile_append_of_pos]
      · simp
      · intro c hc
        simp only [ne_eq, decide_eq_true_eq]
        rintro rfl
        exact h1 hc
    rw [if_neg (by simp [List.count_eq_zero_of_not_mem h1, List.count_eq_zero_of_not_mem h2]), ht, hd]
    cases hf : msg.signals.find? (fun s => s.name.toList == ('.' :: b).drop 1) with
    | none =>
      rw [List.find?_eq_none] at hf
      exact absurd (by simpa using h6) (hf s h5)
    | some s' =>
      refine ⟨(a ++ '.' :: b) ++ (" [".toList ++ (unit s' ++ "]".toList)), bind_ok_iff.2 ⟨m, h3, ?_⟩⟩
      rw [h4]
      dsimp only
      rw [hf]
      rfl
  · exact ⟨_, rfl⟩

end Cantools.Plot
