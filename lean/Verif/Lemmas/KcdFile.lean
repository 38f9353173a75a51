import Verif.Spec.KcdFile
import Verif.Props.KcdXml
import Verif.Props.Files

/-
Lemmas for databases of DBC and SYM files in KCD files.
-/

namespace Cantools.Files
open Spec Dbc
open Kcd (KSignal KMessage KDatabase NumText)

variable {F : Type} {T : FloatText F} {N : NumText} {db : DDatabase F}

theorem factory_choices (s o : Rat) (c : Option Choices) (f : Bool) : (Conversion.factory s o c f).choices = c :=
  (factory_fields s o c f).2.2.1

theorem core_choices (s : DSignal F) : (s.core T).conversion.choices =
    s.choices.map fun cs => cs.map fun e => (e.1, .named { value := e.1, name := String.ofList e.2 }) :=
  factory_choices ..

theorem xmlText_ofList {t : Chars} (h : XmlChars t) : XmlText (String.ofList t) := by
  intro c hc
  rw [String.toList_ofList] at hc
  exact h c hc

theorem xmlContent_ofList {t : Chars} (h : XmlContents t) : XmlContent (String.ofList t) := by
  intro c hc
  rw [String.toList_ofList] at hc
  refine ⟨(h c hc).1, fun e => (h c hc).2 ?_⟩
  exact Char.toNat_inj.1 e

theorem ofList_inj {a b : Chars} (h : String.ofList a = String.ofList b) : a = b := by
  have := congrArg String.toList h
  simpa using this

/-! ### The conditions of C42 -/

theorem flat_asKcd {nodes : List Chars} {m : DMessage F} (W : KcdMessage nodes m) :
    Flat (asKcdMessage T m).signals where
  names := by
    have : (asKcdMessage T m).signals.map (·.core.name) = (m.signals.map (·.name)).map String.ofList := by
      simp only [asKcdMessage, List.map_map]
      rfl
    rw [this]
    exact W.distinct.map fun a b h => ofList_inj h
  plain := by
    intro k hk h
    obtain ⟨s, hs, rfl⟩ := List.mem_map.1 hk
    show s.multiplexerSignal.map String.ofList = none
    rw [(W.signals s hs).plain h]
    rfl
  multiplexed := by
    intro k hk ids h
    obtain ⟨s, hs, rfl⟩ := List.mem_map.1 hk
    obtain ⟨h1, h2, p, hp, h3, h4⟩ := (W.signals s hs).multiplexed ids h
    refine ⟨h1, h2, asKcdSignal T p, List.mem_map_of_mem hp, h3, ?_⟩
    show s.multiplexerSignal.map String.ofList = _
    rw [h4]
    rfl

theorem mem_nodes {nodes : List (DNode F)} {n : Chars} (h : n ∈ nodes.map (·.name)) :
    ∃ x ∈ nodes.map (fun n => String.ofList n.name), some (String.ofList n) = some x := by
  obtain ⟨d, hd, rfl⟩ := List.mem_map.1 h
  exact ⟨_, List.mem_map_of_mem hd, rfl⟩

theorem writable_asKcd {sigs : List (DSignal F)} {s : DSignal F}
    (W : KcdSignal (db.nodes.map (·.name)) sigs s) :
    Writable (asKcd T db).nodes (asKcdSignal T s) ∧ Meaningful (asKcdSignal T s) := by
  refine ⟨⟨?_, ?_⟩, ⟨_, _, _, _, rfl⟩, ?_⟩
  · intro r hr
    obtain ⟨n, hn, rfl⟩ := List.mem_map.1 hr
    exact mem_nodes (W.receivers n hn)
  · intro cs hcs
    rw [show (asKcdSignal T s).core = s.core T from rfl, core_choices] at hcs
    obtain ⟨l, hl, rfl⟩ := Option.map_eq_some_iff.1 hcs
    rw [List.map_map]
    exact (W.choices l hl).2
  · intro cs hcs
    rw [show (asKcdSignal T s).core = s.core T from rfl, core_choices] at hcs
    obtain ⟨l, hl, rfl⟩ := Option.map_eq_some_iff.1 hcs
    refine ⟨fun h => (W.choices l hl).1 (List.map_eq_nil_iff.1 h), fun e he => ?_⟩
    obtain ⟨x, -, rfl⟩ := List.mem_map.1 he
    rfl

theorem text_asKcd (W : KcdDatabase db) : TextDatabase (asKcd T db) where
  version := by
    intro v hv
    obtain ⟨t, ht, rfl⟩ := Option.map_eq_some_iff.1 hv
    exact xmlText_ofList (W.version t ht)
  nodes := by
    intro n hn
    obtain ⟨d, hd, rfl⟩ := List.mem_map.1 hn
    exact xmlText_ofList (W.nodes d hd)
  names := by
    intro m hm
    obtain ⟨d, hd, rfl⟩ := List.mem_map.1 hm
    exact xmlText_ofList (W.messages d hd).name
  comments := by
    intro m hm c hc
    obtain ⟨d, hd, rfl⟩ := List.mem_map.1 hm
    obtain ⟨t, ht, rfl⟩ := Option.map_eq_some_iff.1 hc
    exact xmlContent_ofList ((W.messages d hd).comment t ht)
  signals := by
    intro m hm k hk
    obtain ⟨d, hd, rfl⟩ := List.mem_map.1 hm
    obtain ⟨s, hs, rfl⟩ := List.mem_map.1 hk
    have w := (W.messages d hd).signals s hs
    refine ⟨xmlText_ofList w.name, ?_, ?_, ?_⟩
    · intro u hu
      obtain ⟨t, ht, rfl⟩ := Option.map_eq_some_iff.1 hu
      exact xmlText_ofList (w.unit t ht)
    · intro u hu
      obtain ⟨t, ht, rfl⟩ := Option.map_eq_some_iff.1 hu
      exact xmlContent_ofList (w.comment t ht)
    · intro cs hcs e he
      rw [show (asKcdSignal T s).core = s.core T from rfl, core_choices] at hcs
      obtain ⟨l, hl, rfl⟩ := Option.map_eq_some_iff.1 hcs
      obtain ⟨x, hx, rfl⟩ := List.mem_map.1 he
      exact xmlText_ofList (w.names l hl x hx)

/-! ### What is kept -/

theorem keptComment_eq (c : Option Chars) :
    (if c.map String.ofList = some "" then none else c.map String.ofList) = keptComment c := by
  cases c with
  | none => rfl
  | some t =>
    unfold keptComment
    cases t with
    | nil => rfl
    | cons a r =>
      rw [if_neg]
      · rfl
      · intro h
        have := ofList_inj (b := []) (Option.some.inj h)
        cases this

theorem kept_signal {nodes : List Chars} {sigs : List (DSignal F)} {s : DSignal F} (W : KcdSignal nodes sigs s) :
    KcdKeptSignal T s (keptSignal (asKcdSignal T s)) where
  core := by
    obtain ⟨e1, e2, e3, e4⟩ := factory_fields (s.scale.value T) (s.offset.value T)
      (s.choices.map fun cs => cs.map fun e => (e.1, .named { value := e.1, name := String.ofList e.2 })) s.isFloat
    have hk : keptChoices (s.core T).conversion.choices = (s.core T).conversion.choices := by
      rw [core_choices]
      cases hc : s.choices with
      | none => rfl
      | some cs =>
        obtain ⟨h1, -⟩ := W.choices cs hc
        cases cs with
        | nil => exact absurd rfl h1
        | cons a r =>
          show some _ = some _
          dsimp only
          rw [List.map_map]
          rfl
    show ({ s.core T with
      isSigned := _
      conversion := Conversion.factory (s.core T).conversion.scale (s.core T).conversion.offset
        (keptChoices (s.core T).conversion.choices) (s.core T).conversion.isFloat } : Signal) = _
    rw [hk]
    have hc : (s.core T).conversion = Conversion.factory (s.scale.value T) (s.offset.value T)
      (s.choices.map fun cs => cs.map fun e => (e.1, .named { value := e.1, name := String.ofList e.2 })) s.isFloat := rfl
    have hf : (s.core T).conversion.isFloat = s.isFloat := by rw [hc, e4]
    have : Conversion.factory (s.core T).conversion.scale (s.core T).conversion.offset
        (s.core T).conversion.choices (s.core T).conversion.isFloat = (s.core T).conversion := by
      rw [hc, e1, e2, e3, e4]
    rw [this]
    show ({ s.core T with isSigned := s.isSigned && !(s.core T).conversion.isFloat } : Signal) = _
    rw [hf]
  unit := rfl
  comment := keptComment_eq _
  receivers := rfl

theorem kept_message {nodes : List Chars} {m : DMessage F} (W : KcdMessage nodes m) {signals : List KSignal}
    (h : signals.Perm ((asKcdMessage T m).signals.map keptSignal)) :
    KcdKept T m { asKcdMessage T m with
      unusedBitPattern := 0xff
      comment := if (asKcdMessage T m).comment = some "" then none else (asKcdMessage T m).comment
      signals := signals } where
  frameId := Int.toNat_of_nonneg W.id
  isExtendedFrame := rfl
  name := rfl
  length := rfl
  senders := rfl
  cycleTime := by
    show m.cycleTime = (asKcdTime m.cycleTime).map .int
    cases hc : m.cycleTime with
    | none => rfl
    | some n =>
      obtain ⟨i, rfl⟩ := W.cycleTime n hc
      rfl
  comment := keptComment_eq _
  signals := by
    rw [show (asKcdMessage T m).signals.map keptSignal = m.signals.map (fun s => keptSignal (asKcdSignal T s)) by
      simp only [asKcdMessage, List.map_map]; rfl] at h
    obtain ⟨l, hl, rfl⟩ := perm_of_map h
    refine ⟨l, hl, ?_⟩
    rw [List.forall₂_map_right_iff, List.forall₂_same]
    exact fun s hs => kept_signal (W.signals s (hl.mem_iff.1 hs))

/-! ### SYM files -/

theorem sym_section_senders {strict : Bool} {signals : Sym.Library F} {enums : Sym.Enums} {senders : List Chars}
    {blocks : List Sym.Block} {ms : List (DMessage F)}
    (h : Sym.loadSection T strict signals enums senders blocks = .ok ms) : ∀ m ∈ ms, m.senders = senders := by
  unfold Sym.loadSection at h
  obtain ⟨parts, hp, h⟩ := bind_ok_iff.1 h
  cases h
  intro m hm
  obtain ⟨part, hpart, hm⟩ := List.mem_flatten.1 hm
  obtain ⟨b, -, hb⟩ := Kcd.mapM_mem hp part hpart
  split at hb
  · cases hb; cases hm
  · obtain ⟨⟨ids, ext⟩, -, hb⟩ := bind_ok_iff.1 hb
    obtain ⟨i, -, hi⟩ := Kcd.mapM_mem hb m hm
    unfold Sym.loadMessage at hi
    obtain ⟨len, -, hi⟩ := bind_ok_iff.1 hi
    obtain ⟨cyc, -, hi⟩ := bind_ok_iff.1 hi
    obtain ⟨sigs, -, hi⟩ := bind_ok_iff.1 hi
    obtain ⟨msg, -, hi⟩ := bind_ok_iff.1 hi
    cases hi
    rfl

theorem sym_senders {strict : Bool} {text : Chars} (h : Sym.loadString T strict text = .ok db) :
    db.nodes = [] ∧ ∀ m ∈ db.messages, m.senders ≠ [] := by
  unfold Sym.loadString at h
  dsimp only at h
  split at h
  · cases h
  obtain ⟨_, -, h⟩ := bind_ok_iff.1 h
  obtain ⟨d, -, h⟩ := bind_ok_iff.1 h
  unfold Sym.loadDoc at h
  obtain ⟨_, -, h⟩ := bind_ok_iff.1 h
  obtain ⟨_, -, h⟩ := bind_ok_iff.1 h
  obtain ⟨_, h1, h⟩ := bind_ok_iff.1 h
  obtain ⟨_, h2, h⟩ := bind_ok_iff.1 h
  obtain ⟨_, h3, h⟩ := bind_ok_iff.1 h
  cases h
  refine ⟨rfl, fun m hm => ?_⟩
  simp only [List.mem_append] at hm
  rcases hm with (hm | hm) | hm
  · rw [sym_section_senders h1 m hm]; simp
  · rw [sym_section_senders h2 m hm]; simp
  · rw [sym_section_senders h3 m hm]; simp

theorem dump_no_nodes {sort : List KSignal → List KSignal} {k : KDatabase} (hn : k.nodes = []) (hm : k.messages ≠ [])
    (hs : ∀ m ∈ k.messages, m.senders ≠ []) : Kcd.dumpString N sort k = .error .keyError := by
  unfold Kcd.dumpString Kcd.dump
  rw [hn]
  cases hms : k.messages with
  | nil => exact absurd hms hm
  | cons m r =>
    have h := hs m (by rw [hms]; exact List.mem_cons_self ..)
    have hd : Kcd.dumpMessage N (Kcd.nodeRefs []) sort m = .error .keyError := by
      unfold Kcd.dumpMessage Kcd.dumpRefs
      rw [if_neg h]
      cases hsn : m.senders with
      | nil => exact absurd hsn h
      | cons a l =>
        have : Kcd.nodeRef (Kcd.nodeRefs []) a = .error .keyError := by cases a <;> rfl
        rw [List.mapM_cons, this]
        rfl
    rw [List.mapM_cons, hd]
    rfl

/-! ### Messages -/

theorem create_any {m : KMessage} {msg : Message} (h : m.create = .ok msg) (strict : Bool) :
    ∃ msg', m.create strict = .ok msg' := by
  unfold KMessage.create at h ⊢
  obtain ⟨h1, h2, c, hc, h3, h4⟩ := create_ok_iff.1 h
  exact ⟨msg, create_ok_iff.2 ⟨h1, h2, c, hc, fun _ => h3 rfl, h4⟩⟩

theorem forall₂_imp_mem {α β : Type} {P Q : α → β → Prop} {l : List α} {l' : List β} (h : List.Forall₂ P l l')
    (hi : ∀ a ∈ l, ∀ b, P a b → Q a b) : List.Forall₂ Q l l' := by
  induction h with
  | nil => exact .nil
  | cons h1 _ ih => exact .cons (hi _ (List.mem_cons_self ..) _ h1) (ih fun a ha => hi a (List.mem_cons_of_mem _ ha))

/-! ### The text -/

theorem read_text {codec : Codec} (hk : Keeps codec fun _ => True) {linesep : Chars}
    (hl : linesep = ['\n'] ∨ linesep = ['\r', '\n'] ∨ linesep = ['\r']) {x : Kcd.Xml}
    (h : (Kcd.withAttrs Kcd.rootAttrs x).Good) :
    let text := Kcd.writeElem 0 (Kcd.withAttrs Kcd.rootAttrs x) ++ Kcd.newLine 0
    universal (codec.decode ((translate linesep text).flatMap codec.encode)) = text := by
  intro text
  rw [hk.keeps _ fun _ _ => trivial, universal_translate hl]
  intro hc
  have := Kcd.plain_append (Kcd.plain_writeElem 0 _ h) (Kcd.plain_newLine 0) _ hc
  exact absurd this (by decide)

end Cantools.Files
