import Verif.Lemmas.KcdFile

/-
C59: conversion to KCD.
-/

namespace Cantools
open Spec Dbc Files
open Kcd (KSignal KMessage KDatabase NumText)

section
variable {F : Type} {T : FloatText F} {N : NumText} {db : DDatabase F} {utf8 : Files.Codec} {encoding : Option Files.Codec}

/-- C59: a KCD file that is written for a database is read as one with the same contents, as far as a KCD file has fields
for them, and its messages treat frames in the same way; on every platform and with every encoding for all of Unicode. -/
theorem C59_kcd_file {fo : FloatOps} (hN : N.Faithful) (hN' : N.Plain) (W : KcdDatabase db) (hp : NoNamedFloats db)
    (C : ∀ m ∈ db.messages, ∃ pattern msg, messageOf T pattern true m = .ok msg)
    (hk : Keeps (encoding.getD utf8) fun _ => True) (strict : Bool) {linesep : Chars}
    (hl : linesep = ['\n'] ∨ linesep = ['\r', '\n'] ∨ linesep = ['\r'])
    {filename other : Chars} (hn : Load.extension filename = "kcd".toList) (ho : Load.extension other = "kcd".toList) :
    ∃ bytes, dumpKcdFile N T linesep utf8 encoding filename db = .ok bytes ∧
      ∃ k, loadKcdFile N utf8 encoding strict other bytes = .ok k ∧ KcdKeptDatabase T db k ∧
        List.Forall₂ (KcdFramesSurvive fo T) db.messages k.messages := by
  have hflat : ∀ m ∈ (asKcd T db).messages, Flat m.signals := by
    intro m hm
    obtain ⟨d, hd, rfl⟩ := List.mem_map.1 hm
    exact flat_asKcd (W.messages d hd)
  have hw : ∀ m ∈ (asKcd T db).messages, ∀ k ∈ m.signals, Writable (asKcd T db).nodes k ∧ Meaningful k := by
    intro m hm k hk
    obtain ⟨d, hd, rfl⟩ := List.mem_map.1 hm
    obtain ⟨s, hs, rfl⟩ := List.mem_map.1 hk
    exact writable_asKcd ((W.messages d hd).signals s hs)
  have hs : ∀ m ∈ (asKcd T db).messages, ∀ s ∈ m.senders, ∃ n ∈ (asKcd T db).nodes, s = some n := by
    intro m hm s hs
    obtain ⟨d, hd, rfl⟩ := List.mem_map.1 hm
    obtain ⟨n, hn, rfl⟩ := List.mem_map.1 hs
    exact mem_nodes ((W.messages d hd).senders n hn)
  have hpt : ∀ m ∈ (asKcd T db).messages, ∀ k ∈ m.signals,
      k.core.conversion.isFloat = true → k.core.conversion.choices = none := by
    intro m hm k hk h
    obtain ⟨d, hd, rfl⟩ := List.mem_map.1 hm
    obtain ⟨s, hs, rfl⟩ := List.mem_map.1 hk
    have hf : s.isFloat = true := by
      rw [← h]
      exact (factory_fields ..).2.2.2.symm
    show (s.core T).conversion.choices = none
    rw [core_choices, hp d hd s hs hf]
    rfl
  obtain ⟨x, k, h1, h2, h3, h4, h5⟩ := Kcd.load_dump hN (sort := id) (fun m _ => .refl _) hflat
    (fun m hm k hk => (hw m hm k hk).1) hs
  obtain ⟨x', k', f1, f2, f3⟩ := C42_frames_survive_partial (fo := fo) hN (sort := id) (fun m _ => .refl _) hflat hw hs hpt
  rw [h1] at f1
  cases f1
  rw [h2] at f2
  cases f2
  have hgood := Kcd.good_dump hN' (fun m _ => .refl _) (text_asKcd W) h1
  have hframes : List.Forall₂ (KcdFramesSurvive fo T) db.messages k.messages := by
    have : (asKcd T db).messages = db.messages.map (asKcdMessage T) := rfl
    rw [this, List.forall₂_map_left_iff] at f3
    refine forall₂_imp_mem f3 fun d hd k hf pattern msg hmsg => ?_
    have hsigs : (asKcdMessage T d).signals.map (·.core) = d.signals.map (·.core T) := by
      simp only [asKcdMessage, List.map_map]
      rfl
    have hnd : ((d.signals.map (·.core T)).map (·.name)).Nodup := by
      rw [← hsigs, List.map_map]
      exact (flat_asKcd (T := T) (W.messages d hd)).names
    have hb : ∀ s ∈ d.signals.map (·.core T), Built s.conversion := by
      intro s hs
      obtain ⟨e, -, rfl⟩ := List.mem_map.1 hs
      exact ⟨_, _, _, _, rfl⟩
    have hpt' : ∀ s ∈ d.signals.map (·.core T), s.conversion.isFloat = true → s.conversion.choices = none := by
      intro s hs
      rw [← hsigs] at hs
      obtain ⟨e, he, rfl⟩ := List.mem_map.1 hs
      exact hpt _ (List.mem_map_of_mem hd) e he
    have hmid : ∃ mid, (asKcdMessage T d).create = .ok mid := by
      unfold KMessage.create
      rw [hsigs, (C05_strict_check_iff hnd (default_perm _)).1]
      have := (C05_strict_check_iff hnd (default_perm _)).1.1 ⟨msg, hmsg⟩
      rw [show ((asKcdMessage T d).frameId : Int) = d.frameId from Int.toNat_of_nonneg (W.messages d hd).id]
      exact this
    obtain ⟨mid, hmid⟩ := hmid
    obtain ⟨msg', c1, c2, c3⟩ := hf.2 mid hmid
    unfold KMessage.create at hmid
    rw [hsigs] at hmid
    refine ⟨msg', c1, fun data scaling padding strict payload hpat => ?_, fun data dc sc tr ex => ?_⟩
    · exact (C39_encode_order_independent hnd hb (.refl _) hmsg hmid fun h => (hpat h).symm).trans
        (c2 data scaling padding strict payload fun _ => rfl)
    · rcases C39_decode_order_independent (fo := fo) hnd hb hpt' (.refl _) hmsg hmid data dc sc tr ex with
        ⟨a1, a2⟩ | ⟨r, r', a1, a2, a3⟩
      · rcases c3 data dc sc tr ex with ⟨b1, b2⟩ | ⟨t, t', b1, b2, b3⟩
        · exact .inl ⟨a1, b2⟩
        · rw [a2] at b1; cases b1
      · rcases c3 data dc sc tr ex with ⟨b1, b2⟩ | ⟨t, t', b1, b2, b3⟩
        · rw [a2] at b1; cases b1
        · rw [a2] at b1; cases b1
          exact .inr ⟨r, t', a1, b2, b3.trans a3⟩
  refine ⟨(translate linesep (Kcd.writeElem 0 (Kcd.withAttrs Kcd.rootAttrs x) ++ Kcd.newLine 0)).flatMap
    (encoding.getD utf8).encode, ?_, k, ?_, ⟨?_, h4, ?_⟩, hframes⟩
  · unfold dumpKcdFile Kcd.dumpString
    rw [if_pos hn, h1]
    rfl
  · unfold loadKcdFile
    have hread := read_text hk hl hgood
    dsimp only at hread ⊢
    rw [if_pos ho, hread, Kcd.loadString_text hgood, h2]
    obtain ⟨l, hl, -⟩ := Kcd.mapM_exists (f := fun m : KMessage => m.create strict) (P := fun _ _ => True)
      (l := k.messages) (fun m hm => by
        obtain ⟨d, hd, hf⟩ := forall₂_mem_right hframes hm
        obtain ⟨pattern, msg, hmsg⟩ := C d hd
        obtain ⟨msg', hmsg', -⟩ := hf pattern msg hmsg
        obtain ⟨msg'', h''⟩ := create_any hmsg' strict
        exact ⟨msg'', h'', trivial⟩)
    show (match (do let _ ← k.messages.mapM fun m => m.create strict; return k : Except Err KDatabase) with
      | .ok db => (.ok db : Except Err KDatabase)
      | .error _ => .error .error) = _
    rw [hl]
    rfl
  · rw [h3]
    show some ((db.version.map String.ofList).getD "") = _
    cases db.version <;> rfl
  · have : (asKcd T db).messages = db.messages.map (asKcdMessage T) := rfl
    rw [this, List.forall₂_map_left_iff] at h5
    refine forall₂_imp_mem h5 fun d hd k hf => ?_
    obtain ⟨signals, hperm, rfl⟩ := hf
    exact kept_message (W.messages d hd) hperm

/-- C59: converting a DBC or SYM file to KCD. -/
theorem C59_convert_to_kcd {fo : FloatOps} (hN : N.Faithful) (hN' : N.Plain) {linesep infile outfile : Chars}
    {bytes : List UInt8} (h : loadFile T encoding true infile bytes = .ok db) (W : KcdDatabase db)
    (hp : NoNamedFloats db) (hk : Keeps (encoding.getD utf8) fun _ => True)
    (hl : linesep = ['\n'] ∨ linesep = ['\r', '\n'] ∨ linesep = ['\r']) (ho : Load.extension outfile = "kcd".toList) :
    ∃ out, convertToKcd N T linesep utf8 encoding false infile outfile bytes = .ok out ∧
      ∃ k, loadKcdFile N utf8 encoding true outfile out = .ok k ∧ KcdKeptDatabase T db k ∧
        List.Forall₂ (KcdFramesSurvive fo T) db.messages k.messages := by
  have : convertToKcd N T linesep utf8 encoding false infile outfile bytes =
      dumpKcdFile N T linesep utf8 encoding outfile db := by
    unfold convertToKcd
    rw [show (!false) = true from rfl, h]
    rfl
  rw [this]
  exact C59_kcd_file hN hN' W hp (loadFile_constructible h) hk true hl ho ho

/-- C59, where it fails: no SYM file with a message can be converted to KCD.  The messages of a SYM file have the senders
"ECU" and "Peripherals", but the database has no nodes. -/
theorem C59_sym_to_kcd {linesep infile outfile : Chars} {noStrict : Bool} {bytes : List UInt8}
    (hi : Load.extension infile = "sym".toList) (h : loadFile T encoding (!noStrict) infile bytes = .ok db)
    (hm : db.messages ≠ []) (ho : Load.extension outfile = "kcd".toList) :
    convertToKcd N T linesep utf8 encoding noStrict infile outfile bytes = .error .keyError := by
  have hs : db.nodes = [] ∧ ∀ m ∈ db.messages, m.senders ≠ [] := by
    unfold loadFile at h
    rw [resolve_sym hi] at h
    simp only [if_neg (show "sym".toList ≠ "dbc".toList by decide), if_true] at h
    split at h
    · rename_i he
      cases h
      exact sym_senders he
    · cases h
  unfold convertToKcd
  rw [h]
  show dumpKcdFile N T linesep utf8 encoding outfile db = _
  unfold dumpKcdFile
  rw [if_pos ho, dump_no_nodes (by simp [asKcd, hs.1]) (by simpa [asKcd] using hm)]
  · rfl
  · intro m hm
    obtain ⟨d, hd, rfl⟩ := List.mem_map.1 hm
    simpa [asKcdMessage] using hs.2 d hd

/-- C59: whatever is wrong with a KCD file, `load_file` raises the exception that says that the file is not supported. -/
theorem C59_kcd_load_errors {strict : Bool} {filename : Chars} {bytes : List UInt8} {e : Err}
    (h : loadKcdFile N utf8 encoding strict filename bytes = .error e) : e = .error := by
  unfold loadKcdFile at h
  dsimp only at h
  generalize (if Load.extension filename = "kcd".toList then _ else _ : Except Err KDatabase) = r at h
  cases r with
  | ok _ => cases h
  | error _ => exact (Except.error.inj h).symm

end

/-! ### The hypotheses can be met -/

section Example59

theorem utf8_keeps : Keeps utf8 fun _ => True := C59_utf8 rfl fun b t h => by
  unfold utf8
  simp only [Array.toArray_toList]
  rw [show (ByteArray.mk b.data) = b from rfl, h]
  rfl

namespace KcdFileExample

/-- A DBC file with a signed float, multiplexed signals and a table of names. -/
def file : List UInt8 :=
  ("VERSION \"1\"\r\nBU_: Gateway Dash\r\nBO_ 291 Steering: 8 Gateway\r\n" ++
   " SG_ Gear M : 0|3@1+ (1,0) [0|7] \"\" Dash\r\n SG_ Angle m1 : 8|11@1- (0.5,0) [-500|500] \"°\" Dash\r\n" ++
   " SG_ Speed : 32|32@1- (1,0) [0|0] \"km/h\" Vector__XXX\r\n" ++
   "CM_ SG_ 291 Gear \"Grösse\";\r\nVAL_ 291 Gear 1 \"D\" 0 \"N\" ;\r\nSIG_VALTYPE_ 291 Speed : 1;\r\n").toList.map
    cp1252Encode

def gear : DSignal Int :=
  { name := "Gear".toList, start := 0, length := 3, minimum := some (.int 0), maximum := some (.int 7)
    receivers := ["Dash".toList], comment := some "Grösse".toList
    choices := some [(1, "D".toList), (0, "N".toList)], isMultiplexer := true }
def angle : DSignal Int :=
  { name := "Angle".toList, start := 8, length := 11, isSigned := true, scale := .float 1
    minimum := some (.int (-500)), maximum := some (.int 500), unit := some "°".toList, receivers := ["Dash".toList]
    multiplexerIds := some [1], multiplexerSignal := some "Gear".toList }
def speed : DSignal Int :=
  { name := "Speed".toList, start := 32, length := 32, isSigned := true, isFloat := true, unit := some "km/h".toList }
def steering : DMessage Int :=
  { frameId := 0x123, name := "Steering".toList, length := 8, senders := ["Gateway".toList]
    signals := [gear, angle, speed] }

/-- The database of the file. -/
def db : DDatabase Int := (loadFile halves none true "car.dbc".toList file).toOption.getD { messages := [] }

theorem loaded : loadFile halves none true "car.dbc".toList file = .ok db := by decide +kernel

theorem messages : db.messages = [steering] := by decide +kernel
theorem nodes : db.nodes.map (·.name) = ["Gateway".toList, "Dash".toList] := by decide +kernel

theorem xmlChars_of {t : Chars} (h : t.all (fun c => decide (32 ≤ c.toNat ∧ c.toNat < 0xfffe)) = true) : XmlChars t := by
  intro c hc
  have := of_decide_eq_true (List.all_eq_true.1 h c hc)
  exact .inr (.inr (.inr ⟨this.1, by omega, by omega⟩))

theorem xmlContents_of {t : Chars} (h : t.all (fun c => decide (32 ≤ c.toNat ∧ c.toNat < 0xfffe)) = true) :
    XmlContents t := by
  refine fun c hc => ⟨xmlChars_of h c hc, ?_⟩
  have := of_decide_eq_true (List.all_eq_true.1 h c hc)
  rintro rfl
  exact absurd this.1 (by decide)

theorem kcdDatabase : KcdDatabase db where
  messages := by
    rw [messages, nodes]
    intro m hm
    rw [List.mem_singleton.1 hm]
    constructor
    case id => decide
    case senders => decide +kernel
    case cycleTime => rintro n ⟨⟩
    case distinct => decide +kernel
    case name => exact xmlChars_of (by decide +kernel)
    case comment => rintro n ⟨⟩
    case signals =>
      intro s hs
      simp only [steering, List.mem_cons, List.not_mem_nil, or_false] at hs
      rcases hs with rfl | rfl | rfl
      all_goals
        constructor
        case receivers => decide +kernel
        case plain => decide +kernel
        case choices => exact forall_some (by decide +kernel)
        case name => exact xmlChars_of (by decide +kernel)
        case unit => rintro t ⟨⟩ <;> exact xmlChars_of (by decide +kernel)
        case comment => rintro t ⟨⟩ <;> exact xmlContents_of (by decide +kernel)
        case names =>
          rintro cs ⟨⟩ <;> intro e he <;> simp only [List.mem_cons, List.not_mem_nil, or_false] at he <;>
            rcases he with rfl | rfl <;> exact xmlChars_of (by decide +kernel)
        case multiplexed =>
          rintro ids ⟨⟩ <;> exact ⟨rfl, ⟨1, rfl⟩, gear, by simp [steering], rfl, rfl⟩
  nodes := by
    intro n hn
    have : ∀ n ∈ db.nodes, n.name.all (fun c => decide (32 ≤ c.toNat ∧ c.toNat < 0xfffe)) = true := by decide +kernel
    exact xmlChars_of (this n hn)
  version := by
    intro v hv
    have : ∀ v, db.version = some v → v.all (fun c => decide (32 ≤ c.toNat ∧ c.toNat < 0xfffe)) = true :=
      forall_some (by decide +kernel)
    exact xmlChars_of (this v hv)

end KcdFileExample

example := C59_convert_to_kcd (fo := Example.fo) (utf8 := utf8) KcdExample.fraction_faithful
  KcdExample.fraction_plain KcdFileExample.loaded KcdFileExample.kcdDatabase
  (by unfold NoNamedFloats; decide +kernel) utf8_keeps (linesep := ['\r', '\n']) (.inr (.inl rfl))
  (outfile := "car.kcd".toList) (by decide +kernel)

example := C59_kcd_file (fo := Example.fo) (utf8 := utf8) (encoding := none) KcdExample.fraction_faithful
  KcdExample.fraction_plain KcdFileExample.kcdDatabase (by unfold NoNamedFloats; decide +kernel)
  (loadFile_constructible KcdFileExample.loaded) utf8_keeps false (linesep := ['\n']) (.inl rfl)
  (filename := "car.kcd".toList) (other := "b/CAR.KCD".toList) (by decide +kernel) (by decide +kernel)

/-- The SYM file of the examples for SYM cannot be converted. -/
example := C59_sym_to_kcd (N := KcdExample.fraction) (utf8 := utf8) (linesep := ['\n']) (noStrict := false)
  (by decide +kernel) FileExample.loaded (by decide +kernel) (outfile := "car.kcd".toList) (by decide +kernel)

example : ∃ e, loadKcdFile KcdExample.fraction utf8 none true "car.xml".toList [] = .error e := ⟨_, rfl⟩

end Example59

end Cantools
