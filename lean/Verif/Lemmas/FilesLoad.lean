import Verif.Lemmas.FilesSym
import Verif.Lemmas.FilesText

/-
Messages that were loaded from a file can be constructed.
-/

namespace Cantools.Files
open Cantools Spec Dbc

variable {F : Type} {T : FloatText F} {strict : Bool}

/-- All messages can be constructed. -/
def AllConstructible (T : FloatText F) (strict : Bool) (db : DDatabase F) : Prop :=
  ∀ m ∈ db.messages, ∃ pattern msg, messageOf T pattern strict m = .ok msg

theorem create_sorted (T : FloatText F) (i : Int) (name : String) (len : Nat) (sigs : List (DSignal F)) (pat : UInt8)
    (ext strict : Bool) :
    Message.create i name len ((sortByStartBit T sigs).map (·.core T)) pat ext strict =
      Message.create i name len (sigs.map (·.core T)) pat ext strict := by
  have : SortSignals.default.apply ((sortByStartBit T sigs).map (·.core T)) =
      SortSignals.default.apply (sigs.map (·.core T)) := by
    unfold sortByStartBit SortSignals.apply sortSignalsByStartBit
    dsimp only
    rw [sortedBy_map startBit (fun s : DSignal F => s.core T) sigs, sortedBy_of_pairwise]
    rw [List.pairwise_map]
    exact sortedBy_pairwise (fun s : DSignal F => startBit (s.core T)) _
  unfold Message.create
  rw [this]

theorem sym_message {signals : Sym.Library F} {enums : Sym.Enums} {senders : List Chars} {blocks : List Sym.Block}
    {b : Sym.Block} {l : Sym.IdLine} {i : Int} {ext : Bool} {m : DMessage F}
    (h : Sym.loadMessage T strict signals enums senders blocks b l i ext = .ok m) :
    ∃ pattern msg, messageOf T pattern strict m = .ok msg := by
  unfold Sym.loadMessage at h
  obtain ⟨len, -, h⟩ := bind_ok_iff.1 h
  obtain ⟨cyc, -, h⟩ := bind_ok_iff.1 h
  obtain ⟨sigs, -, h⟩ := bind_ok_iff.1 h
  obtain ⟨msg, hm, h⟩ := bind_ok_iff.1 h
  cases h
  refine ⟨0xff, msg, ?_⟩
  unfold messageOf
  dsimp only
  rw [create_sorted]
  exact hm

theorem sym_section {signals : Sym.Library F} {enums : Sym.Enums} {senders : List Chars} {blocks : List Sym.Block}
    {ms : List (DMessage F)} (h : Sym.loadSection T strict signals enums senders blocks = .ok ms) :
    ∀ m ∈ ms, ∃ pattern msg, messageOf T pattern strict m = .ok msg := by
  unfold Sym.loadSection at h
  obtain ⟨parts, hp, h⟩ := bind_ok_iff.1 h
  cases h
  intro m hm
  obtain ⟨part, hpart, hm⟩ := List.mem_flatten.1 hm
  obtain ⟨b, -, hb⟩ := Kcd.mapM_mem hp part hpart
  split at hb
  · cases hb; cases hm
  · obtain ⟨⟨ids, ext⟩, -, hb⟩ := bind_ok_iff.1 hb
    obtain ⟨i, -, hi⟩ := Kcd.mapM_mem hb m hm
    exact sym_message hi

theorem sym_constructible {text : Chars} {db : DDatabase F} (h : Sym.loadString T strict text = .ok db) :
    AllConstructible T strict db := by
  unfold Sym.loadString at h
  dsimp only at h
  split at h
  · cases h
  obtain ⟨_, -, h⟩ := bind_ok_iff.1 h
  obtain ⟨d, -, h⟩ := bind_ok_iff.1 h
  unfold Sym.loadDoc at h
  obtain ⟨_, -, h⟩ := bind_ok_iff.1 h
  obtain ⟨_, -, h⟩ := bind_ok_iff.1 h
  obtain ⟨_, h1, h⟩ := bind_ok_iff.1 h
  obtain ⟨_, h2, h⟩ := bind_ok_iff.1 h
  obtain ⟨_, h3, h⟩ := bind_ok_iff.1 h
  cases h
  intro m hm
  simp only [List.mem_append] at hm
  rcases hm with (hm | hm) | hm
  · exact sym_section h1 m hm
  · exact sym_section h2 m hm
  · exact sym_section h3 m hm

theorem dbc_message {ctx : Dbc.Context F} {entry : Tree} {m : DMessage F}
    (h : Dbc.loadMessage T strict ctx entry = .ok (some m)) :
    ∃ pattern msg, messageOf T pattern strict m = .ok msg := by
  unfold Dbc.loadMessage at h
  obtain ⟨tokens, -, h⟩ := bind_ok_iff.1 h
  obtain ⟨short, -, h⟩ := bind_ok_iff.1 h
  split at h
  · cases h
  obtain ⟨id, -, h⟩ := bind_ok_iff.1 h
  obtain ⟨format, -, h⟩ := bind_ok_iff.1 h
  obtain ⟨sender, -, h⟩ := bind_ok_iff.1 h
  obtain ⟨entries, -, h⟩ := bind_ok_iff.1 h
  obtain ⟨fields, -, h⟩ := bind_ok_iff.1 h
  obtain ⟨signals, -, h⟩ := bind_ok_iff.1 h
  obtain ⟨length, -, h⟩ := bind_ok_iff.1 h
  obtain ⟨sendType, -, h⟩ := bind_ok_iff.1 h
  obtain ⟨cycleTime, -, h⟩ := bind_ok_iff.1 h
  obtain ⟨msg, hm, h⟩ := bind_ok_iff.1 h
  cases h
  refine ⟨0xff, msg, ?_⟩
  unfold messageOf
  dsimp only
  rw [create_sorted]
  exact hm

theorem dbc_constructible {text : Chars} {db : DDatabase F} (h : Dbc.loadString T strict text = .ok db) :
    AllConstructible T strict db := by
  unfold Dbc.loadString at h
  obtain ⟨_, -, h⟩ := bind_ok_iff.1 h
  obtain ⟨_, -, h⟩ := bind_ok_iff.1 h
  unfold Dbc.loadEntries at h
  obtain ⟨_, -, h⟩ := bind_ok_iff.1 h
  obtain ⟨_, -, h⟩ := bind_ok_iff.1 h
  obtain ⟨_, -, h⟩ := bind_ok_iff.1 h
  obtain ⟨_, -, h⟩ := bind_ok_iff.1 h
  obtain ⟨_, -, h⟩ := bind_ok_iff.1 h
  obtain ⟨_, -, h⟩ := bind_ok_iff.1 h
  obtain ⟨_, -, h⟩ := bind_ok_iff.1 h
  obtain ⟨_, -, h⟩ := bind_ok_iff.1 h
  obtain ⟨_, -, h⟩ := bind_ok_iff.1 h
  obtain ⟨_, -, h⟩ := bind_ok_iff.1 h
  obtain ⟨_, -, h⟩ := bind_ok_iff.1 h
  obtain ⟨ms, h1, h⟩ := bind_ok_iff.1 h
  obtain ⟨_, -, h⟩ := bind_ok_iff.1 h
  obtain ⟨_, -, h⟩ := bind_ok_iff.1 h
  obtain ⟨_, -, h⟩ := bind_ok_iff.1 h
  cases h
  intro m hm
  unfold Dbc.loadMessages at h1
  obtain ⟨l, h2, h1⟩ := bind_ok_iff.1 h1
  cases h1
  obtain ⟨o, ho, e⟩ := List.mem_filterMap.1 hm
  obtain ⟨entry, -, he⟩ := Kcd.mapM_mem h2 o ho
  have : o = some m := e
  subst this
  exact dbc_message he

/-- Messages that were loaded from a file can be constructed. -/
theorem loadFile_constructible {encoding : Option Codec} {filename : Chars} {bytes : List UInt8} {db : DDatabase F}
    (h : loadFile T encoding strict filename bytes = .ok db) : AllConstructible T strict db := by
  unfold loadFile at h
  generalize resolve encoding filename = r at h
  obtain ⟨format, codec⟩ := r
  dsimp only at h
  cases codec with
  | none => cases h
  | some codec =>
    dsimp only at h
    split at h
    · rename_i db' hr
      cases h
      split at hr
      · exact dbc_constructible hr
      · split at hr
        · exact sym_constructible hr
        · cases hr
    · cases h

end Cantools.Files
