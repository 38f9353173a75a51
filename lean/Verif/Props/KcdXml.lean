import Verif.Lemmas.KcdXmlLoad
import Verif.Props.Kcd

/-
C42, for the text of the file: what is written with `dump_string` can be read with `load_string`.
-/

namespace Cantools
open Spec Kcd

variable {T : NumText} {sort : List KSignal → List KSignal} {db : KDatabase}

/-- C42, for files: a database as in `C42_database_survives_partial` whose texts consist of characters
of XML (comments without carriage returns) is written as a text that can be loaded, and every message
that comes back has the attributes and exactly the signals of the original one.  Markup, quotes, line
breaks and blanks in names, units, labels and comments survive.
Missing for the full property: other kinds of multiplexing, other characters
(`C42_control_character`, `C42_carriage_return`). -/
theorem C42_file_partial (hT : T.Faithful) (hT' : T.Plain)
    (hsort : ∀ m ∈ db.messages, (sort m.signals).Perm m.signals)
    (hflat : ∀ m ∈ db.messages, Flat m.signals)
    (hw : ∀ m ∈ db.messages, ∀ k ∈ m.signals, Writable db.nodes k ∧ Expressible k)
    (hs : ∀ m ∈ db.messages, ∀ s ∈ m.senders, ∃ n ∈ db.nodes, s = some n)
    (htext : TextDatabase db) :
    ∃ text db', dumpString T sort db = .ok text ∧ loadString T text = .ok db' ∧
      db'.version = some (db.version.getD "") ∧ db'.nodes = db.nodes ∧
      List.Forall₂ (fun m m' => m'.signals.Perm m.signals ∧
        m' = { m with
          unusedBitPattern := 0xff
          comment := if m.comment = some "" then none else m.comment
          signals := m'.signals }) db.messages db'.messages := by
  obtain ⟨x, db', h1, h2, h3⟩ := C42_database_survives_partial hT hsort hflat hw hs
  refine ⟨writeElem 0 (withAttrs rootAttrs x) ++ newLine 0, db', ?_, ?_, h3⟩
  · unfold dumpString
    rw [h1]
    rfl
  · rw [loadString_text (good_dump hT' hsort htext h1), h2]

/-- C42, for files: the messages that come back treat frames as the original ones do. -/
theorem C42_file_frames_partial {fo : FloatOps} (hT : T.Faithful) (hT' : T.Plain)
    (hsort : ∀ m ∈ db.messages, (sort m.signals).Perm m.signals)
    (hflat : ∀ m ∈ db.messages, Flat m.signals)
    (hw : ∀ m ∈ db.messages, ∀ k ∈ m.signals, Writable db.nodes k ∧ Meaningful k)
    (hs : ∀ m ∈ db.messages, ∀ s ∈ m.senders, ∃ n ∈ db.nodes, s = some n)
    (hpt : ∀ m ∈ db.messages, ∀ k ∈ m.signals,
      k.core.conversion.isFloat = true → k.core.conversion.choices = none)
    (htext : TextDatabase db) :
    ∃ text db', dumpString T sort db = .ok text ∧ loadString T text = .ok db' ∧
      List.Forall₂ (fun m m' => (m'.frameId = m.frameId ∧ m'.isExtendedFrame = m.isExtendedFrame ∧ m'.name = m.name ∧
          m'.length = m.length) ∧ ∀ msg, m.create = .ok msg → ∃ msg', m'.create = .ok msg' ∧
        (∀ data scaling padding strict payload, (padding = true → m.unusedBitPattern = 0xff) →
          (encode fo msg data scaling padding strict = .ok payload ↔
            encode fo msg' data scaling padding strict = .ok payload)) ∧
        ∀ data decodeChoices scaling truncated excess,
          (decode fo msg data decodeChoices scaling truncated excess = .error .decodeError ∧
            decode fo msg' data decodeChoices scaling truncated excess = .error .decodeError) ∨
          ∃ r r', decode fo msg data decodeChoices scaling truncated excess = .ok r ∧
            decode fo msg' data decodeChoices scaling truncated excess = .ok r' ∧ r'.Perm r)
        db.messages db'.messages := by
  obtain ⟨x, db', h1, h2, h3⟩ := C42_frames_survive_partial (fo := fo) hT hsort hflat hw hs hpt
  refine ⟨writeElem 0 (withAttrs rootAttrs x) ++ newLine 0, db', ?_, ?_, h3⟩
  · unfold dumpString
    rw [h1]
    rfl
  · rw [loadString_text (good_dump hT' hsort htext h1), h2]

namespace KcdExample

theorem xmlText_of {s : String} (h : s.toList.all (fun c => decide (32 ≤ c.toNat ∧ c.toNat < 0xfffe)) = true) :
    XmlText s := by
  intro c hc
  have := of_decide_eq_true (List.all_eq_true.1 h c hc)
  exact Or.inr (Or.inr (Or.inr ⟨this.1, by omega, by omega⟩))

theorem fraction_plain : fraction.Plain := by
  intro q c hc
  have hd : ∀ n, ∀ c ∈ decimal n, XmlChar c := by
    intro n c hc
    have := xml_decimal n c hc
    unfold isXmlChar at this
    simp only [Bool.or_eq_true, beq_iff_eq, Bool.and_eq_true, decide_eq_true_eq] at this
    rcases this with ((rfl | rfl) | rfl) | h
    · exact Or.inl rfl
    · exact Or.inr (Or.inl rfl)
    · exact Or.inr (Or.inr (Or.inl rfl))
    · exact Or.inr (Or.inr (Or.inr ⟨h.1.1, h.1.2, h.2⟩))
  simp only [fraction, String.toList_ofList, showInt] at hc
  rcases List.mem_append.1 hc with hc | hc
  · split at hc
    · rcases List.mem_cons.1 hc with rfl | hc
      · exact Or.inr (Or.inr (Or.inr (by decide)))
      · exact hd _ c hc
    · exact hd _ c hc
  · rcases List.mem_cons.1 hc with rfl | hc
    · exact Or.inr (Or.inr (Or.inr (by decide)))
    · exact hd _ c hc

/-- The database of the examples with markup in its texts. -/
def kdbText : KDatabase :=
  { kdb with version := some "<1> & \"2\"\n", messages := [{ kmsg with comment := some "a < b && c > d\n\n  </Notes>" }] }

theorem kdbText_text : TextDatabase kdbText := by
  refine ⟨?_, ?_, ?_, ?_, ?_⟩
  · intro v hv
    cases hv
    intro c hc
    have h := (by decide +kernel : ∀ c ∈ "<1> & \"2\"\n".toList, c.toNat = 10 ∨ (32 ≤ c.toNat ∧ c.toNat < 128)) c hc
    rcases h with h | h
    · exact Or.inr (Or.inl h)
    · exact Or.inr (Or.inr (Or.inr ⟨h.1, by omega, by omega⟩))
  · intro n hn
    simp only [kdbText, kdb, List.mem_cons, List.not_mem_nil, or_false] at hn
    rcases hn with rfl | rfl <;> exact xmlText_of (by decide +kernel)
  · intro m hm
    rw [List.mem_singleton.1 hm]
    exact xmlText_of (by decide +kernel)
  · intro m hm c hc
    rw [List.mem_singleton.1 hm] at hc
    cases hc
    intro c hc
    have h := (by decide +kernel : ∀ c ∈ "a < b && c > d\n\n  </Notes>".toList,
      c.toNat = 10 ∨ (32 ≤ c.toNat ∧ c.toNat < 128)) c hc
    rcases h with h | h
    · exact ⟨Or.inr (Or.inl h), by omega⟩
    · exact ⟨Or.inr (Or.inr (Or.inr ⟨h.1, by omega, by omega⟩)), by omega⟩
  · intro m hm k hk
    rw [List.mem_singleton.1 hm] at hk
    simp only [kmsg, List.mem_cons, List.not_mem_nil, or_false] at hk
    rcases hk with rfl | rfl | rfl | rfl
    · exact ⟨xmlText_of (by decide +kernel), nofun, nofun, nofun⟩
    · exact ⟨xmlText_of (by decide +kernel), nofun, nofun, nofun⟩
    · refine ⟨xmlText_of (by decide +kernel), fun u hu => ?_, nofun, fun cs h => ?_⟩
      · cases hu
        exact xmlText_of (by decide +kernel)
      · rw [show ka.core.conversion.choices = none by decide +kernel] at h
        cases h
    · refine ⟨xmlText_of (by decide +kernel), nofun, fun u hu => ?_, fun cs h => ?_⟩
      · cases hu
        intro c hc
        have h := (by decide +kernel : ∀ c ∈ "Selects.".toList, 32 ≤ c.toNat ∧ c.toNat < 128) c hc
        exact ⟨Or.inr (Or.inr (Or.inr ⟨h.1, by omega, by omega⟩)), by omega⟩
      · cases h
        intro e he
        simp only [List.mem_cons, List.not_mem_nil, or_false] at he
        rcases he with rfl | rfl <;> exact xmlText_of (by decide +kernel)

example := C42_file_partial (sort := id) (db := kdbText) fraction_faithful fraction_plain (fun _ _ => .refl _)
  (fun m hm => by rw [List.mem_singleton.1 hm]; exact kdb_flat kmsg (by decide +kernel))
  (fun m hm => by rw [List.mem_singleton.1 hm]; exact kdb_writable kmsg (by decide +kernel))
  (fun m hm => by rw [List.mem_singleton.1 hm]; exact kdb_senders kmsg (by decide +kernel))
  kdbText_text
example := C42_file_frames_partial (fo := Example.fo) (sort := List.reverse) (db := kdbText) fraction_faithful
  fraction_plain (fun m _ => m.signals.reverse_perm)
  (fun m hm => by rw [List.mem_singleton.1 hm]; exact kdb_flat kmsg (by decide +kernel))
  (fun m hm => by rw [List.mem_singleton.1 hm]
                  exact fun k hk => (kdb_writable kmsg (by decide +kernel) k hk).imp_right (·.meaningful))
  (fun m hm => by rw [List.mem_singleton.1 hm]; exact kdb_senders kmsg (by decide +kernel))
  (fun m hm => by rw [List.mem_singleton.1 hm]; decide +kernel) kdbText_text

/-- Write and read the text. -/
def textTrip (db : KDatabase) : Except Err KDatabase :=
  (dumpString fraction id db).bind (loadString fraction)

/-- A carriage return in a comment does not survive: `\r\n` comes back as `\n`. -/
theorem C42_carriage_return :
    ∃ m : KMessage, m.comment = some "a\r\nb" ∧
      textTrip { version := some "1", nodes := [], messages := [m] } =
        .ok { version := some "1", nodes := [], messages := [{ m with comment := some "a\nb" }] } := by
  refine ⟨{ frameId := 1, name := "M", length := 1, unusedBitPattern := 0xff, comment := some "a\r\nb"
            signals := [] }, rfl, ?_⟩
  decide +kernel

/-- A control character in a name is written as it is, so that the file cannot be loaded. -/
theorem C42_control_character :
    ∃ (m : KMessage) (text : Regex.Chars), m.name = "M\x01" ∧
      dumpString fraction id { version := some "1", nodes := [], messages := [m] } = .ok text ∧
      loadString fraction text = .error .error := by
  let m : KMessage := { frameId := 1, name := "M\x01", length := 1, unusedBitPattern := 0xff, signals := [] }
  have h : ((dumpString fraction id { version := some "1", nodes := [], messages := [m] }).map fun text =>
      (loadString fraction text == .error .error)) = .ok true := by decide +kernel
  cases hd : dumpString fraction id { version := some "1", nodes := [], messages := [m] } with
  | error e => rw [hd] at h; cases h
  | ok text =>
    rw [hd] at h
    exact ⟨m, text, rfl, hd, by simpa [Except.map] using h⟩

end KcdExample

end Cantools
