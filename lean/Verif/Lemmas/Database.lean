import Verif.Spec.Database
import Verif.Lemmas.Basic
import Mathlib.Data.List.Induction

namespace Cantools
open Spec

theorem dictGet_eq_keyError {κ α : Type} [DecidableEq κ] {d : List (κ × α)} {k : κ} {e : Err}
    (h : dictGet d k = .error e) : e = .keyError := by
  unfold dictGet at h
  split at h
  · cases h
  · cases h; rfl

theorem dictGet_eq_error {κ α : Type} [DecidableEq κ] {d : List (κ × α)} {k : κ} :
    dictGet d k = .error .keyError ↔ dictGet? d k = none := by
  unfold dictGet
  cases dictGet? d k <;> simp

/-- Setting the messages of a list one after the other: the last one with a key wins. -/
theorem foldl_dictSet {κ : Type} [DecidableEq κ] (key : DbMessage → κ) (l : List DbMessage) (k : κ) (m : DbMessage) :
    dictGet? (l.foldl (fun d m => dictSet d (key m) m) []) k = some m ↔ LastWith (fun m => key m = k) l m := by
  induction l using List.reverseRecOn with
  | nil => simp [LastWith]
  | append_singleton l x ih =>
    rw [List.foldl_append, List.foldl_cons, List.foldl_nil, dictGet?_set]
    by_cases hx : key x = k
    · rw [if_pos (by simp [hx])]
      constructor
      · intro h; cases h; exact ⟨l, [], rfl, hx, by simp⟩
      · rintro ⟨a, b, h1, h2, h3⟩
        rcases List.eq_nil_or_concat b with rfl | ⟨b', y, rfl⟩
        · have := List.append_inj' h1 rfl
          simp only [List.cons.injEq, and_true] at this
          rw [this.2]
        · rw [List.concat_eq_append, ← List.cons_append, ← List.append_assoc] at h1
          have := (List.append_inj' h1 rfl).2
          simp only [List.cons.injEq, and_true] at this
          subst this
          exact absurd hx (h3 x (by simp))
    · rw [if_neg (by simpa [eq_comm] using hx), ih]
      constructor
      · rintro ⟨a, b, rfl, h2, h3⟩
        refine ⟨a, b ++ [x], by simp, h2, ?_⟩
        intro y hy
        rcases List.mem_append.1 hy with h | h
        · exact h3 y h
        · rw [List.mem_singleton] at h; subst h; exact hx
      · rintro ⟨a, b, h1, h2, h3⟩
        rcases List.eq_nil_or_concat b with rfl | ⟨b', y, rfl⟩
        · have := (List.append_inj' h1 rfl).2
          simp only [List.cons.injEq, and_true] at this
          subst this
          exact absurd h2 hx
        · rw [List.concat_eq_append, ← List.cons_append, ← List.append_assoc] at h1
          have h4 := (List.append_inj' h1 rfl).1
          exact ⟨a, b', h4, h2, fun z hz => h3 z (by simp [hz])⟩

theorem lastWith_none {P : DbMessage → Prop} {l : List DbMessage} :
    (¬ ∃ m, LastWith P l m) ↔ ∀ m ∈ l, ¬ P m := by
  constructor
  · intro h
    induction l using List.reverseRecOn with
    | nil => simp
    | append_singleton l x ih =>
      have hx : ¬ P x := fun hp => h ⟨x, l, [], rfl, hp, by simp⟩
      have := ih (by
        rintro ⟨m, a, b, rfl, h1, h2⟩
        refine h ⟨m, a, b ++ [x], by simp, h1, ?_⟩
        intro y hy
        rcases List.mem_append.1 hy with hb | hb
        · exact h2 y hb
        · rw [List.mem_singleton] at hb; subst hb; exact hx)
      intro m hm
      rcases List.mem_append.1 hm with hb | hb
      · exact this m hb
      · rw [List.mem_singleton] at hb; subst hb; exact hx
  · rintro h ⟨m, a, b, rfl, h1, _⟩
    exact h m (by simp) h1

/-- The tables hold exactly the messages of a list, in order. -/
structure Tables (db : Db) (l : List DbMessage) : Prop where
  byName : db.byName = l.foldl (fun d m => dictSet d m.name m) []
  byId : db.byId = l.foldl (fun d m => dictSet d (m.key db.mask) m) []

theorem Tables.addMessage {db : Db} {l : List DbMessage} (h : Tables db l) (m : DbMessage) :
    Tables (db.addMessage m) (l ++ [m]) := by
  constructor
  · simp [Db.addMessage, h.byName]
  · simp [Db.addMessage, h.byId]

/-- Everything but the tables. -/
structure SameContents (a b : Db) : Prop where
  messages : a.messages = b.messages
  nodes : a.nodes = b.nodes
  buses : a.buses = b.buses
  version : a.version = b.version
  dbc : a.dbc = b.dbc
  autosar : a.autosar = b.autosar
  mask : a.mask = b.mask

theorem SameContents.trans {a b c : Db} (h : SameContents a b) (g : SameContents b c) : SameContents a c :=
  ⟨h.1.trans g.1, h.2.trans g.2, h.3.trans g.3, h.4.trans g.4, h.5.trans g.5, h.6.trans g.6, h.7.trans g.7⟩

theorem refreshLoop_spec (l : List DbMessage) (db : Db) (done : List DbMessage) (h : Tables db done) :
    SameContents (db.refreshLoop l).1 db ∧
      ((∀ m ∈ l, m.refreshes = true) ∧ (db.refreshLoop l).2 = none ∧ Tables (db.refreshLoop l).1 (done ++ l) ∨
      ∃ a m b, l = a ++ m :: b ∧ (∀ x ∈ a, x.refreshes = true) ∧ m.refreshes = false ∧
        (db.refreshLoop l).2 = some .error ∧ Tables (db.refreshLoop l).1 (done ++ a)) := by
  induction l generalizing db done with
  | nil => exact ⟨⟨rfl, rfl, rfl, rfl, rfl, rfl, rfl⟩, .inl ⟨by simp, rfl, by simpa [Db.refreshLoop] using h⟩⟩
  | cons x r ih =>
    rw [Db.refreshLoop]
    by_cases hx : x.refreshes = true
    · rw [if_pos hx]
      obtain ⟨h1, h2⟩ := ih _ _ (h.addMessage x)
      refine ⟨h1.trans ⟨rfl, rfl, rfl, rfl, rfl, rfl, rfl⟩, ?_⟩
      rcases h2 with ⟨h2, h3, h4⟩ | ⟨a, m, b, rfl, h3, h4, h5, h6⟩
      · exact .inl ⟨by simpa [hx] using h2, h3, by simpa using h4⟩
      · exact .inr ⟨x :: a, m, b, rfl, by simpa [hx] using h3, h4, h5, by simpa using h6⟩
    · rw [if_neg hx]
      exact ⟨⟨rfl, rfl, rfl, rfl, rfl, rfl, rfl⟩, .inr ⟨[], x, r, rfl, by simp, by simpa using hx, rfl, by simpa using h⟩⟩

theorem refresh_spec (db : Db) :
    SameContents db.refresh.1 db ∧
      ((∀ m ∈ db.messages, m.refreshes = true) ∧ db.refresh.2 = none ∧ Tables db.refresh.1 db.messages ∨
      ∃ a m b, db.messages = a ++ m :: b ∧ (∀ x ∈ a, x.refreshes = true) ∧ m.refreshes = false ∧
        db.refresh.2 = some .error ∧ Tables db.refresh.1 a) := by
  have := refreshLoop_spec db.messages { db with byName := [], byId := [] } [] ⟨rfl, rfl⟩
  obtain ⟨h1, h2⟩ := this
  refine ⟨h1.trans ⟨rfl, rfl, rfl, rfl, rfl, rfl, rfl⟩, ?_⟩
  simpa [Db.refresh] using h2

/-- Keys and masks: the lookup key of `get_message_by_frame_id` is the key of a message exactly if the
message answers to the id. -/
theorem key_iff (mask id : Nat) (force : Bool) (m : DbMessage) (hm : m.frameId < 2 ^ 29) :
    m.key mask = (if force || decide (id > 0x7ff) then id ||| 0x80000000 else id) &&& (0x80000000 ||| mask) ↔
      Answers mask id force m := by
  have hb : ∀ i, (0x80000000 : Nat).testBit i = decide (i = 31) := by
    intro i
    have := Nat.testBit_two_pow (n := 31) (m := i)
    rw [show (0x80000000 : Nat) = 2 ^ 31 from rfl, this]
    simp [eq_comm]
  have h31 : m.frameId.testBit 31 = false := Nat.testBit_lt_two_pow (by omega)
  have hw : (force || decide (id > 0x7ff)) = true ↔ WantsExtended id force := by
    simp only [Bool.or_eq_true, decide_eq_true_eq, WantsExtended]
    constructor <;> rintro (h | h) <;> first | exact .inl h | (right; omega)
  have hk : ∀ i, (m.key mask).testBit i =
      (m.frameId.testBit i && mask.testBit i || (m.isExtended && decide (i = 31))) := by
    intro i
    unfold DbMessage.key
    split
    · rename_i h; simp [hb, h]
    · rename_i h; simp [h]
  have hq : ∀ i, ((if force || decide (id > 0x7ff) then id ||| 0x80000000 else id) &&& (0x80000000 ||| mask)).testBit i =
      ((id.testBit i || ((force || decide (id > 0x7ff)) && decide (i = 31))) && (decide (i = 31) || mask.testBit i)) := by
    intro i
    split
    · rename_i h; simp only [Nat.testBit_and, Nat.testBit_or, hb, h, Bool.true_and]
    · rename_i h; simp [hb, h]
  constructor
  · intro h
    have hi : ∀ i, (m.key mask).testBit i = _ := fun i => (congrArg (·.testBit i) h).trans (hq i)
    simp only [hk] at hi
    constructor
    · rw [← hw]
      have := hi 31
      simp only [h31, Bool.false_and, Bool.false_or, decide_true, Bool.and_true, Bool.true_or] at this
      rw [this]
      by_cases hf : (force || decide (id > 0x7ff)) = true
      · simp [hf]
      · have : id.testBit 31 = false := by
          apply Nat.testBit_lt_two_pow
          simp at hf; omega
        simp [this]
    · intro i hi31 hmi
      have := hi i
      simpa [hi31, hmi] using this
  · rintro ⟨h1, h2⟩
    apply Nat.eq_of_testBit_eq
    intro i
    rw [hq, hk]
    by_cases hi : i = 31
    · subst hi
      rw [h31]
      simp only [Bool.false_and, Bool.false_or, decide_true, Bool.and_true, Bool.true_or]
      by_cases hf : (force || decide (id > 0x7ff)) = true
      · have := h1.2 (hw.1 hf)
        simp [hf, this]
      · have h3 : m.isExtended = false := by
          rw [← Bool.not_eq_true]; exact fun he => hf (hw.2 (h1.1 he))
        have : id.testBit 31 = false := by
          apply Nat.testBit_lt_two_pow
          simp at hf; omega
        simp only [h3, this, Bool.false_or]
        simpa using hf
    · cases hmi : mask.testBit i
      · simp [hi]
      · simp [hi, h2 i hi hmi]

end Cantools
