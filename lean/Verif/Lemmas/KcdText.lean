import Verif.Spec.Kcd
import Verif.Lemmas.Basic
import Verif.Lemmas.DbcNames

/-
Numbers in KCD files are read as they were written.
-/

namespace Cantools.Kcd
open Cantools Spec

theorem readDigits_append (base : Nat) (digit : Char → Option Nat) (l : List Char) (c : Char)
    (n : Nat) : readDigits base digit (l ++ [c]) n =
      (readDigits base digit l n).bind fun m => (digit c).map (m * base + ·) := by
  induction l generalizing n with
  | nil =>
    show (digit c).bind _ = _
    cases digit c <;> rfl
  | cons a r ih =>
    simp only [List.cons_append, readDigits]
    cases digit a with
    | none => rfl
    | some d => simp only [Option.bind_some, ih]

theorem digit?_ofNat : ∀ n, n < 10 → digit? (Char.ofNat (48 + n)) = some n := by decide

theorem readDigits_decimal (n : Nat) : readDigits 10 digit? (decimal n) 0 = some n := by
  induction n using Nat.strongRecOn with
  | ind n ih =>
    rw [decimal]
    split
    · rename_i h
      simp only [readDigits, digit?_ofNat n h, Option.bind_some]; simp
    · rename_i h
      rw [readDigits_append, ih (n / 10) (by omega), Option.bind_some,
        digit?_ofNat _ (Nat.mod_lt _ (by decide)), Option.map_some]
      congr 1; omega

theorem decimal_head (n : Nat) : ∃ c r, decimal n = c :: r ∧ (digit? c).isSome = true := by
  induction n using Nat.strongRecOn with
  | ind n ih =>
    rw [decimal]
    split
    · rename_i h
      exact ⟨_, _, rfl, by rw [digit?_ofNat n h]; rfl⟩
    · rename_i h
      obtain ⟨c, r, h1, h2⟩ := ih (n / 10) (by omega)
      exact ⟨c, r ++ [_], by rw [h1]; rfl, h2⟩

theorem readInt_showInt (i : Int) : readInt (showInt i) = .ok i := by
  obtain ⟨c, r, h1, h2⟩ := decimal_head i.natAbs
  have hd := readDigits_decimal i.natAbs
  rw [h1] at hd
  have hc : c ≠ '-' := by rintro rfl; exact absurd h2 (by decide)
  unfold readInt showInt
  rw [h1, String.toList_ofList]
  split
  · rename_i h; split at h <;> cases h
  · rename_i h; split at h
    · injection h with _ h; cases h
    · injection h with h _; exact absurd h hc
  · rename_i r' _ h; split at h
    · injection h with _ h; subst h; rw [hd]
      simp only [Except.ok.injEq]; omega
    · injection h with h _; exact absurd h hc
  · rename_i hx h0 hx2
    by_cases hneg : i < 0
    · exact (hx2 (c :: r) (by rw [if_pos hneg])).elim
    · rw [if_neg hneg, hd]
      simp only [Except.ok.injEq]; omega

theorem hex?_hexChar : ∀ n, n < 16 → hex? (hexChar n) = some n := by decide

theorem readDigits_hexadecimal (n : Nat) : readDigits 16 hex? (hexadecimal n) 0 = some n := by
  induction n using Nat.strongRecOn with
  | ind n ih =>
    rw [hexadecimal]
    split
    · rename_i h
      simp only [readDigits, hex?_hexChar n h, Option.bind_some]; simp
    · rename_i h
      rw [readDigits_append, ih (n / 16) (by omega), Option.bind_some,
        hex?_hexChar _ (Nat.mod_lt _ (by decide)), Option.map_some]
      congr 1; omega

theorem hexadecimal_ne_nil (n : Nat) : hexadecimal n ≠ [] := by
  rw [hexadecimal]; split <;> simp

theorem readDigits_zeros (k : Nat) (l : List Char) :
    readDigits 16 hex? (List.replicate k '0' ++ l) 0 = readDigits 16 hex? l 0 := by
  induction k with
  | zero => rfl
  | succ k ih => rw [List.replicate_succ, List.cons_append]; simpa [readDigits, show hex? '0' = some 0 by decide] using ih

theorem readFrameId_showFrameId (n : Nat) : readFrameId (showFrameId n) = .ok n := by
  unfold readFrameId showFrameId
  rw [String.toList_ofList]
  simp only [readDigits_zeros, readDigits_hexadecimal]
  rw [if_neg]
  simp [hexadecimal_ne_nil]

end Cantools.Kcd
