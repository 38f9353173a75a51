import Verif.Lemmas.ArxmlFile
import Verif.Lemmas.Container
import Verif.Spec.ArxmlContainer

/-
Lemmas about containers of ARXML files (C61).
-/

namespace Cantools.ArxmlFile
open Kcd (Xml)
open Cdd (bind_of_ok)
open ArxmlRef (Pos Refs at? createDicts)
open ArxmlScale (FloatRead)
open Spec Spec.SystemFile

section
variable {root : Xml} {r : Refs} {F : FloatRead} (hreg : Regular root) (hr : createDicts root = .ok r) (hns : NoStray root)
include hreg hr hns

local notation "𝓛" => (Loader.mk root r F)

theorem systemOrder_ok {s : Pos} {big : Bool} (h : HeaderOrder root s big) : (𝓛).systemOrder s = .ok big := by
  rcases h with ⟨h, rfl⟩ | ⟨t, ⟨p, x, h1, h2, h3⟩, ht⟩
  · exact bind_of_ok (unique_ok hreg hr hns (by decide +kernel) h)
  · refine (bind_of_ok (unique_ok hreg hr hns (by decide +kernel) h1)).trans ?_
    dsimp only
    rw [text?_of h2 h3]
    refine congrArg Except.ok ?_
    cases big with
    | false => rw [ht.1 rfl]; simp
    | true =>
      have : t ≠ "MOST-SIGNIFICANT-BYTE-LAST" := fun e => absurd (ht.2 e) (by simp)
      simpa using this

/-- What a package says about the byte order of headers. -/
def Good (root : Xml) (big : Bool) (q : Pos) : Prop :=
  ∃ o, At root q [elem "ELEMENTS", elem "SYSTEM"] o ∧ ∀ s, o = some s → HeaderOrder root s big

def Free (root : Xml) (q : Pos) : Prop := At root q [elem "ELEMENTS", elem "SYSTEM"] none

mutual
theorem orderOf_ok {b : Bool} (pos : Pos) (big : Bool) : ∀ (x : Xml),
    (∀ j y s, x.children[j]? = some y → (s = [] ∨ ListedAt y s) → Good root b (pos ++ j :: s)) →
    ∃ o, (𝓛).orderOf pos big x = .ok o ∧ (o = b ∨ (o = big ∧
      ∀ j y s, x.children[j]? = some y → (s = [] ∨ ListedAt y s) → Free root (pos ++ j :: s)))
  | .elem _ _ _ cs, h => by
    unfold Loader.orderOf
    have := orderIn_ok (b := b) pos 0 big cs (by simpa only [Nat.zero_add, Kcd.Xml.children] using h)
    simpa only [Nat.zero_add, Kcd.Xml.children] using this
theorem orderIn_ok {b : Bool} (pos : Pos) (i : Nat) (big : Bool) : ∀ (cs : List Xml),
    (∀ j y s, cs[j]? = some y → (s = [] ∨ ListedAt y s) → Good root b (pos ++ (i + j) :: s)) →
    ∃ o, (𝓛).orderIn pos i big cs = .ok o ∧ (o = b ∨ (o = big ∧
      ∀ j y s, cs[j]? = some y → (s = [] ∨ ListedAt y s) → Free root (pos ++ (i + j) :: s)))
  | [], h => ⟨big, by unfold Loader.orderIn; rfl, .inr ⟨rfl, by simp⟩⟩
  | c :: cs, h => by
    unfold Loader.orderIn
    have hrest : ∀ j y s, cs[j]? = some y → (s = [] ∨ ListedAt y s) → Good root b (pos ++ (i + 1 + j) :: s) := by
      intro j y s hy hs
      have := h (j + 1) y s hy hs
      rwa [show i + (j + 1) = i + 1 + j by omega] at this
    obtain ⟨o, ho, hsys⟩ := h 0 c [] rfl (.inl rfl)
    have hu := unique_ok (F := F) hreg hr hns (strs := ["ELEMENTS", "SYSTEM"]) (by decide +kernel) ho
    cases o with
    | some s =>
      obtain ⟨o', k1, k2⟩ := orderIn_ok (b := b) pos (i + 1) b cs hrest
      refine ⟨o', (bind_of_ok hu).trans ((bind_of_ok (systemOrder_ok hreg hr hns (hsys s rfl))).trans k1), .inl ?_⟩
      rcases k2 with k2 | k2
      · exact k2
      · exact k2.1
    | none =>
      obtain ⟨o1, j1, j2⟩ := orderSub_ok (b := b) (pos ++ [i]) big c (by
        intro s hs
        have := h 0 c s rfl (.inr hs)
        simpa using this)
      obtain ⟨o', k1, k2⟩ := orderIn_ok (b := b) pos (i + 1) o1 cs hrest
      refine ⟨o', (bind_of_ok hu).trans ((bind_of_ok j1).trans k1), ?_⟩
      rcases k2 with k2 | ⟨rfl, k2⟩
      · exact .inl k2
      · rcases j2 with j2 | ⟨rfl, j2⟩
        · exact .inl j2
        · refine .inr ⟨rfl, fun j y s hy hs => ?_⟩
          cases j with
          | zero =>
            obtain rfl := Option.some.inj hy
            rcases hs with rfl | hs
            · exact ho
            · have := j2 s hs
              simpa using this
          | succ j =>
            have := k2 j y s hy hs
            rwa [show i + 1 + j = i + (j + 1) by omega] at this
theorem orderSub_ok {b : Bool} (pos : Pos) (big : Bool) : ∀ (x : Xml),
    (∀ s, ListedAt x s → Good root b (pos ++ s)) →
    ∃ o, (𝓛).orderSub pos big x = .ok o ∧ (o = b ∨ (o = big ∧ ∀ s, ListedAt x s → Free root (pos ++ s)))
  | .elem t a tx cs, h => by
    unfold Loader.orderSub
    obtain ⟨o, k1, k2⟩ := orderFirst_ok (b := b) pos 0 big cs (by
      rintro i l j y s h1 h2 h3 h4 (rfl | h5)
      · exact (Nat.zero_add i).symm ▸ h _ (.here ⟨h1, h2, h3⟩ h4)
      · exact (Nat.zero_add i).symm ▸ h _ (.inside ⟨h1, h2, h3⟩ h4 h5))
    refine ⟨o, k1, k2.imp_right fun ⟨e, k2⟩ => ⟨e, fun s hs => ?_⟩⟩
    cases hs with
    | @here _ l y i j hl hy =>
      have := k2 i l j y [] hl.1 hl.2.1 hl.2.2 hy (.inl rfl)
      rwa [Nat.zero_add] at this
    | @inside _ l y i j s hl hy h =>
      have := k2 i l j y s hl.1 hl.2.1 hl.2.2 hy (.inr h)
      rwa [Nat.zero_add] at this
theorem orderFirst_ok {b : Bool} (pos : Pos) (i : Nat) (big : Bool) : ∀ (cs : List Xml),
    (∀ k l j y s, cs[k]? = some l → l.tag = "AR-PACKAGES" → (∀ m < k, ∀ z, cs[m]? = some z → z.tag ≠ "AR-PACKAGES") →
      l.children[j]? = some y → (s = [] ∨ ListedAt y s) → Good root b (pos ++ (i + k) :: j :: s)) →
    ∃ o, (𝓛).orderFirst pos i big cs = .ok o ∧ (o = b ∨ (o = big ∧
      ∀ k l j y s, cs[k]? = some l → l.tag = "AR-PACKAGES" → (∀ m < k, ∀ z, cs[m]? = some z → z.tag ≠ "AR-PACKAGES") →
      l.children[j]? = some y → (s = [] ∨ ListedAt y s) → Free root (pos ++ (i + k) :: j :: s)))
  | [], h => ⟨big, by unfold Loader.orderFirst; rfl, .inr ⟨rfl, by simp⟩⟩
  | c :: cs, h => by
    unfold Loader.orderFirst
    by_cases ht : c.tag = "AR-PACKAGES"
    · rw [if_pos ht]
      obtain ⟨o, k1, k2⟩ := orderOf_ok (b := b) (pos ++ [i]) big c (by
        intro j y s hy hs
        have := h 0 c j y s rfl ht (by simp) hy hs
        simpa using this)
      refine ⟨o, k1, k2.imp_right fun ⟨e, k2⟩ => ⟨e, fun k l j y s h1 h2 h3 h4 h5 => ?_⟩⟩
      cases k with
      | zero =>
        obtain rfl := Option.some.inj h1
        have := k2 j y s h4 h5
        simpa using this
      | succ k => exact absurd ht (h3 0 (by omega) c rfl)
    · rw [if_neg ht]
      obtain ⟨o, k1, k2⟩ := orderFirst_ok (b := b) pos (i + 1) big cs (by
        intro k l j y s h1 h2 h3 h4 h5
        have := h (k + 1) l j y s h1 h2 (by
          intro m hm z hz
          cases m with
          | zero => obtain rfl := Option.some.inj hz; exact ht
          | succ m => exact h3 m (by omega) z hz) h4 h5
        rwa [show i + (k + 1) = i + 1 + k by omega] at this)
      refine ⟨o, k1, k2.imp_right fun ⟨e, k2⟩ => ⟨e, fun k l j y s h1 h2 h3 h4 h5 => ?_⟩⟩
      cases k with
      | zero =>
        obtain rfl := Option.some.inj h1
        exact absurd h2 ht
      | succ k =>
        have := k2 k l j y s h1 h2 (fun m hm z hz => h3 (m + 1) (by omega) z hz) h4 h5
        rwa [show i + 1 + k = i + (k + 1) by omega] at this
end

theorem order_ok {big : Bool} (h : HeadersSay root big) : (𝓛).orderSub [] true root = .ok big := by
  obtain ⟨o, k1, k2⟩ := orderSub_ok hreg hr hns (F := F) (b := big) [] true root fun s hs => h.systems s hs
  rcases k2 with rfl | ⟨rfl, k2⟩
  · exact k1
  · rw [k1, h.default fun q hq => k2 q hq]

end

/-- What is loaded from a document that specifies the byte order of headers. -/
theorem database_eq {F : FloatRead} {root : Xml} {trigs : List (String × Pos)} {ds : List FrameContent}
    (h : Describes F root trigs ds) {big : Bool} (ho : HeadersSay root big) (fuel : Nat) (strict : Bool) (sort : SortSignals) :
    loadDatabase F root fuel strict sort =
      (load F root fuel strict sort >>= fun ms => pure (ms.map (Loader.setOrder big))) := by
  obtain ⟨r, hr⟩ := (C53_accepted h.regular).1.2 h.accepted
  unfold loadDatabase
  congr 1
  funext ms
  refine (bind_of_ok hr).trans (bind_of_ok (order_ok h.regular hr h.plain ho))

theorem setOrder_contained (big : Bool) (l : Loader.Loaded) :
    (Loader.setOrder big l).contained = l.contained ∧ (Loader.setOrder big l).message = l.message := by
  unfold Loader.setOrder
  split <;> exact ⟨rfl, rfl⟩

end Cantools.ArxmlFile
