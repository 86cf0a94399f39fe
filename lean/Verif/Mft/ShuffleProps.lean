import Verif.Mft.Spec
import Mathlib.Data.List.Perm.Basic
/-
C48: the order in which the files of a manifest are visited.
-/
namespace Verif.Mft
open Verif.Res (Byte)

theorem swap_some {α} {l : List α} {i j : Nat} (hi : i < l.length) (hj : j < l.length) : swap l i j = some ((l.set j l[i]).set i l[j]) := by
  unfold swap
  simp [hi, hj]

/-- One iteration. -/
theorem shuffleLoop_succ {α} (rnd : Nat → Nat) (todo i : Nat) (l : List α) (h : i + todo + 2 = l.length) (hl : l.length < 2 ^ 31) :
    ∃ j, ∃ hj : j < l.length, i ≤ j ∧ j = i + rnd i % (l.length - i) ∧
      shuffleLoop rnd (todo + 1) i l = shuffleLoop rnd todo (i + 1) ((l.set j (l[i]'(by omega))).set i l[j]) := by
  have hd : (l.length + 2 ^ 32 - i) % 2 ^ 32 = l.length - i := by omega
  have hm : rnd i % (l.length - i) < l.length - i := Nat.mod_lt _ (by omega)
  have hj : i + rnd i % (l.length - i) < l.length := by omega
  refine ⟨_, hj, by omega, rfl, ?_⟩
  conv => lhs; unfold shuffleLoop
  simp only [hd]
  rw [if_neg (by omega), Nat.mod_eq_of_lt (show i + rnd i % (l.length - i) < 2 ^ 32 by omega), swap_some (by omega) hj]

theorem shuffleLoop_perm {α} (rnd : Nat → Nat) : ∀ (todo i : Nat) (l : List α), i + todo + 1 = l.length → l.length < 2 ^ 31 →
    ∃ l', shuffleLoop rnd todo i l = .ok l' ∧ l'.Perm l := by
  intro todo
  induction todo with
  | zero => intro i l _ _; exact ⟨l, rfl, .refl _⟩
  | succ todo ih =>
    intro i l h hl
    obtain ⟨j, hj, -, -, e⟩ := shuffleLoop_succ rnd todo i l (by omega) hl
    rw [e]
    obtain ⟨l', h1, h2⟩ := ih (i + 1) ((l.set j (l[i]'(by omega))).set i l[j]) (by simp; omega) (by simpa using hl)
    exact ⟨l', h1, h2.trans (List.set_set_perm hj (by omega))⟩

theorem shuffleLoop_congr {α} {r r' : Nat → Nat} : ∀ (todo i : Nat) (l : List α), (∀ k, i ≤ k → r k = r' k) →
    shuffleLoop r todo i l = shuffleLoop r' todo i l := by
  intro todo
  induction todo with
  | zero => intro i l _; rfl
  | succ todo ih =>
    intro i l h
    unfold shuffleLoop
    simp only [h i (Nat.le_refl _)]
    split
    · rfl
    · split
      · rfl
      · exact ih _ _ (fun k hk => h k (by omega))

theorem shuffleLoop_any {α} : ∀ (todo i : Nat) (l l' : List α), i + todo + 1 = l.length → l.length < 2 ^ 31 → l'.Perm l →
    l'.take i = l.take i → ∃ rnd : Nat → Nat, (∀ k, rnd k < 2 ^ 31) ∧ shuffleLoop rnd todo i l = .ok l' := by
  intro todo
  induction todo with
  | zero =>
    intro i l l' h hl hp ht
    refine ⟨fun _ => 0, fun _ => by show 0 < 2 ^ 31; omega, ?_⟩
    have hlen := hp.length_eq
    have hd : (l'.drop i).Perm (l.drop i) := by
      rw [← List.take_append_drop i l', ← List.take_append_drop i l, ht] at hp
      exact (List.perm_append_left_iff _).1 hp
    have h1 : (l.drop i).length = 1 := by rw [List.length_drop]; omega
    obtain ⟨a, ha⟩ := List.length_eq_one_iff.1 h1
    rw [ha] at hd
    have hd' := List.perm_singleton.1 hd
    have : l' = l := by
      rw [← List.take_append_drop i l', ← List.take_append_drop i l, ht, hd', ha]
    rw [this]; rfl
  | succ todo ih =>
    intro i l l' h hl hp ht
    have hlen := hp.length_eq
    have hi : i < l.length := by omega
    have hi' : i < l'.length := by omega
    have hd : (l'.drop i).Perm (l.drop i) := by
      rw [← List.take_append_drop i l', ← List.take_append_drop i l, ht] at hp
      exact (List.perm_append_left_iff _).1 hp
    have hmem : l'[i] ∈ l.drop i := hd.subset (by rw [List.drop_eq_getElem_cons hi']; exact List.mem_cons_self ..)
    obtain ⟨k, hk, hke⟩ := List.getElem_of_mem hmem
    rw [List.length_drop] at hk
    rw [List.getElem_drop] at hke
    have hj : i + k < l.length := by omega
    have hp2 : l'.Perm ((l.set (i + k) l[i]).set i l[i + k]) := hp.trans (List.set_set_perm hj hi).symm
    have ht2 : l'.take (i + 1) = ((l.set (i + k) l[i]).set i l[i + k]).take (i + 1) := by
      rw [List.take_succ_eq_append_getElem hi', List.take_succ_eq_append_getElem (by simpa using hi)]
      congr 1
      · rw [List.take_set_of_le (Nat.le_refl _), List.take_set_of_le (by omega)]
        exact ht
      · simp only [List.getElem_set_self]
        rw [← hke]
    obtain ⟨r, hr, e⟩ := ih (i + 1) _ l' (by simp; omega) (by simpa using hl) hp2 ht2
    refine ⟨fun x => if x = i then k else r x, ?_, ?_⟩
    · intro x
      by_cases hx : x = i
      · simp only [hx, if_true]; omega
      · simp only [hx, if_false]; exact hr x
    · obtain ⟨j, hjl, -, hje, e2⟩ := shuffleLoop_succ (fun x => if x = i then k else r x) todo i l (by omega) hl
      simp only [if_true] at hje
      rw [Nat.mod_eq_of_lt hk] at hje
      subst hje
      rw [e2, ← e]
      exact shuffleLoop_congr _ _ _ (fun x hx => by
        have : x ≠ i := by omega
        simp [this])

/-- **C48, nothing is lost.** Unless the list is empty, the result of the shuffle is a permutation of it, whatever the random numbers. -/
theorem C48_partial {α} (rnd : Nat → Nat) {l : List α} (hne : l ≠ []) (hl : l.length < 2 ^ 31) :
    ∃ l', shuffle rnd l = .ok l' ∧ l'.Perm l := by
  have : 0 < l.length := List.length_pos_iff.2 hne
  unfold shuffle
  rw [show countPred l.length = l.length - 1 from if_neg (by omega)]
  exact shuffleLoop_perm rnd _ 0 l (by omega) hl

/-- **C48, any order.** Every order is the result for some random numbers. -/
theorem C48_any_order {α} {l l' : List α} (hne : l ≠ []) (hl : l.length < 2 ^ 31) (hp : l'.Perm l) :
    ∃ rnd : Nat → Nat, (∀ k, rnd k < 2 ^ 31) ∧ shuffle rnd l = .ok l' := by
  have : 0 < l.length := List.length_pos_iff.2 hne
  unfold shuffle
  rw [show countPred l.length = l.length - 1 from if_neg (by omega)]
  exact shuffleLoop_any _ 0 l l' (by omega) hl hp (by simp)

theorem shuffleLoop_nil {α} (rnd : Nat → Nat) (n : Nat) : shuffleLoop rnd (n + 1) 0 ([] : List α) = .crash := by
  have h : (([] : List α).length + 2 ^ 32 - 0) % 2 ^ 32 = 0 := by rw [List.length_nil]
  unfold shuffleLoop
  dsimp only
  rw [if_pos h]

theorem shuffle_nil {α} (rnd : Nat → Nat) : shuffle rnd ([] : List α) = .crash := by
  have h : countPred ([] : List α).length ≠ 0 := by
    rw [List.length_nil, show countPred 0 = 4294967295 from if_pos rfl]; omega
  unfold shuffle
  generalize countPred ([] : List α).length = n at h
  cases n with
  | zero => exact absurd rfl h
  | succ n => exact shuffleLoop_nil rnd n

theorem shuffle_nil' {α} {l : List α} (h : l = []) (rnd : Nat → Nat) : shuffle rnd l = .crash := by
  subst h
  exact shuffle_nil rnd

end Verif.Mft
