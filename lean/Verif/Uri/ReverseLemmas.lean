import Verif.Uri.ModelReverse
import Verif.Uri.PathLemmas
/-
Lemmas about the reversal of a path.
-/
namespace Verif.Uri
open Verif.Res (Byte)

theorem memGet_at (A : List Byte) (x : Byte) (B : List Byte) (i : Nat) (h : i = A.length) :
    memGet (A ++ x :: B) i = .ok x := by
  subst h
  simp [memGet]

theorem memSet_at (A : List Byte) (x y : Byte) (B : List Byte) (i : Nat) (h : i = A.length) :
    memSet (A ++ x :: B) i y = .ok (A ++ y :: B) := by
  subst h
  simp [memSet]

theorem revLoop_spec : ∀ (n : Nat) (A M B : List Byte), M.length = n → 0 < n →
    revLoop (A ++ M ++ B) A.length (A.length + n - 1) = .ok (A ++ M.reverse ++ B) := by
  intro n
  induction n using Nat.strong_induction_on with
  | _ n ih =>
    intro A M B hM hn
    match M, hM with
    | [], hM => simp at hM; omega
    | [x], hM =>
      have : n = 1 := by simpa using hM.symm
      subst this
      unfold revLoop
      rw [if_neg (by omega)]
      simp
    | x :: z :: M', hM =>
      obtain ⟨M, y, hy⟩ : ∃ M y, z :: M' = M ++ [y] :=
        ⟨(z :: M').dropLast, (z :: M').getLast (by simp), (List.dropLast_concat_getLast (by simp)).symm⟩
      rw [hy] at hM ⊢
      have hn' : n = M.length + 2 := by simp at hM; omega
      subst hn'
      unfold revLoop
      rw [if_pos (by omega)]
      have e1 : A ++ (x :: (M ++ [y])) ++ B = A ++ x :: (M ++ y :: B) := by simp
      have e2 : ∀ w, A ++ w :: (M ++ y :: B) = (A ++ w :: M) ++ y :: B := by intro w; simp
      rw [e1, memGet_at A x _ _ rfl, ok_bind, e2, memGet_at _ y _ _ (by simp <;> omega), ok_bind, ← e2,
        memSet_at A x y _ _ rfl, ok_bind, e2, memSet_at _ y x _ _ (by simp <;> omega), ok_bind]
      rcases Nat.eq_zero_or_pos M.length with h0 | hpos
      · have : M = [] := List.length_eq_zero_iff.1 h0
        subst this
        unfold revLoop
        rw [if_neg (by simp)]
        simp
      · have := ih M.length (by omega) (A ++ [y]) M (x :: B) rfl hpos
        have e3 : A ++ y :: M ++ x :: B = (A ++ [y]) ++ M ++ x :: B := by simp
        have e4 : A.length + (M.length + 2) - 1 - 1 = (A ++ [y]).length + M.length - 1 := by simp
        have e5 : A.length + 1 = (A ++ [y]).length := by simp
        rw [e3, e4, e5, this]
        simp

/-- Reversing a part of the block reverses that part, and nothing else. -/
theorem reverseString_spec (A M B : List Byte) (i n : Nat) (hi : i = A.length) (hn : n = M.length) :
    reverseString (A ++ M ++ B) i n = .ok (A ++ M.reverse ++ B) := by
  subst hi hn
  unfold reverseString
  rcases Nat.eq_zero_or_pos M.length with h | h
  · rw [if_pos h]
    have : M = [] := List.length_eq_zero_iff.1 h
    subst this
    simp
  · rw [if_neg (by omega)]
    exact revLoop_spec _ A M B rfl h

theorem reverseString_bound (mem : List Byte) (i n : Nat) (h : i + n ≤ mem.length) :
    reverseString mem i n = .ok (mem.take i ++ ((mem.drop i).take n).reverse ++ mem.drop (i + n)) := by
  have e : mem = mem.take i ++ (mem.drop i).take n ++ mem.drop (i + n) := by
    rw [List.append_assoc, ← List.drop_drop, List.take_append_drop, List.take_append_drop]
  conv_lhs => rw [e]
  exact reverseString_spec _ _ _ _ _ (by simp; omega) (by simp; omega)

/-- The loop passes over what isn't a slash. -/
theorem reverseLoop_skip (len min : Nat) (B : List Byte) : ∀ (d A : List Byte), slash ∉ d → A.length + d.length ≤ len →
    reverseLoop (A ++ d ++ B) len min A.length = reverseLoop (A ++ d ++ B) len min (A.length + d.length) := by
  intro d
  induction d with
  | nil => intro A _ _; simp
  | cons x d ih =>
    intro A hd hl
    simp only [List.mem_cons, not_or, List.length_cons] at hd hl
    have e1 : A ++ x :: d ++ B = A ++ x :: (d ++ B) := by simp
    conv_lhs => unfold reverseLoop
    rw [if_pos (by omega), e1, memGet_at A x _ _ rfl, ok_bind, if_neg (fun h => hd.1 h.symm)]
    have e2 : A ++ x :: (d ++ B) = (A ++ [x]) ++ d ++ B := by simp
    have := ih (A ++ [x]) hd.2 (by simp; omega)
    rw [e2]
    simp only [List.length_append, List.length_cons, List.length_nil, Nat.zero_add] at this
    rw [this]
    congr 1
    simp only [List.length_cons]; omega

/-- At the start of a component, the loop goes on to its end. -/
theorem reverseLoop_comp (len : Nat) (P d B : List Byte) (hd : d ≠ []) (hs : slash ∉ d)
    (hl : P.length + d.length ≤ len) :
    reverseLoop (P ++ d ++ B) len P.length (P.length + 1) = reverseLoop (P ++ d ++ B) len P.length (P.length + d.length) := by
  obtain ⟨x, d', rfl⟩ := List.exists_cons_of_ne_nil hd
  have := reverseLoop_skip len P.length B d' (P ++ [x]) (by simp at hs; exact hs.2) (by simp at hl ⊢; omega)
  have e : P ++ x :: d' ++ B = (P ++ [x]) ++ d' ++ B := by simp
  rw [e]
  simp only [List.length_append, List.length_cons, List.length_nil, Nat.zero_add] at this
  rw [this]
  congr 1
  simp only [List.length_cons]; omega

end Verif.Uri
