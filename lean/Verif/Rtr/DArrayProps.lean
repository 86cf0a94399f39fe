/-
C04 and C05: the circular history of deltas.
-/
import Verif.Rtr.DArrayLemmas

namespace Verif.Rtr

/-- C04. Let a history with lifetime `1 ≤ cap < 2^31` receive the deltas `xs` (any number). Nothing outside the
array is touched, the number of stored deltas is `min xs.length cap`, and asking for the last `n` deltas visits
exactly the `n` newest ones, oldest first (whatever the callback does); asking for more than are stored is an
error. -/
theorem C04_history {α σ} (cap : Nat) (h1 : 1 ≤ cap) (h2 : cap < 2 ^ 31) (xs : List α) :
    ∃ d, (DArray.create cap : DArray α).addAll xs = some d ∧ d.len.toNat = min xs.length cap ∧
      ∀ (n : BitVec 32) (cb : σ → α → σ) (s : σ),
        d.foreachSince n cb s =
          if n.toNat ≤ min xs.length cap then .ok ((xs.drop (xs.length - n.toNat)).foldl cb s)
          else .einval := by
  obtain ⟨d, hd, hinv, hcap⟩ := (DArray.inv_create (α := α) h1 (by omega)).addAll xs
  simp only [List.nil_append] at hinv
  have hcap' : d.cap = cap := hcap
  refine ⟨d, hd, by rw [hinv.lenEq, hcap'], fun n cb s => ?_⟩
  rw [hinv.foreachSince (by omega), hcap']

/-- Five deltas through a history of three: the last two are 4 and 5. -/
example : ((DArray.create 3 : DArray Nat).addAll [1, 2, 3, 4, 5]).map
    (fun d => d.foreachSince 2 (fun (l : List Nat) x => l ++ [x]) []) = some (.ok [4, 5]) := by decide

/-- C05 is false: the configuration accepts lifetime 0 (src/config.c:415-424, `.min = 0`), and then storing the
first delta touches slot 0 of a zero-sized array. -/
theorem C05_lifetime_zero_is_ub {α} (x : α) : (DArray.create 0 : DArray α).add x = none := by
  simp [DArray.add, DArray.create]

/-- C05, the part that holds: every other lifetime (an `unsigned int`) is safe for any number of deltas. -/
theorem C05_lifetime_safe_partial {α} (cap : Nat) (h1 : 1 ≤ cap) (h2 : cap < 2 ^ 32) (xs : List α) :
    (DArray.create cap : DArray α).addAll xs ≠ none := by
  obtain ⟨d, hd, _⟩ := (DArray.inv_create (α := α) h1 (by omega)).addAll xs
  simp [hd]

example : (DArray.create 1 : DArray Nat).addAll [1, 2, 3] ≠ none :=
  C05_lifetime_safe_partial 1 (by decide) (by decide) _

end Verif.Rtr
