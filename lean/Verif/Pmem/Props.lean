import Verif.Pmem.Lemmas
/-
C210: Print mode releases what it holds, once.
-/
namespace Verif.Pmem
open Verif.Heap

/-- Whatever happens, nothing that isn't allocated is used or released; and what's still allocated at the end is what was lost. -/
theorem C210_safe (oom : Bool) (w : Where) (given : Option Kind) (happens : Nat → Nat) :
    Safe (run oom w given happens).2 ∧ ∀ i, (run oom w given happens).2.refs i = (run oom w given happens).2.lost.count i := by
  have h := t_printFile oom w given _ (own_init happens)
  exact ⟨h.good, fun i => by
    have := h.bal i
    rw [List.count_nil, Nat.zero_add] at this
    exact this⟩

/-- Everything has been released at the end, if there's memory for the BIOs that put the header back. -/
theorem C210_partial (w : Where) (given : Option Kind) (happens : Nat → Nat) : Empty (run false w given happens).2 := by
  intro i
  have h := lo_printFile false w given (H.init happens)
  have : (run false w given happens).2.lost = [] := List.length_eq_zero_iff.1 (Nat.le_zero.1 (Nat.le_trans h (by simp [H.init, most])))
  rw [(C210_safe false w given happens).2 i, this]
  rfl

/-- If not, at most two BIOs are lost. -/
theorem C210_bound (oom : Bool) (w : Where) (given : Option Kind) (happens : Nat → Nat) : (run oom w given happens).2.lost.length ≤ 2 := by
  have h := lo_printFile oom w given (H.init happens)
  exact Nat.le_trans h (by cases oom <;> simp [H.init, most])

/-- The answers of `l`, then 1. -/
def say (l : List Nat) : Nat → Nat := fun n => l.getD n 1

/-- A signed object in the cache, downloaded, guessed, read in three pieces, printed. -/
example : (run false .rsyncCache none (say [0, 0, 0, 0, 0, 0, 0, 1, 5, 1, 0, 1, 0, 0, 1, 0, 0, 0, 0])).1 = true ∧
    (run false .rsyncCache none (say [0, 0, 0, 0, 0, 0, 0, 1, 5, 1, 0, 1, 0, 0, 1, 0, 0, 0, 0])).2.next = 8 := by
  decide +kernel

/-- **C210 is false as such.** If `BIO_new` fails, the header's BIO and the file's are never released. -/
theorem C210_refuted : ∃ happens, ¬ Empty (run true .local_ none happens).2 :=
  ⟨say [0, 0, 0, 0, 0, 0, 1], fun h => absurd (h 1) (by decide +kernel)⟩

end Verif.Pmem
