import Verif.Db.Model
/-
Specification of what the threads that share the database may rely on.
-/
namespace Verif.Db
variable {α : Type}

/-- Steps in which router `i` takes nothing, and its connection does not fail. -/
inductive StepBut (cap : Nat) (c : Content α) (i : Nat) : St α → St α → Prop where
  | writer {s s'} : WStep cap s s' → StepBut cap c i s s'
  | reader {s s' j} : RStep c j s s' → StepBut cap c i s s'
  | send {s s' j} : j ≠ i → SStep c j s s' → StepBut cap c i s s'
  | request {s j q} : s.readers j = .idle → StepBut cap c i s (s.set j (.waiting q))

/-- Steps without new requests. -/
inductive StepOn (cap : Nat) (c : Content α) : St α → St α → Prop where
  | writer {s s'} : WStep cap s s' → StepOn cap c s s'
  | reader {s s' i} : RStep c i s s' → StepOn cap c s s'
  | send {s s' i} : SStep c i s s' → StepOn cap c s s'

/-- Any number of steps. -/
inductive Star (R : St α → St α → Prop) : St α → St α → Prop where
  | refl {s} : Star R s s
  | tail {s s' s''} : Star R s s' → R s' s'' → Star R s s''

/-- Whatever steps are taken, `P` will hold; there are steps to be taken until then. -/
inductive Inevitable (R : St α → St α → Prop) (P : St α → Prop) : St α → Prop where
  | now {s} : P s → Inevitable R P s
  | later {s} : (∃ s', R s s') → (∀ s', R s s' → Inevitable R P s') → Inevitable R P s

/-- The thread is sending, and it is not done. -/
def Sending (c : Content α) (s : St α) : Reader α → Prop
  | .roas sent => ∃ b, s.base = some b ∧ sent.length < (c.roas b).length
  | .keys n _ => ∃ b, s.base = some b ∧ n < (c.keys b).length
  | .rows left _ => left ≠ []
  | _ => False

/-- The threads beyond the n-th have nothing to do. -/
def Threads (n : Nat) (s : St α) : Prop := ∀ i, n ≤ i → s.readers i = .idle

/-- A schedule: the state after each number of steps. -/
def Run (cap : Nat) (c : Content α) (f : Nat → St α) : Prop := ∀ n, Step cap c (f n) (f (n + 1))

end Verif.Db
