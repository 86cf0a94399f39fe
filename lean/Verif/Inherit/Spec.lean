import Verif.Inherit.Model
/-
C208: what's meant.
-/
namespace Verif.Inherit

/-- Some process has it open. -/
def Open (s : St) (x : End) : Prop := s.server x = true ∨ ∃ b c, s.child b = some c ∧ c.holds x = true

/-- The rsync of attempt `b` runs (or is about to be executed). -/
def Runs (s : St) (b : Nat) : Prop := ∃ c, s.child b = some c ∧ c.running = true

/-- During `l`, the validator launched the rsync of `b` while it had `x` open. -/
def Launched (l : List Step) (b : Nat) (x : End) : Prop :=
  ∃ l₁ l₂, l = l₁ ++ .fork b :: l₂ ∧ (run l₁ St.init).child b = none ∧ (run (l₁ ++ [.fork b]) St.init).child b ≠ none ∧ (run l₁ St.init).server x = true

/-- When the rsync of an attempt isn't running, and the validator has closed its copies, the pipes are at their end: the validator isn't kept waiting. -/
def OwnEnd (l : List Step) : Prop :=
  ∀ a, ¬ Runs (run l St.init) a → (run l St.init).server (.errW a) = false → (run l St.init).server (.outW a) = false →
    ¬ Open (run l St.init) (.errW a) ∧ ¬ Open (run l St.init) (.outW a)

/-- A connection that the validator has closed (or had, when it ended) is closed: its router sees the end. -/
def Hangs (l : List Step) : Prop :=
  ∀ c, (run l St.init).server (.conn c) = false → ¬ Open (run l St.init) (.conn c)

/-- When the validator has ended, the addresses that it listened on are free. -/
def Frees (l : List Step) : Prop :=
  (run l St.init).running = false → ∀ a, ¬ Open (run l St.init) (.listen a)

/-- The thread of attempt `a` is in src/rsync/rsync.c:183-266 `exhaust_read_fds`. -/
abbrev Waits (s : St) (a : Nat) : Prop := s.pc a = 5

/-- What's read from rsync. -/
def End.isRead : End → Bool
  | .errR _ => true
  | .outR _ => true
  | _ => false

end Verif.Inherit
