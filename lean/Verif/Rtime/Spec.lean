import Verif.Rtime.Model
/-
C211: what's meant. rsync.transfer-timeout: docs/usage.md:941-950.
-/
namespace Verif.Rtime
open Verif.Net

/-- The transfer, from its beginning. -/
def transfer (seconds : Nat) (evs : List Ev) : Option Out := timed seconds evs 0 ⟨⟨true, 0⟩, ⟨true, 0⟩⟩ 0

/-- The operating system does what POSIX says. -/
def Posix (seconds : Nat) (evs : List Ev) : Prop := LegalFrom seconds evs 0 0

/-- How long all that takes. -/
def total : List Ev → Nat
  | [] => 0
  | .ready _ _ w k :: l => w + k + total l
  | e :: l => e.wait + total l

/-- No signal interrupts it. -/
def Quiet (evs : List Ev) : Prop := ∀ e ∈ evs, ∀ w, e ≠ .eintr w

/-- It doesn't wait after the time is over. 0 is unlimited. -/
def InTime (seconds : Nat) (o : Out) : Prop := seconds = 0 ∨ o.woke ≤ 1000 * seconds

/-- It only gives up when the time is over. 0 is unlimited. -/
def Patient (seconds : Nat) (o : Out) : Prop := o.late = true → seconds ≠ 0 ∧ 1000 * seconds ≤ o.done

/-- The same, for `Verif.Net.exhaustReadFds`: it's told what time it is. -/
def polls : List Ev → Nat → List Poll
  | [], _ => []
  | .timeout w :: l, now => .timeout :: polls l (now + w)
  | .eintr w :: l, now => .eintr :: polls l (now + w)
  | .err w :: l, now => .err :: polls l (now + w)
  | .ready r0 r1 w k :: l, now => .ready r0 r1 ((now + w + k : Nat) : Int) :: polls l (now + w + k)

end Verif.Rtime
