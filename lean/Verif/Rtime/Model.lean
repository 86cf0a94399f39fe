import Verif.Net.RsyncModel
/-
How long the validator waits for an rsync: src/rsync/rsync.c:183-266 `exhaust_read_fds`, with a clock (in milliseconds, from when it starts). What it returns is
`Verif.Net.exhaustReadFds`. The clock is monotonic, and `poll` times out when it should, exactly.
-/
namespace Verif.Rtime
open Verif.Net

/-- A call to `poll`: what it returns, after how long; and how long the descriptors' handling takes. -/
inductive Ev where
  | timeout (wait : Nat)
  | eintr (wait : Nat)
  | err (wait : Nat)
  | ready (r0 r1 : Rev) (wait work : Nat)
  deriving DecidableEq, Repr

def Ev.wait : Ev → Nat
  | .timeout w => w
  | .eintr w => w
  | .err w => w
  | .ready _ _ w _ => w

/-- POSIX's `poll`: what it may do if its third argument is `arg`. Negative: no limit. -/
def Ev.Legal (arg : Int) : Ev → Prop
  | .timeout w => 0 ≤ arg ∧ (w : Int) = arg
  | e => 0 ≤ arg → (e.wait : Int) ≤ arg

/-- What `exhaust_read_fds` returns, whether it's because it found that there's no time left, when the last `poll` returned, and when the function did. -/
structure Out where
  result : Nat
  late : Bool
  woke : Nat
  done : Nat
  deriving DecidableEq, Repr

/-- The loop of src/rsync/rsync.c:183-266 `exhaust_read_fds`: it's `now`. `none`: it goes on. Lines 205-206 wait, and a signal (209-210) skips the lines that measure the time (246-253). -/
def timed (seconds : Nat) : List Ev → Nat → Pfd → Nat → Option Out
  | [], _, _, _ => none
  | .timeout w :: _, now, _, _ => some ⟨2, true, now + w, now + w⟩
  | .eintr w :: l, now, p, _ => timed seconds l (now + w) p eINTR
  | .err w :: _, now, _, _ => some ⟨1, false, now + w, now + w⟩
  | .ready r0 r1 w k :: l, now, p, error =>
    let h0 := handleFd r0 p.f0 error
    let h1 := handleFd r1 p.f1 h0.2
    if h0.1.polled = false ∧ h1.1.polled = false then some ⟨h1.2, false, now + w, now + w + k⟩
    else if now + w + k ≥ 1000 * seconds then some ⟨2, true, now + w, now + w + k⟩
    else timed seconds l (now + w + k) ⟨h0.1, h1.1⟩ h1.2

/-- The operating system does what POSIX says, from `now` on; `delta` is the time that was measured last. -/
def LegalFrom (seconds : Nat) : List Ev → Nat → Nat → Prop
  | [], _, _ => True
  | .ready r0 r1 w k :: l, now, delta => (Ev.ready r0 r1 w k).Legal (pollArg seconds delta) ∧ LegalFrom seconds l (now + w + k) (now + w + k)
  | e :: l, now, delta => e.Legal (pollArg seconds delta) ∧ LegalFrom seconds l (now + e.wait) delta

end Verif.Rtime
