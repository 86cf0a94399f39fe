import Verif.Net.HttpModel
/-
rsync downloads: src/rsync/rsync.c.

The operating system and the rsync program are the environment: what `poll`, `read`, `fork`, `waitpid`, etc. yield is a parameter. Logging is not modelled.
-/
namespace Verif.Net
open Verif.Rtr (Byte)

/-- EINTR -/
abbrev eINTR : Nat := 4

/-- Results of `read`: some bytes, end of stream, EINTR, another error (not 0). -/
inductive ReadRes where
  | data
  | eof
  | eintr
  | err (errno : Nat)
  deriving DecidableEq, Repr

/-- What `poll` says of a descriptor (POLLNVAL; POLLERR; POLLIN or POLLHUP), and what's read then. -/
inductive Rev where
  | none
  | nval
  | err
  | ready (r : ReadRes)
  deriving DecidableEq, Repr

/-- Results of `poll`; and how long it's been, in milliseconds, once the descriptors were handled. -/
inductive Poll where
  | timeout
  | eintr
  | err
  | ready (f0 f1 : Rev) (delta : Int)
  deriving DecidableEq, Repr

/-- A descriptor: whether it's still polled (not -1), and how many times it was closed. -/
structure Fd where
  polled : Bool
  closes : Nat
  deriving DecidableEq, Repr

/-- DROP_FD, CLOSE_FD -/
def Fd.drop (f : Fd) : Fd := { f with polled := false }
def Fd.close (f : Fd) : Fd := { polled := false, closes := f.closes + 1 }

/-- The body of the `for` of src/rsync/rsync.c:183-266 `exhaust_read_fds`. `poll` ignores descriptors that are -1. -/
def handleFd (rev : Rev) (f : Fd) (error : Nat) : Fd × Nat :=
  if f.polled = false then (f, error)
  else
    match rev with
    | .none => (f, error)
    | .nval => (f.drop, error ||| 1)
    | .err => (f.close, error ||| 1)
    | .ready .data => (f, error)
    | .ready .eof => (f.close, error ||| 0)
    | .ready .eintr => (f, eINTR)
    | .ready (.err e) => (f.close, e ||| 1)

/-- Both descriptors. -/
structure Pfd where
  f0 : Fd
  f1 : Fd
  deriving DecidableEq, Repr

/-- The label `fail` of src/rsync/rsync.c:183-266 `exhaust_read_fds`. -/
def closeAll (p : Pfd) : Pfd :=
  let f0 := if p.f0.polled then { p.f0 with closes := p.f0.closes + 1 } else p.f0
  let f1 := if p.f1.polled then { p.f1 with closes := p.f1.closes + 1 } else p.f1
  ⟨f0, f1⟩

/-- The loop of src/rsync/rsync.c:183-266 `exhaust_read_fds`, given what happens: the result, the descriptors, and the part of the list that wasn't needed. `none`: the
list is over, and the loop isn't. -/
def exhaustLoop (timeout : Int) : List Poll → Pfd → Nat → Option (Nat × Pfd × List Poll)
  | [], _, _ => none
  | .timeout :: evs, p, _ => some (2, closeAll p, evs)
  | .eintr :: evs, p, _ => exhaustLoop timeout evs p eINTR
  | .err :: evs, p, _ => some (1, closeAll p, evs)
  | .ready r0 r1 delta :: evs, p, error =>
    let h0 := handleFd r0 p.f0 error
    let h1 := handleFd r1 p.f1 h0.2
    let p := ⟨h0.1, h1.1⟩
    if p.f0.polled = false ∧ p.f1.polled = false then some (h1.2, p, evs)
    else if delta < 0 then some (1, closeAll p, evs)
    else if delta ≥ timeout then some (2, closeAll p, evs)
    else exhaustLoop timeout evs p h1.2

/-- src/rsync/rsync.c:183-266 `exhaust_read_fds` -/
def exhaustReadFds (timeout : Int) (evs : List Poll) : Option (Nat × Pfd × List Poll) :=
  exhaustLoop timeout evs ⟨⟨true, 0⟩, ⟨true, 0⟩⟩ 0

/-- The third argument that src/rsync/rsync.c:183-266 `exhaust_read_fds` gives to `poll`, which is an int, if the timeout is so many seconds. -/
def pollArg (seconds : Nat) (delta : Int) : Int := (1000 * (seconds : Int) - delta).bmod (2 ^ 32)

/-- What happens in an attempt: `create_pipes` fails; `fork` fails; or there's a child, which is waited for after its streams were exhausted: `waitpid` fails and doesn't
write a status; or the child exited, was killed by a signal, or something else. -/
inductive WaitRes where
  | fail (errno : Int)
  | exited (code : Nat)
  | signaled
  | other
  deriving DecidableEq, Repr

inductive Attempt where
  | pipes (error : Int)
  | fork (errno : Int)
  | child (exhaust : Nat) (w : WaitRes)
  deriving DecidableEq, Repr

/-- Result of a download: the error, how many attempts there were, how many children were created, sent a SIGTERM, and reaped. -/
structure Rsync where
  error : Int
  attempts : Nat
  forks : Nat
  kills : Nat
  reaps : Nat
  deriving DecidableEq, Repr

/-- The loop of src/rsync/rsync.c:286-423 `rsync_download`. `count` is the configured number of retries. (The number of retries starts at 0, and stops at `count` because it's never
greater.) -/
def rsyncLoop (count : Nat) (attempts : Nat → Attempt) (retries : Nat) (s : Rsync) : Rsync :=
  let s := { s with attempts := s.attempts + 1 }
  match attempts retries with
  | .pipes e => { s with error := e }
  | .fork e => { s with error := e }
  | .child exhaust w =>
    let s := { s with forks := s.forks + 1, kills := if exhaust ≠ 0 then s.kills + 1 else s.kills }
    match w with
    | .fail e => { s with error := e }
    | .exited code =>
      let s := { s with reaps := s.reaps + 1 }
      if code = 0 then { s with error := 0 }
      else if h : retries ≥ count then { s with error := eIO }
      else rsyncLoop count attempts (retries + 1) s
    | .signaled => { s with error := -4, reaps := s.reaps + 1 }
    | .other => { s with error := -eINVAL, reaps := s.reaps + 1 }
  termination_by count - retries

/-- src/rsync/rsync.c:286-423 `rsync_download` -/
def rsyncDownload (count : Nat) (mkdir : Int) (attempts : Nat → Attempt) : Rsync :=
  if mkdir ≠ 0 then ⟨mkdir, 0, 0, 0, 0⟩ else rsyncLoop count attempts 0 ⟨0, 0, 0, 0, 0⟩

/-- "$REMOTE", "$LOCAL" -/
def remoteVar : List Byte := [36#8, 82#8, 69#8, 77#8, 79#8, 84#8, 69#8]
def localVar : List Byte := [36#8, 76#8, 79#8, 67#8, 65#8, 76#8]

/-- The loop of src/rsync/rsync.c:51-83 `prepare_rsync`: the copies. -/
def substArgs (src dst : List Byte) : List (List Byte) → List (List Byte)
  | [] => []
  | a :: as => (if a = remoteVar then src else if a = localVar then dst else a) :: substArgs src dst as

/-- src/rsync/rsync.c:51-83 `prepare_rsync`: the arguments, up to the NULL. -/
def prepareRsync (program : List Byte) (args : List (List Byte)) (src dst : List Byte) : List (List Byte) :=
  program :: substArgs src dst args

end Verif.Net
