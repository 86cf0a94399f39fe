import Mathlib.Data.List.Basic
/-
What rsync's processes keep open: src/rsync/rsync.c, src/rtr/rtr.c and src/rtr/pdu_stream.c, and the system's descriptors.

`fork` copies the validator's whole table of descriptors, and `execvp` keeps those that aren't marked to be closed (FD_CLOEXEC); the program marks none. A pipe's
reader sees the end when no process has the other end open; the peer of a connection sees the end, and the address that a socket listens on is free again, when
no process has the socket.

Simplified: what one attempt of a download reads isn't modelled (C201 is about it), and the standard descriptors are taken (C157 is about those that aren't).
-/
namespace Verif.Inherit

/-- What a descriptor refers to. Attempts to download with rsync, and connections, are numbered; the numbers aren't used again. -/
inductive End where
  /-- The socket of a router's connection -/
  | conn (c : Nat)
  /-- A socket that listens -/
  | listen (l : Nat)
  /-- The ends of the pipe of an rsync's standard error: src/rsync/rsync.c:15-18 -/
  | errR (a : Nat)
  | errW (a : Nat)
  /-- The ends of the pipe of its standard output: src/rsync/rsync.c:15-18 -/
  | outR (a : Nat)
  | outW (a : Nat)
  deriving DecidableEq, Repr

/-- A process that `fork` created. -/
structure Child where
  holds : End → Bool
  /-- how much of `duplicate_fds` it has done -/
  stage : Nat
  running : Bool

structure St where
  /-- The validator runs. -/
  running : Bool
  /-- what the validator has open -/
  server : End → Bool
  /-- what there has ever been -/
  used : End → Bool
  /-- how far the thread of each attempt is -/
  pc : Nat → Nat
  child : Nat → Option Child

def St.init : St := ⟨true, fun _ => false, fun _ => false, fun _ => 0, fun _ => none⟩

/-- Change one value of a function. -/
def upd {α β : Type} [DecidableEq α] (f : α → β) (a : α) (b : β) : α → β := fun x => if x = a then b else f x

def St.opens (s : St) (x : End) : St := { s with server := upd s.server x true, used := upd s.used x true }

def St.closes (s : St) (x : End) : St := { s with server := upd s.server x false }

def St.at (s : St) (a n : Nat) : St := { s with pc := upd s.pc a n }

/-- What can happen. -/
inductive Step where
  /-- `accept`: src/rtr/rtr.c:417-448 `accept_new_client` -/
  | accept (c : Nat)
  /-- src/rtr/pdu_stream.c:57-63 `pdustream_destroy`, and the `close` of src/rtr/rtr.c:417-448 `accept_new_client` -/
  | closeConn (c : Nat)
  /-- `socket`: src/rtr/rtr.c:212-285 `create_server_socket` -/
  | listen (l : Nat)
  /-- src/rtr/rtr.c:49-55 `cleanup_server`, and the `close` of src/rtr/rtr.c:212-285 `create_server_socket` -/
  | closeListen (l : Nat)
  /-- The first `pipe` of src/rsync/rsync.c:103-126 `create_pipes` -/
  | pipeErr (a : Nat)
  /-- The second one: src/rsync/rsync.c:103-126 `create_pipes` -/
  | pipeOut (a : Nat)
  /-- The second one fails: src/rsync/rsync.c:103-126 `create_pipes` -/
  | pipeOutFails (a : Nat)
  /-- `fork`: src/rsync/rsync.c:286-423 `rsync_download` -/
  | fork (a : Nat)
  /-- It fails: src/rsync/rsync.c:286-423 `rsync_download` -/
  | forkFails (a : Nat)
  /-- The child, src/rsync/rsync.c:25-38 `duplicate_fds`: its standard error is the pipe, lines 29-32. -/
  | dupErr (a : Nat)
  /-- The child, src/rsync/rsync.c:25-38 `duplicate_fds`: its standard output is the pipe, lines 34-37. After that it's rsync: lines 85-101 `handle_child_thread`. -/
  | dupOut (a : Nat)
  /-- The child ends: rsync ends, it can't be executed, or it's killed (src/rsync/rsync.c:286-423 `rsync_download`). -/
  | childEnds (a : Nat)
  /-- src/rsync/rsync.c:274-280 `exhaust_pipes`, line 277 -/
  | closeErrW (a : Nat)
  /-- src/rsync/rsync.c:274-280 `exhaust_pipes`, line 278 -/
  | closeOutW (a : Nat)
  /-- src/rsync/rsync.c:183-266 `exhaust_read_fds` closes the first one: at its end, after an error, or after the time. -/
  | closeErrR (a : Nat)
  /-- src/rsync/rsync.c:183-266 `exhaust_read_fds` closes the second one. -/
  | closeOutR (a : Nat)
  /-- The validator ends: src/main.c:110-176 `main`, or it's killed. -/
  | ends
  deriving Repr, DecidableEq

/-- The validator's own steps: nothing of it happens when it doesn't run, or isn't there yet. -/
def serverStep (s : St) : Step → St
  | .accept c => if s.used (.conn c) then s else s.opens (.conn c)
  | .closeConn c => s.closes (.conn c)
  | .listen l => if s.used (.listen l) then s else s.opens (.listen l)
  | .closeListen l => s.closes (.listen l)
  | .pipeErr a => if s.pc a = 0 then ((s.opens (.errR a)).opens (.errW a)).at a 1 else s
  | .pipeOut a => if s.pc a = 1 then ((s.opens (.outR a)).opens (.outW a)).at a 2 else s
  | .pipeOutFails a => if s.pc a = 1 then ((s.closes (.errR a)).closes (.errW a)).at a 6 else s
  | .fork a =>
    if s.pc a = 2 then { s.at a 3 with child := upd s.child a (some ⟨s.server, 0, true⟩) } else s
  | .forkFails a =>
    if s.pc a = 2 then ((((s.closes (.errR a)).closes (.outR a)).closes (.errW a)).closes (.outW a)).at a 6 else s
  | .closeErrW a => if s.pc a = 3 then (s.closes (.errW a)).at a 4 else s
  | .closeOutW a => if s.pc a = 4 then (s.closes (.outW a)).at a 5 else s
  | .closeErrR a => if s.pc a = 5 then s.closes (.errR a) else s
  | .closeOutR a => if s.pc a = 5 then s.closes (.outR a) else s
  | .ends => { s with running := false, server := fun _ => false }
  | _ => s

/-- The steps of the children. -/
def childStep (s : St) : Step → St
  | .dupErr a =>
    match s.child a with
    | some c => if c.running ∧ c.stage = 0 then { s with child := upd s.child a (some { c with holds := upd c.holds (.errR a) false, stage := 1 }) } else s
    | none => s
  | .dupOut a =>
    match s.child a with
    | some c => if c.running ∧ c.stage = 1 then { s with child := upd s.child a (some { c with holds := upd c.holds (.outR a) false, stage := 2 }) } else s
    | none => s
  | .childEnds a =>
    match s.child a with
    | some c => { s with child := upd s.child a (some { c with holds := fun _ => false, running := false }) }
    | none => s
  | _ => s

def step (s : St) (e : Step) : St := childStep (if s.running then serverStep s e else s) e

def run : List Step → St → St
  | [], s => s
  | e :: l, s => run l (step s e)

end Verif.Inherit
