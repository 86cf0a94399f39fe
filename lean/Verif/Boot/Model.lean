import Verif.Log.Model
import Verif.Net.HttpModel
import Verif.Conf.Model
/-
How the process starts, becomes a daemon and ends: src/main.c, src/daemon.c, src/nid.c, src/init.c, what src/rsync/rsync.c does with descriptors.

The kernel and the C library are specified here as far as needed: descriptors are allocated lowest first; glibc's `syslog` keeps its descriptor until `closelog`, sends to
whatever it is, and if that fails closes it and connects again. The system's log is always listening.
-/
namespace Verif.Boot
open Verif.Log (Text)

/-! ### Descriptors -/

/-- What descriptors refer to: the system's log; something that takes whatever is sent to it, like the connection of a router; anything else. -/
inductive Obj where
  | log
  | stream (i : Nat)
  | other (i : Nat)
  deriving DecidableEq, Repr

/-- A table of descriptors. -/
abbrev Table := List (Option Obj)

/-- What a descriptor is. -/
def Table.get (t : Table) (fd : Nat) : Option Obj := (t[fd]?).join

/-- A new descriptor is the lowest one that's free. -/
def Table.alloc : Table → Obj → Nat × Table
  | [], o => (0, [some o])
  | none :: t, o => (0, some o :: t)
  | some x :: t, o => ((Table.alloc t o).1 + 1, some x :: (Table.alloc t o).2)

/-- `close` -/
def Table.close (t : Table) (fd : Nat) : Table := t.set fd none

/-! ### syslog -/

/-- The process: its descriptors; the one `syslog` has; what arrived at the system's log and at streams (which one, what), in order; and what `syslog` closed although it wasn't its. -/
structure Proc where
  table : Table
  logFd : Option Nat
  logged : List Text
  sent : List (Nat × Text)
  robbed : List Obj
  deriving DecidableEq, Repr

/-- glibc's `openlog_internal` with LOG_NDELAY, and `send`. -/
def Proc.reconnect (p : Proc) (m : Text) : Proc :=
  { p with table := (p.table.alloc .log).2, logFd := some (p.table.alloc .log).1, logged := p.logged ++ [m] }

/-- glibc's `syslog`, after src/log.c:431-458 `__syslog` made the text. -/
def Proc.syslog (p : Proc) (m : Text) : Proc :=
  match p.logFd with
  | none => p.reconnect m
  | some fd =>
    match p.table.get fd with
    | some .log => { p with logged := p.logged ++ [m] }
    | some (.stream i) => { p with sent := p.sent ++ [(i, m)] }
    | some (.other i) => Proc.reconnect { p with table := p.table.close fd, robbed := p.robbed ++ [.other i] } m
    | none => p.reconnect m

/-- glibc's `closelog`. -/
def Proc.closelog (p : Proc) : Proc :=
  match p.logFd with
  | none => p
  | some fd => { p with table := p.table.close fd, logFd := none }

/-- What the program does once it runs: it opens something, closes a descriptor that isn't the log's, or logs a message of one of its two logs (which; level; text). -/
inductive Op where
  | opens (o : Obj)
  | closes (fd : Nat)
  | logs (validation : Bool) (level : Nat) (m : Text)
  deriving DecidableEq, Repr

/-- Whether a message goes to the system's log. -/
def toSyslog (s : Log.State) (validation : Bool) (level : Nat) : Bool :=
  let cfg := if validation then s.val else s.op
  decide (level ≤ cfg.level) && cfg.syslog

/-- One operation. Nobody but `syslog` knows its descriptor, so the others don't close it. -/
def Proc.step (s : Log.State) (p : Proc) : Op → Proc
  | .opens o => { p with table := (p.table.alloc o).2 }
  | .closes fd => if p.table.get fd = some .log then p else { p with table := p.table.close fd }
  | .logs v level m => if toSyslog s v level then p.syslog m else p

/-- A number of them. -/
def Proc.run (s : Log.State) (p : Proc) (ops : List Op) : Proc := ops.foldl (Proc.step s) p

/-- The loop of src/daemon.c:25-108 `daemonize` that closes descriptors: from the maximum, if there's one, to 0. -/
def closeUpTo (t : Table) : Option Nat → Table
  | none => t
  | some max => List.replicate (min (max + 1) t.length) none ++ t.drop (max + 1)

/-- src/daemon.c:25-108 `daemonize`, if no system call fails. `parent`: `getppid`. `max`: `sysconf(_SC_OPEN_MAX)`. The logs are those that `log_start` leaves. The processes
that end on the way are left out. -/
def daemonize (parent : Nat) (max : Option Nat) (op val : Log.Conf) (s : Log.State) (p : Proc) : Log.State × Proc :=
  if parent = 1 then (s, p)
  else
    let s' := Log.logStart op val s
    let p := if s'.closes > s.closes then p.closelog else p
    (s', { p with table := closeUpTo p.table max })

/-- The text of src/config.c:1150. -/
def daemonWarning : Text := Log.lit "Executing as daemon, all logs will be sent to syslog."

/-- The end of src/config.c:1109-1171 `handle_flags_config`, from the decision to become a daemon: the logs and the process. `info` is what src/config.c:895-913 `print_config` says. -/
def startUp (daemon : Bool) (parent : Nat) (max : Option Nat) (op val : Log.Conf) (info : List Text) (p : Proc) : Log.State × Proc :=
  let s := Log.logSetup false
  let (s, p) :=
    if daemon then
      let p := Proc.step s p (.logs false Log.LOG_WARNING daemonWarning)
      daemonize parent max { op with output := .syslog } { val with output := .syslog } s p
    else
      let s' := Log.logStart op val s
      (s', if s'.closes > s.closes then p.closelog else p)
  (s, p.run s (info.map (Op.logs false Log.LOG_INFO)))

/-! ### rsync's descriptors -/

/-- A child's descriptors. -/
abbrev Fds (α : Type) := Nat → Option α

/-- `dup2` -/
def dup2 {α : Type} (t : Fds α) (old new : Nat) : Fds α :=
  match t old with
  | none => t
  | some o => fun fd => if fd = new then some o else t fd

/-- `close` -/
def closeFd {α : Type} (t : Fds α) (fd : Nat) : Fds α := fun x => if x = fd then none else t x

/-- The four ends of the two pipes: `fds[0][0]`, `fds[0][1]`, `fds[1][0]`, `fds[1][1]`. -/
structure Ends where
  errRead : Nat
  errWrite : Nat
  outRead : Nat
  outWrite : Nat
  deriving DecidableEq, Repr

/-- src/rsync/rsync.c:25-38 `duplicate_fds` -/
def duplicateFds {α : Type} (t : Fds α) (e : Ends) : Fds α :=
  let t := dup2 t e.errWrite 2
  let t := closeFd t e.errWrite
  let t := closeFd t e.errRead
  let t := dup2 t e.outWrite 1
  let t := closeFd t e.outWrite
  closeFd t e.outRead

/-- The ends of the pipes, as things descriptors refer to. -/
def errR : Obj := .other 0
def errW : Obj := .other 1
def outR : Obj := .other 2
def outW : Obj := .other 3

/-- src/rsync/rsync.c:103-126 `create_pipes`; `pipe` allocates the end for reading first. -/
def createPipes (t : Table) : Ends × Table :=
  let (a, t) := t.alloc errR
  let (b, t) := t.alloc errW
  let (c, t) := t.alloc outR
  let (d, t) := t.alloc outW
  (⟨a, b, c, d⟩, t)

/-- The descriptors that the child has when it runs rsync (src/rsync/rsync.c:85-101 `handle_child_thread`): nothing is closed on exec. -/
def childFds (t : Table) : Fds Obj :=
  let (e, t) := createPipes t
  duplicateFds t.get e

/-! ### Descriptors and children -/

/-- What happens to things that children inherit (ends of pipes for writing, connections), whichever thread does it: the parent opens one, or closes it; a child is
forked (it has everything that the parent has open), or it ends. Things and children are numbered by the events that create them: they aren't reused. -/
inductive Ev where
  | opens (o : Nat)
  | closes (o : Nat)
  | forks (c : Nat)
  | ends (c : Nat)
  deriving DecidableEq, Repr

/-- What the parent has, and what each child that's alive has. -/
structure Family where
  parent : List Nat
  children : List (Nat × List Nat)
  deriving DecidableEq, Repr

/-- `socket`, `accept`, `pipe`, `close`, `fork`, `exit`. -/
def Family.step (f : Family) : Ev → Family
  | .opens o => { f with parent := o :: f.parent }
  | .closes o => { f with parent := f.parent.filter (· ≠ o) }
  | .forks c => { f with children := (c, f.parent) :: f.children }
  | .ends c => { f with children := f.children.filter (fun x => x.1 ≠ c) }

/-- A history. -/
def Family.run (f : Family) (l : List Ev) : Family := l.foldl Family.step f

/-- Nobody has it: the other end of the pipe sees its end, the peer of the connection sees that it's closed. -/
def Family.released (f : Family) (o : Nat) : Bool := !(f.parent.contains o) && f.children.all (fun c => !(c.2.contains o))

/-! ### Permissions -/

/-- Permissions of what's created. -/
abbrev Mode := BitVec 12

/-- `open` and `mkdir`: what's asked for, without what the mask forbids. -/
def created (asked mask : Mode) : Mode := asked &&& ~~~mask

/-- What `fopen` asks for (src/file.c:41-58 `file_write`). -/
def fileMode : Mode := 0o666

/-- What src/common.c:268-283 `create_dir` asks for. -/
def dirMode : Mode := 0o777

/-- The mask after src/daemon.c:25-108 `daemonize`, or without it. -/
def maskOf (daemon : Bool) (parent : Nat) (inherited : Mode) : Mode := if daemon ∧ parent ≠ 1 then 0 else inherited

/-! ### main -/

/-- What `main` initializes. -/
inductive Part where
  | log
  | thvar
  | incidence
  | config
  | nid
  | extension
  | http
  | relaxNg
  | vrps
  deriving DecidableEq, Repr

/-- What `main` does. -/
inductive Did where
  | init (p : Part)
  | work
  | undo (p : Part)
  deriving DecidableEq, Repr

/-- The labels at the end of src/main.c:110-176 `main`, from each one to the last. -/
inductive Label where
  | all
  | revertRelaxNg
  | revertHttp
  | revertNid
  | revertConfig
  | revertLog
  | justQuit

/-- How much of the end a label skips. -/
def Label.skips : Label → Nat
  | .all => 0
  | .revertRelaxNg => 1
  | .revertHttp => 2
  | .revertNid => 3
  | .revertConfig => 4
  | .revertLog => 5
  | .justQuit => 6

/-- From a label on. -/
def ending (l : Label) : List Did :=
  [.undo .vrps, .undo .relaxNg, .undo .http, .undo .nid, .undo .config, .undo .log].drop l.skips

/-- The initializations, and where each one goes if it fails. -/
def inits : List (Part × Label) :=
  [(.log, .justQuit), (.thvar, .revertLog), (.incidence, .revertLog), (.config, .revertLog), (.nid, .revertConfig), (.extension, .revertNid), (.http, .revertNid),
   (.relaxNg, .revertHttp), (.vrps, .revertRelaxNg)]

/-- The initializations of src/main.c:110-176 `main`, with what each one returns: what's done, the error and the label. -/
def initAll (result : Part → BitVec 32) : List (Part × Label) → List Did × Option (BitVec 32 × Label)
  | [] => ([], none)
  | (p, l) :: rest =>
    if result p ≠ 0 then ([.init p], some (result p, l))
    else (.init p :: (initAll result rest).1, (initAll result rest).2)

/-- src/main.c:110-176 `main`; `work`: the result of `fort_standalone`, `fort_server` or `print_file`. What's done, and the exit status. -/
def main (result : Part → BitVec 32) (work : BitVec 32) : List Did × BitVec 32 :=
  match initAll result inits with
  | (d, some (e, l)) => (d ++ ending l, Conf.convertToResult e)
  | (d, none) => (d ++ .work :: ending .all, Conf.convertToResult work)

/-! ### The server's threads -/

/-- The database of src/rtr/db/vrps.c, and the threads that serve routers. -/
inductive Life where
  | startThreads
  | stopThreads
  | destroyDb
  deriving DecidableEq, Repr

/-- src/main.c:30-75 `fort_server`: whether `rtr_start` succeeds, and what each `vrps_update` returns. What's done and what's returned; `none`: the loop goes on. -/
def serverLoop : List (BitVec 32) → Option (List Life × BitVec 32)
  | [] => none
  | e :: es => if e = -4 then some ([.stopThreads], e) else serverLoop es

/-- src/main.c:30-75 `fort_server` -/
def fortServer (start : BitVec 32) (updates : List (BitVec 32)) : Option (List Life × BitVec 32) :=
  if start ≠ 0 then some ([], start)
  else
    match updates with
    | [] => none
    | e :: es =>
      if e ≠ 0 then some ([.startThreads], e)
      else
        match serverLoop es with
        | none => none
        | some (l, e) => some (.startThreads :: l, e)

/-- src/main.c:110-176 `main` in server mode, once everything is initialized, up to `vrps_destroy`. -/
def serverMain (start : BitVec 32) (updates : List (BitVec 32)) : Option (List Life) :=
  (fortServer start updates).map fun x => x.1 ++ [.destroyDb]

/-! ### Object identifiers -/

/-- src/nid.c:21-40 `register_oid`: what `OBJ_txt2nid` and `OBJ_create` return; `op_crypto_err` returns -EINVAL. -/
def registerOid (txt2nid create : BitVec 32) : BitVec 32 :=
  if txt2nid = 0 then (if create = 0 then -22 else create) else txt2nid

/-- src/nid.c:47-117 `nid_init`, for this list of identifiers: the variables, in order, and the result. -/
def nidInit (txt2nid create : Nat → BitVec 32) : List Nat → List (BitVec 32) × BitVec 32
  | [] => ([], 0)
  | o :: os =>
    let nid := registerOid (txt2nid o) (create o)
    if nid = 0 then ([nid], -22)
    else (nid :: (nidInit txt2nid create os).1, (nidInit txt2nid create os).2)

/-- The identifiers, numbered as in src/nid.c:47-117 `nid_init`. -/
def oids : List Nat := [0, 1, 2, 3, 4, 5, 6, 7, 8, 9, 10]

/-! ### Downloading TALs -/

/-- src/init.c:7-40 `fetch_url` of a number of files, until one fails (src/init.c:42-84 `download_tals`, src/init.c:86-95 `download_tal0s`). A file is a name and what's
there; the paths can be built. -/
def fetchAll (max : Nat) (answer : Nat → Net.Answer) : List (Nat × Option (List (BitVec 8))) → Int × List (Nat × Option (List (BitVec 8)))
  | [] => (0, [])
  | (n, old) :: rest =>
    let f := Net.httpFetch max (answer n) old false
    if f.error ≠ 0 then (f.error, (n, f.dst) :: rest)
    else ((fetchAll max answer rest).1, (n, f.dst) :: (fetchAll max answer rest).2)

/-- The status of `exit` (the low 8 bits). -/
def exitStatus (error : Int) : Nat := (error % 256).toNat

end Verif.Boot
