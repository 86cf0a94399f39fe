/-
The database of the RTR server, shared by the thread that validates and by those that answer routers: src/rtr/db/vrps.c. What the tables and the deltas contain is in `Verif.Rtr`; here are the
threads' steps, the lock, and which objects are allocated.

Simplifications: `pthread_rwlock_rdlock` does not fail (EAGAIN: too many readers); `pthread_rwlock_wrlock` waits until there are no readers, and is not preferred over new readers (the default
of glibc); the history's capacity does not change. A client that already has the last serial is treated as one that asks for the last
0 deltas. In `vrps_foreach_delta_since`, a PDU that cannot be sent ends the loop over the VRPs only, and the router keys are tried; here, it ends both.
-/
namespace Verif.Db
variable {α : Type}

/-- A table of VRPs and router keys (`struct db_table`), or a delta (`struct deltas`). -/
inductive Obj where
  | tab (n : Nat)
  | dl (n : Nat)
  deriving DecidableEq, Repr

/-- What a thread of the RTR server is asked for: everything (src/rtr/db/vrps.c:291-311 `vrps_foreach_base`), or the last `n` deltas (src/rtr/db/vrps.c:388-474 `vrps_foreach_delta_since`). -/
inductive Query where
  | base
  | since (n : Nat)
  deriving DecidableEq, Repr

/-- Where a thread of the RTR server is. `sent` is what was handed to the router. -/
inductive Reader (α : Type) where
  | idle
  /-- at `rwlock_read_lock` -/
  | waiting (q : Query)
  /-- in `db_table_foreach_roa` -/
  | roas (sent : List α)
  /-- in `db_table_foreach_router_key`: `n` were sent -/
  | keys (n : Nat) (sent : List α)
  /-- in `darray_foreach_since`: `n` deltas are left; the others were visited -/
  | collect (n : Nat) (got : List Nat)
  /-- in the loops over `filtered_lists`, which are the thread's own -/
  | rows (left sent : List α)
  /-- at `rwlock_unlock`; what was sent, if nothing failed -/
  | leaving (r : Option (List α))

/-- It has the lock. -/
def Reader.holds : Reader α → Bool
  | .idle => false
  | .waiting _ => false
  | _ => true

/-- Where the thread that validates is, in src/rtr/db/vrps.c:180-238 `__vrps_update`. `old` is `old_base`. -/
inductive Writer where
  | idle
  /-- `slurm_apply` succeeded -/
  | built (n : Nat)
  /-- the new table is destroyed -/
  | discard (n : Nat)
  /-- at `rwlock_write_lock` -/
  | ready (n : Nat) (d : Option Nat) (old : Option Nat)
  /-- it has the lock -/
  | locked (n : Nat) (d : Option Nat) (old : Option Nat)
  /-- `state.base` and `state.serial` are set -/
  | swapped (d : Option Nat) (old : Option Nat)
  /-- at `rwlock_unlock` -/
  | added (old : Option Nat)
  /-- the lock is released -/
  | unlocked (old : Option Nat)
  /-- src/rtr/db/vrps.c:250-283 `vrps_update`: the counters are read, and logged -/
  | report
  deriving DecidableEq, Repr

structure St (α : Type) where
  /-- what is allocated -/
  live : List Obj
  /-- something was used or freed that was not allocated -/
  bad : Bool
  /-- identifies the next object -/
  next : Nat
  base : Option Nat
  /-- `state.deltas`, the oldest first -/
  hist : List Nat
  serial : Nat
  writer : Writer
  /-- somebody has the lock for writing -/
  wlocked : Bool
  readers : Nat → Reader α

/-- src/rtr/db/vrps.c:79-121 `vrps_init`. -/
def St.init : St α := ⟨[], false, 0, none, [], 0, .idle, false, fun _ => .idle⟩

/-- An object is used. -/
def St.use (s : St α) (o : Obj) : St α := { s with bad := s.bad || !decide (o ∈ s.live) }

/-- An object is freed: src/rtr/db/db_table.c:36-56 `db_table_destroy`, src/rtr/db/delta.c:72-88 `deltas_refput` (the references are never more than one). -/
def St.free (s : St α) (o : Obj) : St α := { s with bad := s.bad || !decide (o ∈ s.live), live := s.live.erase o }

/-- If it is not NULL. -/
def St.freeOpt (s : St α) (o : Option Obj) : St α :=
  match o with
  | none => s
  | some o => s.free o

/-- An object is created. -/
def St.alloc (s : St α) (o : Nat → Obj) : St α := { s with live := o s.next :: s.live, next := s.next + 1 }

def St.set (s : St α) (i : Nat) (r : Reader α) : St α := { s with readers := fun j => if j = i then r else s.readers j }

/-- src/rtr/db/deltas_array.c:44-60 `darray_add` (see `Verif.Rtr.DArray`): the oldest delta is released if there's no place. -/
def St.addDelta (cap : Nat) (s : St α) (d : Nat) : St α :=
  if s.hist.length < cap then { s with hist := s.hist ++ [d] }
  else
    match s.hist with
    | [] => { s with bad := true }
    | x :: l => { s.free (.dl x) with hist := l ++ [d] }

/-- What tables contain: VRPs and router keys; and what the filtered lists contain, given the deltas that were visited. -/
structure Content (α : Type) where
  roas : Nat → List α
  keys : Nat → List α
  filtered : List Nat → List α

/-- The steps of the thread that validates. -/
inductive WStep (cap : Nat) : St α → St α → Prop where
  /-- `perform_standalone_validation` fails -/
  | fail {s} : s.writer = .idle → WStep cap s { s with writer := .report }
  /-- it succeeds, but `slurm_apply` fails -/
  | noSlurm {s} : s.writer = .idle → WStep cap s { s.alloc .tab with writer := .discard s.next }
  /-- both succeed -/
  | built {s} : s.writer = .idle → WStep cap s { s.alloc .tab with writer := .built s.next }
  /-- There's no old table. -/
  | first {s n} : s.writer = .built n → s.base = none → WStep cap s { s with writer := .ready n none none }
  /-- `compute_deltas` finds no differences -/
  | same {s n b} : s.writer = .built n → s.base = some b → WStep cap s { (s.use (.tab b)).use (.tab n) with writer := .discard n }
  /-- it finds differences -/
  | differs {s n b} : s.writer = .built n → s.base = some b → WStep cap s { ((s.use (.tab b)).use (.tab n)).alloc .dl with writer := .ready n (some s.next) (some b) }
  | discard {s n} : s.writer = .discard n → WStep cap s { s.free (.tab n) with writer := .report }
  | lock {s n d old} : s.writer = .ready n d old → s.wlocked = false → (∀ i, (s.readers i).holds = false) → WStep cap s { s with wlocked := true, writer := .locked n d old }
  | swap {s n d old} : s.writer = .locked n d old → WStep cap s { s with base := some n, serial := s.serial + 1, writer := .swapped d old }
  | addNone {s old} : s.writer = .swapped none old → WStep cap s { s with writer := .added old }
  | add {s d old} : s.writer = .swapped (some d) old → WStep cap s { s.addDelta cap d with writer := .added old }
  | unlock {s old} : s.writer = .added old → WStep cap s { s with wlocked := false, writer := .unlocked old }
  | free {s old} : s.writer = .unlocked old → WStep cap s { s.freeOpt (old.map .tab) with writer := .report }
  | reportNone {s} : s.writer = .report → s.wlocked = false → s.base = none → WStep cap s { s with writer := .idle }
  | report {s b} : s.writer = .report → s.wlocked = false → s.base = some b → WStep cap s { s.use (.tab b) with writer := .idle }

/-- The steps of the thread that answers router `i`, but for those in which it gets a request, and those in which the router takes data. -/
inductive RStep (c : Content α) (i : Nat) : St α → St α → Prop where
  | lockNone {s q} : s.readers i = .waiting q → s.wlocked = false → s.base = none → RStep c i s (s.set i (.leaving none))
  | lockBase {s b} : s.readers i = .waiting .base → s.wlocked = false → s.base = some b → RStep c i s (s.set i (.roas []))
  | lockOld {s b n} : s.readers i = .waiting (.since n) → s.wlocked = false → s.base = some b → s.hist.length < n → RStep c i s (s.set i (.leaving none))
  | lockSince {s b n} : s.readers i = .waiting (.since n) → s.wlocked = false → s.base = some b → n ≤ s.hist.length → RStep c i s (s.set i (.collect n []))
  /-- the next of the last `n` deltas -/
  | visit {s n got d} : s.readers i = .collect (n + 1) got → s.hist[s.hist.length - (n + 1)]? = some d → RStep c i s ((s.use (.dl d)).set i (.collect n (got ++ [d])))
  | filtered {s got} : s.readers i = .collect 0 got → RStep c i s (s.set i (.rows (c.filtered got) []))
  | rowsEnd {s sent} : s.readers i = .rows [] sent → RStep c i s (s.set i (.leaving (some sent)))
  | roasEnd {s b sent} : s.readers i = .roas sent → s.base = some b → (c.roas b).length ≤ sent.length → RStep c i s ((s.use (.tab b)).set i (.keys 0 sent))
  | keysEnd {s b n sent} : s.readers i = .keys n sent → s.base = some b → (c.keys b).length ≤ n → RStep c i s ((s.use (.tab b)).set i (.leaving (some sent)))
  | unlock {s r} : s.readers i = .leaving r → RStep c i s (s.set i .idle)

/-- A router takes one more PDU: src/rtr/pdu_sender.c:51-83 `send_response`, which waits for it for as long as it takes; or this fails. -/
inductive SStep (c : Content α) (i : Nat) : St α → St α → Prop where
  | roa {s b sent x} : s.readers i = .roas sent → s.base = some b → (c.roas b)[sent.length]? = some x → SStep c i s ((s.use (.tab b)).set i (.roas (sent ++ [x])))
  | key {s b n sent x} : s.readers i = .keys n sent → s.base = some b → (c.keys b)[n]? = some x → SStep c i s ((s.use (.tab b)).set i (.keys (n + 1) (sent ++ [x])))
  | row {s x left sent} : s.readers i = .rows (x :: left) sent → SStep c i s (s.set i (.rows left (sent ++ [x])))
  | roaFails {s sent} : s.readers i = .roas sent → SStep c i s (s.set i (.leaving none))
  | keyFails {s n sent} : s.readers i = .keys n sent → SStep c i s (s.set i (.leaving none))
  | rowFails {s left sent} : s.readers i = .rows left sent → SStep c i s (s.set i (.leaving none))

/-- All steps. -/
inductive Step (cap : Nat) (c : Content α) : St α → St α → Prop where
  | writer {s s'} : WStep cap s s' → Step cap c s s'
  | reader {s s' i} : RStep c i s s' → Step cap c s s'
  | send {s s' i} : SStep c i s s' → Step cap c s s'
  | request {s i q} : s.readers i = .idle → Step cap c s (s.set i (.waiting q))

inductive Reach (cap : Nat) (c : Content α) : St α → Prop where
  | init : Reach cap c .init
  | step {s s'} : Reach cap c s → Step cap c s s' → Reach cap c s'

end Verif.Db
