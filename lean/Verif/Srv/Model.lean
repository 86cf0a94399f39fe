import Verif.Rtr.ModelPdu
/-
The thread of the RTR server: listening sockets, connections and requests (src/rtr/rtr.c).

What the system answers (`poll`, `accept`, `fcntl`, `pdustream_next`) is an argument. What the thread does that others can notice is a list of actions, in order; the
second part of the model interleaves them with those of the threads that handle the requests, and with the rest of the program.
`unsigned int` is a natural number. Logging isn't modelled.
-/
namespace Verif.Srv

/-! ## Array lists -/

/-- `struct name` of src/data_structure/array_list.h:7-15. `array = none`: NULL. Slots that weren't written are `none`; there are `capacity` slots. -/
structure ArrayList (α : Type) where
  array : Option (List (Option α))
  len : Nat

/-- src/data_structure/array_list.h:22-28 `name##_init` -/
def ArrayList.init : ArrayList α := ⟨none, 0⟩

/-- The loop of src/data_structure/array_list.h:41-60 `name##_add`: the new capacity. (Sizes don't overflow. A capacity of zero would be an endless loop; it can't be.) -/
def grow (len capacity : Nat) : Nat :=
  if h : capacity ≤ len ∧ 0 < capacity then grow len (capacity * 2) else capacity
termination_by len + 1 - capacity
decreasing_by omega

/-- The first allocation in src/data_structure/array_list.h:41-60 `name##_add`, if the array is NULL. -/
def allocated (array : Option (List (Option α))) : List (Option α) :=
  match array with
  | none => List.replicate 8 none
  | some a => a

/-- src/data_structure/array_list.h:41-60 `name##_add`. `none`: a write out of bounds. -/
def ArrayList.add (l : ArrayList α) (elem : α) : Option (ArrayList α) :=
  let array := allocated l.array
  let len := l.len + 1
  let array := array ++ List.replicate (grow len array.length - array.length) none
  if len - 1 < array.length then some ⟨some (array.set (len - 1) (some elem)), len⟩ else none

/-- What a loop on the list (src/data_structure/array_list.h:65-69 `ARRAYLIST_FOREACH`) visits. `none`: it reads out of bounds, or what wasn't written. -/
def ArrayList.elems (l : ArrayList α) : Option (List α) :=
  match l.array with
  | none => if l.len = 0 then some [] else none
  | some a => if l.len ≤ a.length ∧ (a.take l.len).all (·.isSome) then some ((a.take l.len).filterMap id) else none

/-! ## Addresses -/

/-- `strrchr(s, c)`: the index of the last one. -/
def strrchr (s : List (BitVec 8)) (c : BitVec 8) : Option Nat :=
  match s.reverse.findIdx? (· == c) with
  | none => none
  | some k => some (s.length - 1 - k)

/-- src/rtr/rtr.c:70-107 `parse_address`: address and port. `none` is the error. -/
def parseAddress (full : Option (List (BitVec 8))) (defaultPort : List (BitVec 8)) : Option (Option (List (BitVec 8)) × List (BitVec 8)) :=
  match full with
  | none => some (none, defaultPort)
  | some s =>
    match strrchr s 0x23#8 with
    | none => some (some s, defaultPort)
    | some ptr =>
      if s[ptr + 1]? = none then none
      else some (some (s.take (s.length - (s.drop ptr).length)), s.drop (ptr + 1))

/-! ## Start -/

/-- How the setup of a socket ends, for one of the addresses `getaddrinfo` returned: `socket` fails; one of the calls after it fails; or the socket is listening. -/
inductive Setup where
  | noSocket (errno : Nat)
  | fails (fd errno : Nat)
  | ready (fd : Nat)
  deriving DecidableEq, Repr

/-- What the descriptors of listening sockets go through. -/
inductive FdEv where
  | opened (fd : Nat)
  | closed (fd : Nat)
  deriving DecidableEq, Repr

/-- src/rtr/rtr.c:212-285 `create_server_socket`, after `getaddrinfo`: the servers so far, what happened, and the error. -/
def createServerSocket : List Setup → List Nat → List Nat × List FdEv × Nat
  | [], servers => (servers, [], 0)
  | .noSocket e :: _, servers => (servers, [], e)
  | .fails fd e :: _, servers => (servers, [.opened fd, .closed fd], e)
  | .ready fd :: l, servers =>
    let (servers, evs, err) := createServerSocket l (servers ++ [fd])
    (servers, .opened fd :: evs, err)

/-- What `getaddrinfo` answers for a host and a port: an error, or how the setup of the sockets goes. -/
abbrev Resolve := Option (List (BitVec 8)) → List (BitVec 8) → Nat ⊕ List Setup

/-- src/rtr/rtr.c:287-307 `init_server_fd`. EINVAL: what `pr_op_err` returns is `-EINVAL`. -/
def initServerFd (resolve : Resolve) (port : List (BitVec 8)) (addr : Option (List (BitVec 8))) (servers : List Nat) : List Nat × List FdEv × Int :=
  match parseAddress addr port with
  | none => (servers, [], -22)
  | some (host, service) =>
    match resolve host service with
    | .inl e => (servers, [], e)
    | .inr l =>
      let (servers, evs, err) := createServerSocket l servers
      (servers, evs, err)

/-- The loop of src/rtr/rtr.c:309-330 `init_server_fds`. -/
def initServers (resolve : Resolve) (port : List (BitVec 8)) : List (List (BitVec 8)) → List Nat → List Nat × List FdEv × Int
  | [], servers => (servers, [], 0)
  | a :: as, servers =>
    let (servers, evs, err) := initServerFd resolve port (some a) servers
    if err ≠ 0 then (servers, evs, err)
    else
      let (servers, evs', err) := initServers resolve port as servers
      (servers, evs ++ evs', err)

/-- src/rtr/rtr.c:309-330 `init_server_fds` -/
def initServerFds (resolve : Resolve) (port : List (BitVec 8)) (addrs : List (List (BitVec 8))) : List Nat × List FdEv × Int :=
  if addrs.length = 0 then initServerFd resolve port none [] else initServers resolve port addrs []

/-- src/rtr/rtr.c:676-705 `rtr_start`: `pool` and `thread` are what `thread_pool_create` and `pthread_create` return; `destroy_db` (src/rtr/rtr.c:57-62) closes the sockets. -/
def rtrStart (resolve : Resolve) (port : List (BitVec 8)) (addrs : List (List (BitVec 8))) (pool thread : Int) : List Nat × List FdEv × Int :=
  let (servers, evs, err) := initServerFds resolve port addrs
  let err := if err ≠ 0 then err else if pool ≠ 0 then pool else thread
  if err ≠ 0 then ([], evs ++ servers.map .closed, err) else (servers, evs, 0)

/-! ## A round of the server's thread -/

/-- The bits of `revents` the program looks at. -/
structure Revents where
  hup : Bool := false
  err : Bool := false
  nval : Bool := false
  pin : Bool := false
  deriving DecidableEq, Repr

/-- `revents & (POLLHUP | POLLERR | POLLNVAL)` -/
def Revents.bad (r : Revents) : Bool := r.hup || r.err || r.nval

/-- What `poll` returns. -/
inductive PollRes where
  | timeout
  | ready
  | error (errno : Nat)
  deriving DecidableEq, Repr

/-- `accept`: a descriptor (and whether `set_nonblock` succeeds), or an error. -/
inductive AcceptRes where
  | fd (fd : Nat) (nonblock : Bool)
  | error (errno : Nat)
  deriving DecidableEq, Repr

/-- What src/rtr/pdu_stream.c:503-615 `pdustream_next` returns: false; true without a request; a request. -/
inductive NextRes where
  | down
  | nothing
  | request
  deriving DecidableEq, Repr

/-- What the system says in a round: is the program stopping, `poll`, its `revents` (by position in the array), `accept` (by server), `pdustream_next` (by client). -/
structure Round where
  stop : Bool
  poll : PollRes
  revents : Nat → Revents
  accept : Nat → AcceptRes
  next : Nat → NextRes

/-- A client. `conn` says which connection it is (the program doesn't have it; descriptors are reused, connections aren't). -/
structure Client where
  fd : Nat
  conn : Nat
  deriving DecidableEq, Repr

/-- The servers' descriptors (`none`: -1), the clients, and how many connections there have been. -/
structure St where
  servers : List (Option Nat)
  clients : List Client
  next : Nat
  deriving DecidableEq, Repr

/-- Who has a descriptor: the i-th listening socket, a connection, or something else in the program (a file, a download). -/
inductive Owner where
  | listen (i : Nat)
  | conn (c : Nat)
  | other (k : Nat)
  deriving DecidableEq, Repr

/-- What the thread does that others notice. (`owner` and `conn` are only for the theorems: the program gives the descriptor.) -/
inductive Act where
  | accept (fd conn : Nat)
  | close (fd : Nat) (owner : Owner)
  /-- `thread_pool_push` of a request that has the descriptor `fd`. -/
  | push (fd conn : Nat)
  deriving DecidableEq, Repr

inductive Verdict where
  | success
  | clientError
  | serverError
  deriving DecidableEq, Repr

/-- Errors that the manual of `accept` says are to be retried: ENETDOWN, EPROTO, ENOPROTOOPT, EHOSTDOWN, ENONET, EHOSTUNREACH, EOPNOTSUPP, ENETUNREACH; and EAGAIN. -/
def retryErrors : List Nat := [100, 71, 92, 112, 64, 113, 95, 101, 11]

/-- src/rtr/rtr.c:374-415 `handle_accept_result`, if `accept` failed. -/
def handleAcceptResult (err : Nat) : Verdict := if err ∈ retryErrors then .clientError else .serverError

/-- The variables of src/rtr/rtr.c:560-658 `fddb_poll`: the descriptors of `pollfds`, and the clients; and what was done. -/
structure Loop where
  pollfds : List (Option Nat)
  clients : List Client
  next : Nat
  acts : List Act

/-- src/rtr/rtr.c:417-448 `accept_new_client` -/
def acceptNewClient (r : Round) (i : Nat) (l : Loop) : Loop × Verdict :=
  match r.accept i with
  | .error e => (l, handleAcceptResult e)
  | .fd fd nonblock =>
    let conn := l.next
    if nonblock then (⟨l.pollfds, l.clients ++ [⟨fd, conn⟩], conn + 1, l.acts ++ [.accept fd conn]⟩, .success)
    else (⟨l.pollfds, l.clients, conn + 1, l.acts ++ [.accept fd conn, .close fd (.conn conn)]⟩, .clientError)

/-- "New connections" in src/rtr/rtr.c:560-658 `fddb_poll`: `n` servers are left, from index `i`. `none`: out of bounds. -/
def acceptLoop (r : Round) : Nat → Nat → Loop → Option Loop
  | 0, _, l => some l
  | n + 1, i, l =>
    match l.pollfds[i]? with
    | none => none
    | some none => acceptLoop r n (i + 1) l
    | some (some _) =>
      if (r.revents i).bad then acceptLoop r n (i + 1) { l with pollfds := l.pollfds.set i none }
      else if (r.revents i).pin then
        let (l, v) := acceptNewClient r i l
        if v = .serverError then acceptLoop r n (i + 1) { l with pollfds := l.pollfds.set i none }
        else acceptLoop r n (i + 1) l
      else acceptLoop r n (i + 1) l

/-- "Client requests" in src/rtr/rtr.c:560-658 `fddb_poll`, with src/rtr/rtr.c:450-464 `__handle_client_request`: `n` clients are left, from index `i`. -/
def clientLoop (r : Round) (nservers : Nat) : Nat → Nat → Loop → Option Loop
  | 0, _, l => some l
  | n + 1, i, l =>
    if nservers + i < l.pollfds.length then
      if (r.revents (nservers + i)).bad then clientLoop r nservers n (i + 1) { l with pollfds := l.pollfds.set (nservers + i) none }
      else if (r.revents (nservers + i)).pin then
        match l.clients[i]? with
        | none => none
        | some c =>
          match r.next i with
          | .down => clientLoop r nservers n (i + 1) { l with pollfds := l.pollfds.set (nservers + i) none }
          | .nothing => clientLoop r nservers n (i + 1) l
          | .request => clientLoop r nservers n (i + 1) { l with acts := l.acts ++ [.push c.fd c.conn] }
      else clientLoop r nservers n (i + 1) l
    else none

/-- The first loop of src/rtr/rtr.c:523-558 `apply_pollfds`: `n` servers are left. -/
def applyServers (pollfds : List (Option Nat)) : Nat → Nat → List (Option Nat) → List Act → Option (List (Option Nat) × List Act)
  | 0, _, servers, acts => some (servers, acts)
  | n + 1, i, servers, acts =>
    match pollfds[i]?, servers[i]? with
    | some none, some (some fd) => applyServers pollfds n (i + 1) (servers.set i none) (acts ++ [.close fd (.listen i)])
    | some _, some _ => applyServers pollfds n (i + 1) servers acts
    | _, _ => none

/-- The second loop of src/rtr/rtr.c:523-558 `apply_pollfds`: `n` clients are left; the array has NULLs (`none`). A client's descriptor is never -1. -/
def applyClients (pollfds : List (Option Nat)) (nservers : Nat) : Nat → Nat → List (Option Client) → List Act → Option (List (Option Client) × List Act)
  | 0, _, clients, acts => some (clients, acts)
  | n + 1, i, clients, acts =>
    match pollfds[nservers + i]?, clients[i]? with
    | some none, some (some c) => applyClients pollfds nservers n (i + 1) (clients.set i none) (acts ++ [.close c.fd (.conn c.conn)])
    | some (some _), some (some _) => applyClients pollfds nservers n (i + 1) clients acts
    | _, _ => none

/-- The loop of src/rtr/rtr.c:507-521 `delete_dead_clients`: `n` elements are left. `none`: out of bounds. -/
def deleteDeadLoop : Nat → Nat → Nat → List (Option Client) → Option (Nat × List (Option Client))
  | 0, _, dst, a => some (dst, a)
  | n + 1, src, dst, a =>
    match a[src]? with
    | none => none
    | some none => deleteDeadLoop n (src + 1) dst a
    | some (some c) => if dst < a.length then deleteDeadLoop n (src + 1) (dst + 1) (a.set dst (some c)) else none

/-- src/rtr/rtr.c:507-521 `delete_dead_clients`: the first `len` elements. `none`: out of bounds, or a NULL among them. -/
def deleteDeadClients (a : List (Option Client)) : Option (List Client) :=
  match deleteDeadLoop a.length 0 0 a with
  | none => none
  | some (len, a) => if none ∈ a.take len then none else some ((a.take len).filterMap id)

/-- How a round ends. -/
inductive RoundRes where
  /-- PV_CONTINUE or PV_RETRY: there will be another round. -/
  | more (st : St) (acts : List Act)
  /-- PV_STOP: the thread ends. -/
  | stop
  /-- The program terminates (`enomem_panic`, `pr_crit`). -/
  | abort
  /-- A memory error. -/
  | ub
  deriving DecidableEq, Repr

/-- src/rtr/rtr.c:560-658 `fddb_poll` after `poll` returned neither zero nor one of the errors that are handled. -/
def pollRest (r : Round) (st : St) : RoundRes :=
  let nservers := st.servers.length
  let pollfds := st.servers ++ st.clients.map (fun c => some c.fd)
  let nclients := st.clients.length
  match acceptLoop r nservers 0 ⟨pollfds, st.clients, st.next, []⟩ with
  | none => .ub
  | some l =>
    match clientLoop r nservers nclients 0 l with
    | none => .ub
    | some l =>
      match applyServers l.pollfds nservers 0 st.servers l.acts with
      | none => .ub
      | some (servers, acts) =>
        match applyClients l.pollfds nservers nclients 0 (l.clients.map some) acts with
        | none => .ub
        | some (clients, acts) =>
          match deleteDeadClients clients with
          | none => .ub
          | some clients => .more ⟨servers, clients, l.next⟩ acts

/-- src/rtr/rtr.c:560-658 `fddb_poll`. EINTR 4, ENOMEM 12, EAGAIN 11, EFAULT 14, EINVAL 22; after any other error it goes on, with `revents` as initialised. -/
def fddbPoll (r : Round) (st : St) : RoundRes :=
  if r.stop then .stop
  else
    match r.poll with
    | .timeout => .more st []
    | .ready => pollRest r st
    | .error e =>
      if e = 4 then .stop
      else if e = 12 then .abort
      else if e = 11 then .more st []
      else if e = 14 ∨ e = 22 then .abort
      else pollRest { r with revents := fun _ => {} } st

/-- src/rtr/rtr.c:660-674 `server_cb`: what the thread does in these rounds, the state it leaves, and whether it's still running. `none`: the program terminated. -/
def serverCb : List Round → St → Option (St × List Act × Bool)
  | [], st => some (st, [], true)
  | r :: rs, st =>
    match fddbPoll r st with
    | .more st acts =>
      match serverCb rs st with
      | none => none
      | some (st, acts', b) => some (st, acts ++ acts', b)
    | .stop => some (st, [], false)
    | .abort => none
    | .ub => none

/-- src/rtr/rtr.c:57-62 `destroy_db`: the listening sockets that are open, and the clients. -/
def destroyDb (st : St) : List Act :=
  (st.servers.zipIdx.filterMap (fun (fd, i) => fd.map (fun fd => .close fd (.listen i)))) ++ st.clients.map (fun c => .close c.fd (.conn c.conn))

/-! ## All the threads -/

/-- A request, and which one it is (the order in which they were pushed). -/
structure Req where
  id : Nat
  fd : Nat
  conn : Nat
  deriving DecidableEq, Repr

/-- The process: the table of descriptors; the requests waiting and being handled; and the messages that were sent, with who got it (`none`: it's lost, EBADF), the first being the oldest. -/
structure K where
  table : Nat → Option Owner
  queue : List Req
  running : List Req
  pushed : Nat
  log : List (Req × Option Owner)

/-- Who does something: the server's thread, its next action; a thread of the pool takes the first request, sends a message of one of the responses (src/rtr/rtr.c:332-354 `handle_client_request`), or ends with
one; the rest of the program opens or closes a file. -/
inductive Choice where
  | server
  | take
  | send (k : Nat)
  | finish (k : Nat)
  | openOther (fd k : Nat)
  | closeOther (fd k : Nat)
  deriving DecidableEq, Repr

def K.setFd (k : K) (fd : Nat) (o : Option Owner) : K := { k with table := fun f => if f = fd then o else k.table f }

/-- An action of the server's thread. `none`: it can't be (the system doesn't give a descriptor that's in use). -/
def K.act (k : K) : Act → Option K
  | .accept fd conn => if k.table fd = none then some (k.setFd fd (some (.conn conn))) else none
  | .close fd _ => some (k.setFd fd none)
  | .push fd conn => some { k with queue := k.queue ++ [⟨k.pushed, fd, conn⟩], pushed := k.pushed + 1 }

/-- A step of any thread; `threads` is the number of threads of the pool. `none`: it can't be. -/
def step (threads : Nat) (acts : List Act) (k : K) : Choice → Option (List Act × K)
  | .server =>
    match acts with
    | [] => none
    | a :: acts => (k.act a).map (fun k => (acts, k))
  | .take =>
    match k.queue with
    | [] => none
    | r :: q => if k.running.length < threads then some (acts, { k with queue := q, running := k.running ++ [r] }) else none
  | .send i =>
    match k.running[i]? with
    | none => none
    | some r => some (acts, { k with log := k.log ++ [(r, k.table r.fd)] })
  | .finish i => if i < k.running.length then some (acts, { k with running := k.running.eraseIdx i }) else none
  | .openOther fd o => if k.table fd = none then some (acts, k.setFd fd (some (.other o))) else none
  | .closeOther fd o => if k.table fd = some (.other o) then some (acts, k.setFd fd none) else none

/-- An execution: the choices, one by one. -/
def run (threads : Nat) : List Choice → List Act → K → Option (List Act × K)
  | [], acts, k => some (acts, k)
  | c :: cs, acts, k =>
    match step threads acts k c with
    | none => none
    | some (acts, k) => run threads cs acts k

/-- Before the first round: only the listening sockets. -/
def K.init (servers : List Nat) : K where
  table fd := (servers.findIdx? (· == fd)).map .listen
  queue := []
  running := []
  pushed := 0
  log := []

/-! ## Notifications -/

/-- src/rtr/rtr.c:723-748 `rtr_notify`: what's sent to each client (descriptor and call), given its version (`rtr_version`, -1 if it hasn't said anything) and the last serial number (`none`: there's no data).
`send_serial_notify_pdu`'s version is a `uint8_t`; src/rtr/db/vrps.c:495-505 `get_current_session_id`. -/
def rtrNotify (serial : Option (BitVec 32)) (sessions : BitVec 16 × BitVec 16) (clients : List (Nat × Int)) : List (Nat × Rtr.SendCall) :=
  match serial with
  | none => []
  | some serial =>
    clients.map fun c =>
      let version := BitVec.ofInt 8 c.2
      (c.1, .serialNotify version (if version = 1 then sessions.2 else sessions.1) serial)

/-- What `vrps_update` returns, and whether the data changed. -/
structure Update where
  error : Int
  changed : Bool
  deriving DecidableEq, Repr

/-- The loop of src/main.c:30-75 `fort_server`, for these updates: after which of them there's a notification; and whether it goes on. -/
def mainLoop : List Update → List Bool × Bool
  | [] => ([], true)
  | u :: us =>
    if u.error = -4 then ([false], false)
    else
      let (l, b) := mainLoop us
      (decide (u.error = 0 ∧ u.changed) :: l, b)

/-- src/main.c:30-75 `fort_server`, after `rtr_start`. -/
def fortServer : List Update → List Bool × Bool
  | [] => ([], true)
  | u :: us =>
    if u.error ≠ 0 then ([false], false)
    else
      let (l, b) := mainLoop us
      (true :: l, b)

/-! ## The list of clients, shared -/

/-- The list of clients as memory: blocks (`none`: freed), the current one, its length. -/
structure Mem where
  blocks : List (Option (List Nat))
  array : Nat
  len : Nat
  capacity : Nat
  deriving DecidableEq, Repr

/-- The thread that notifies: it hasn't the lock; it's at this element of this block; it's done. -/
inductive Notifier where
  | idle
  | at (block index : Nat)
  | done
  deriving DecidableEq, Repr

/-- `client_arraylist_add(&clients, &client)` in `accept_new_client`, which doesn't have the lock; src/data_structure/array_list.h:41-60 `name##_add`, with `realloc` moving the block. (One step is enough
for what's shown.) -/
def Mem.add (m : Mem) (fd : Nat) : Mem :=
  let len := m.len + 1
  let old := (m.blocks[m.array]?.join).getD []
  if m.capacity ≤ len then
    { blocks := m.blocks.set m.array none ++ [some (old ++ [fd])], array := m.blocks.length, len := len, capacity := grow len m.capacity }
  else { m with blocks := m.blocks.set m.array (some (old ++ [fd])), len := len }

/-- A step of src/rtr/rtr.c:723-748 `rtr_notify`: the first element, or the next one. `none`: it reads memory that was freed. -/
def notifyStep (m : Mem) : Notifier → Option (Notifier × List Nat)
  | .idle => some (if m.len = 0 then .done else .at m.array 0, [])
  | .at b i =>
    match m.blocks[b]?.join with
    | none => none
    | some l =>
      match l[i]? with
      | none => none
      | some fd => some (if i + 1 < m.len then .at b (i + 1) else .done, [fd])
  | .done => some (.done, [])

/-- An interleaving of both threads: `true` is a step of the notifier, `false` is a new client. -/
def share : List (Bool × Nat) → Mem → Notifier → Option (Mem × Notifier × List Nat)
  | [], m, p => some (m, p, [])
  | (true, _) :: cs, m, p =>
    match notifyStep m p with
    | none => none
    | some (p, l) =>
      match share cs m p with
      | none => none
      | some (m, p, l') => some (m, p, l ++ l')
  | (false, fd) :: cs, m, p => share cs (m.add fd) p

end Verif.Srv
