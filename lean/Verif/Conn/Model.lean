import Verif.Heap.Basic
import Verif.Rtr.ModelStream
/-
Who owns what, in the RTR server: streams (src/rtr/pdu_stream.c), requests, and the tasks of the thread pool (src/thread/thread_pool.c), as src/rtr/rtr.c uses them. The bytes that the
clients send are there; what the workers respond isn't.

Simplifications: allocations don't fail; what a function allocates and releases by itself (the text of an Error Report aside) isn't modelled, nor is reading beyond the received bytes (C18); the
listening sockets, and file descriptors in general, are those of Verif/Srv. A round of `poll`, a worker's claim of a task and its end are atomic (the pool's lock, C54, and the fact that only one
thread has a pointer to a request, make them so).
-/
namespace Verif.Conn
open Verif.Heap Verif.Rtr

/-- `struct rtr_request` (src/rtr/pdu_stream.h): the structure, its `raw.bytes`, and what it contains. -/
structure Req where
  self : Heap.Id
  raw : Heap.Id
  what : Request

def Req.things (r : Req) : List Heap.Id := [r.self, r.raw]

def optReq (r : Option Req) : List Heap.Id := r.toList.flatMap Req.things

/-- src/rtr/pdu_stream.c:635-640 `rtreq_destroy`. -/
def reqDestroy (r : Req) : HM Unit := do
  use r.self
  free r.raw
  free r.self

def reqDestroyOpt : Option Req → HM Unit
  | none => pure ()
  | some r => reqDestroy r

/-- `fail` in src/rtr/pdu_stream.c:503-615 `pdustream_next`. -/
def failed (request tmp : Option Req) (raw : Option Heap.Id) : HM Unit := do
  reqDestroyOpt request
  reqDestroyOpt tmp
  freeAll raw.toList

/-- What the body of the `while` of `pdustream_next` does then: leave the loop; go to `fail`, which is done; or continue. -/
inductive Iter
  | leave (s : Stream)
  | fail
  | got (s : Stream) (r : Req)

/-- The body of the `while` of src/rtr/pdu_stream.c:503-615 `pdustream_next`. `request` is the last one that was complete. -/
def iter (s : Stream) (request : Option Req) : HM Iter := do
  if s.buf.length < 8 then return .leave s
  let raw ← new
  if (readHdr s.buf).len.toNat > 1024 then
    use raw
    failed request none (some raw)
    return .fail
  match validateVersion s.ver (readHdr s.buf).version (rawOf s.buf) with
  | .error _ =>
    use raw
    failed request none (some raw)
    return .fail
  | .ok v =>
    -- src/rtr/pdu_stream.c:459-474 `create_request`
    let self ← new
    let tmp : Req := ⟨self, raw, ⟨(readHdr s.buf).version, .reset, rawOf s.buf, false⟩⟩
    match loadPdu v (readHdr s.buf) s (rawOf s.buf) with
    | .frag v =>
      reqDestroy tmp
      return .leave { s with ver := v }
    | .fail _ _ =>
      useAll tmp.things
      failed request (some tmp) none
      return .fail
    | .pdu s' r =>
      use self
      reqDestroyOpt request
      return .got s' { tmp with what := r }
    | _ =>
      -- src/rtr/pdu_stream.c:212-225 `read_string`, printed and released by src/rtr/pdu_stream.c:360-457 `load_error_report`
      let text ← new
      use text
      free text
      failed request (some tmp) none
      return .fail

/-- The `while` of src/rtr/pdu_stream.c:503-615 `pdustream_next`; `none` if it went to `fail`. Each complete PDU has at least eight bytes; `n` is as many as there are (`loop_refines`). -/
def loop : Nat → Stream → Option Req → HM (Option (Stream × Option Req))
  | 0, s, request => return some (s, request)
  | n + 1, s, request => do
    if s.buf.length = 0 then return some (s, request)
    match ← iter s request with
    | .leave s => return some (s, request)
    | .fail => return none
    | .got s r => loop n s (some r)

/-- The last pointer to a request goes out of scope. -/
def loseReq : Option Req → HM Unit
  | none => pure ()
  | some r => do
    lose r.raw
    lose r.self

/-- src/rtr/pdu_stream.c:503-615 `pdustream_next`: `none` is `false`, that is, close the connection. `n` bounds the number of `goto again` (C67). -/
def next : Nat → Stream → List SockEv → Option Req → HM (Option (Stream × Option Req))
  | 0, s, _, request => return some (s, request)
  | n + 1, s, es, request => do
    let u := updateBuffer s es
    if u.2.2 = .error then
      loseReq request
      return none
    match ← loop u.1.buf.length u.1 request with
    | none => return none
    | some (s, request) =>
      match u.2.2 with
      | .eos => match request with
        | none => return none
        | some r =>
          use r.self
          return some (s, some { r with what := { r.what with eos := true } })
      | .wouldBlock => return some (s, request)
      | _ => next n s u.2.1 request

/-! ### The server -/

/-- `struct pdu_stream`. -/
structure Client where
  self : Heap.Id
  stream : Stream

/-- `clients`; the queue of the pool (`struct thread_pool_task` and its argument), and what the workers are at. -/
structure Server where
  clients : List Client
  queue : List (Heap.Id × Req)
  working : List (Heap.Id × Req)

def taskThings (x : Heap.Id × Req) : List Heap.Id := x.1 :: x.2.things

def Server.things (v : Server) : List Heap.Id := v.clients.map Client.self ++ v.queue.flatMap taskThings ++ v.working.flatMap taskThings

/-- What `poll` says of a client: nothing; POLLHUP, POLLERR or POLLNVAL; or POLLIN, and what `read` will find. -/
inductive Ev
  | quiet
  | down
  | input (es : List SockEv)

/-- src/rtr/rtr.c:417-448 `accept_new_client`, for each one that is accepted, with src/rtr/pdu_stream.c:43-55 `pdustream_create`. -/
def accept : Nat → List Client → HM (List Client)
  | 0, l => return l
  | n + 1, l => do accept n (l ++ [⟨← new, Stream.new⟩])

/-- src/rtr/rtr.c:450-464 `__handle_client_request`, with src/thread/thread_pool.c:387-404 `thread_pool_push`: whether the connection is to be closed; what the client and the queue become. -/
def handleClient (c : Client) (es : List SockEv) (queue : List (Heap.Id × Req)) : HM (Bool × Client × List (Heap.Id × Req)) := do
  use c.self
  match ← next (pending es + 2) c.stream es none with
  | none => return (true, c, queue)
  | some (s, none) => return (false, { c with stream := s }, queue)
  | some (s, some r) => return (false, { c with stream := s }, (← new, r) :: queue)

/-- The same, if there is something to be read. -/
def pollClient (c : Client) (ev : Ev) (queue : List (Heap.Id × Req)) : HM (Bool × Client × List (Heap.Id × Req)) :=
  match ev with
  | .quiet => pure (false, c, queue)
  | .down => pure (true, c, queue)
  | .input es => handleClient c es queue

/-- The loop over the clients of src/rtr/rtr.c:560-658 `fddb_poll`: each with whether its `pfd->fd` became -1. -/
def pollClients : List Client → List Ev → List (Heap.Id × Req) → HM (List (Bool × Client) × List (Heap.Id × Req))
  | [], _, queue => return ([], queue)
  | c :: l, evs, queue => do
    let r ← pollClient c (evs.headD .quiet) queue
    let (l, queue) ← pollClients l evs.tail r.2.2
    return ((r.1, r.2.1) :: l, queue)

/-- src/rtr/rtr.c:523-558 `apply_pollfds`, with src/rtr/pdu_stream.c:57-63 `pdustream_destroy` and src/rtr/rtr.c:507-521 `delete_dead_clients`. -/
def applyPollfds : List (Bool × Client) → HM (List Client)
  | [] => return []
  | (dead, c) :: l => do
    use c.self
    if dead then
      free c.self
      applyPollfds l
    else return c :: (← applyPollfds l)

/-- src/rtr/rtr.c:560-658 `fddb_poll`: `accepted` new connections, and what there is of the known ones. -/
def poll (accepted : Nat) (evs : List Ev) (v : Server) : HM Server := do
  let pollfds ← new
  useAll (v.clients.map Client.self)
  let fresh ← accept accepted []
  let (l, queue) ← pollClients v.clients evs v.queue
  let l ← applyPollfds l
  free pollfds
  return { v with clients := l ++ fresh, queue := queue }

/-- src/thread/thread_pool.c:175-219 `tasks_poll`: a worker claims the oldest task, if there is one. -/
def take (v : Server) : HM Server := do
  match v.queue.getLast? with
  | none => return v
  | some x =>
    use x.1
    return { v with queue := v.queue.dropLast, working := x :: v.working }

/-- src/rtr/rtr.c:332-354 `handle_client_request` ends, and with it the task. -/
def finishTask (x : Heap.Id × Req) : HM Unit := do
  useAll x.2.things
  reqDestroy x.2
  use x.1
  free x.1

/-- src/thread/thread_pool.c:175-219 `tasks_poll`: the `i`th worker ends what it was at. -/
def finish (i : Nat) (v : Server) : HM Server := do
  match v.working[i]? with
  | none => return v
  | some x =>
    finishTask x
    return { v with working := v.working.eraseIdx i }

/-- What happens. -/
inductive Step
  | poll (accepted : Nat) (evs : List Ev)
  | take
  | finish (i : Nat)
  | notify      -- src/rtr/rtr.c:723-748 `rtr_notify`

def step (v : Server) : Step → HM Server
  | .poll accepted evs => poll accepted evs v
  | .take => take v
  | .finish i => finish i v
  | .notify => do
    useAll (v.clients.map Client.self)
    return v

def run : List Step → Server → HM Server
  | [], v => return v
  | x :: l, v => do run l (← step v x)

/-- src/rtr/rtr.c:676-705 `rtr_start`, once the sockets are there. -/
def Server.init : Server := ⟨[], [], []⟩

/-- The queue, in src/thread/thread_pool.c:350-381 `thread_pool_destroy`: tasks are released; the requests they have aren't. -/
def dropQueue : List (Heap.Id × Req) → HM Unit
  | [] => pure ()
  | (task, r) :: l => do
    free task
    loseReq (some r)
    dropQueue l

def finishAll : List (Heap.Id × Req) → HM Unit
  | [] => pure ()
  | x :: l => do
    finishTask x
    finishAll l

/-- src/rtr/rtr.c:707-721 `rtr_stop`, with src/thread/thread_pool.c:350-381 `thread_pool_destroy` and src/rtr/rtr.c:57-62 `destroy_db`. -/
def stop (v : Server) : HM Unit := do
  dropQueue v.queue
  finishAll v.working
  freeAll (v.clients.map Client.self)

end Verif.Conn
