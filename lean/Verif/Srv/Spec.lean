import Verif.Srv.Model
/-
Words the theorems on the server's thread are stated with.
-/
namespace Verif.Srv

/-- Errors of `accept` that aren't the listening socket's fault: the ones its manual says to retry, the connection was aborted (103), a signal (4), there are too many open files (23, 24), no memory (12, 105), a firewall (1). -/
def transient : List Nat := [100, 71, 92, 112, 64, 113, 95, 101, 11, 103, 4, 23, 24, 12, 105, 1]

/-- The listening socket `i` is given up: `poll` reports an error, or `accept` fails with an error that isn't retried. -/
def serverDown (r : Round) (i : Nat) : Bool :=
  (r.revents i).bad || ((r.revents i).pin && match r.accept i with | .error e => decide (e ∉ retryErrors) | .fd _ _ => false)

/-- The client `i` is gone: `poll` reports an error, or its stream ended or was invalid. -/
def clientDown (r : Round) (nservers i : Nat) : Bool :=
  (r.revents (nservers + i)).bad || ((r.revents (nservers + i)).pin && decide (r.next i = .down))

/-- The client `i` sent a request. -/
def asks (r : Round) (nservers i : Nat) : Bool :=
  !(r.revents (nservers + i)).bad && (r.revents (nservers + i)).pin && decide (r.next i = .request)

/-- The connections accepted, by the open listening sockets (numbered from `i`) that are ready and have no errors: descriptor, and whether it could be configured. -/
def arrivals (r : Round) (servers : List (Option Nat)) (i : Nat := 0) : List (Nat × Bool) :=
  (servers.zipIdx i).filterMap fun (s, i) =>
    if s.isSome && !(r.revents i).bad && (r.revents i).pin then match r.accept i with | .fd fd nb => some (fd, nb) | .error _ => none
    else none

/-- The new clients: the connections that could be configured; they're numbered from `next`. -/
def newcomers (next : Nat) (l : List (Nat × Bool)) : List Client := (l.zipIdx next).filterMap fun (a, c) => if a.2 then some ⟨a.1, c⟩ else none

/-- The elements that aren't down; they're numbered from `i`. -/
def survivors (down : Nat → Bool) (l : List α) (i : Nat := 0) : List α := ((l.zipIdx i).filter (fun x => !down x.2)).map (·.1)

/-- The listening sockets after a round. -/
def remaining (r : Round) (servers : List (Option Nat)) (i : Nat := 0) : List (Option Nat) :=
  (servers.zipIdx i).map fun (s, i) => if serverDown r i then none else s

/-- What's done to the connections accepted. -/
def arrivalActs (next : Nat) (l : List (Nat × Bool)) : List Act :=
  (l.zipIdx next).flatMap fun (a, c) => if a.2 then [.accept a.1 c] else [.accept a.1 c, .close a.1 (.conn c)]

/-- The requests. -/
def requestActs (r : Round) (nservers : Nat) (clients : List Client) (i : Nat := 0) : List Act :=
  (clients.zipIdx i).filterMap fun (c, i) => if asks r nservers i then some (.push c.fd c.conn) else none

/-- The listening sockets that are closed. -/
def serverCloses (r : Round) (servers : List (Option Nat)) (i : Nat := 0) : List Act :=
  (servers.zipIdx i).filterMap fun (s, i) => if serverDown r i then s.map (fun fd => .close fd (.listen i)) else none

/-- The clients that are closed. -/
def clientCloses (r : Round) (nservers : Nat) (clients : List Client) (i : Nat := 0) : List Act :=
  (clients.zipIdx i).filterMap fun (c, i) => if clientDown r nservers i then some (.close c.fd (.conn c.conn)) else none

end Verif.Srv
