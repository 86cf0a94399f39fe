import Verif.Srv.Model
import Verif.Rtr.PduProps
/-
The RTR server: notifications, the shared list of clients, addresses, the start of the server, array lists, and the main loop.
-/
namespace Verif.Srv

/-! ## C115: notifications -/

/-- C115, partial: if there's data, every client gets exactly one message, in order; if the client has agreed on a version, the router reads a Serial Notify of that version,
with the session of that version and the current serial number. (Without data nobody gets anything.) -/
theorem C115_partial (serial : BitVec 32) (s0 s1 : BitVec 16) (clients : List (Nat × Int)) :
    rtrNotify none (s0, s1) clients = [] ∧
    (rtrNotify (some serial) (s0, s1) clients).map (·.1) = clients.map (·.1) ∧
    ∀ (i : Nat) (fd : Nat) (version : Int), clients[i]? = some (fd, version) → version = 0 ∨ version = 1 →
      ∃ call, (rtrNotify (some serial) (s0, s1) clients)[i]? = some (fd, call) ∧
        Rtr.Rfc.decode call.bytes = some ⟨version.toNat, .serialNotify (if version = 1 then s1 else s0).toNat serial.toNat⟩ := by
  refine ⟨rfl, ?_, ?_⟩
  · simp [rtrNotify]
  · intro i fd version hi hv
    refine ⟨_, by simp only [rtrNotify, List.getElem?_map, hi, Option.map_some]; rfl, ?_⟩
    rcases hv with rfl | rfl
    · exact Rtr.C13_roundtrip (.serialNotify 0 s0 serial) (Or.inl rfl)
    · exact Rtr.C13_roundtrip (.serialNotify 1 s1 serial) (Or.inr rfl)

/-- C115 is false of the program: a router that's connected and hasn't sent anything gets a message of version 255. -/
theorem C115_refuted : ∃ call, rtrNotify (some 7) (1, 2) [(4, -1)] = [(4, call)] ∧ call.bytes.head? = some 255 := ⟨_, rfl, rfl⟩

/- Non-vacuity: two clients, one of each version. -/
example : rtrNotify (some 7) (1, 2) [(4, 1), (5, 0)] = [(4, .serialNotify 1 2 7), (5, .serialNotify 0 1 7)] := rfl

/-! ## C116: the list of clients is shared -/

/-- The list of clients `l`, in a block of this capacity. -/
def Mem.of (l : List Nat) (capacity : Nat) : Mem := ⟨[some l], 0, l.length, capacity⟩

theorem share_at (l : List Nat) (capacity n i : Nat) (hi : i < l.length) :
    share (List.replicate n (true, 0)) (Mem.of l capacity) (.at 0 i) =
      some (Mem.of l capacity, if l.length ≤ i + n then .done else .at 0 (i + n), (l.drop i).take n) := by
  induction n generalizing i with
  | zero => simp [share]; omega
  | succ n ih =>
    have e : l[i]? = some l[i] := List.getElem?_eq_getElem hi
    rw [List.replicate_succ, share]
    have hs : notifyStep (Mem.of l capacity) (.at 0 i) = some (if i + 1 < l.length then .at 0 (i + 1) else .done, [l[i]]) := by
      simp [notifyStep, Mem.of, e]
      rfl
    rw [hs]
    dsimp only
    have hd : l.drop i = l[i] :: l.drop (i + 1) := List.drop_eq_getElem_cons hi
    by_cases h : i + 1 < l.length
    · rw [if_pos h, ih (i + 1) h]
      dsimp only
      rw [hd, List.take_succ_cons, List.singleton_append, show i + 1 + n = i + (n + 1) by omega]
    · rw [if_neg h]
      have : ∀ n, share (List.replicate n (true, 0)) (Mem.of l capacity) .done = some (Mem.of l capacity, .done, []) := by
        intro n
        induction n with
        | zero => rfl
        | succ n ih => rw [List.replicate_succ, share]; simp [notifyStep, ih]
      rw [this, if_pos (by omega)]
      dsimp only
      rw [hd, List.take_succ_cons, List.drop_eq_nil_of_le (by omega)]
      simp

/-- C116, partial: if no connection is accepted in the meantime, then the notification never reads invalid memory; it visits each client exactly once, in order, and ends. -/
theorem C116_partial (l : List Nat) (capacity n : Nat) :
    share (List.replicate (n + 1) (true, 0)) (Mem.of l capacity) .idle =
      some (Mem.of l capacity, if l.length ≤ n then .done else .at 0 n, l.take n) := by
  rw [List.replicate_succ, share]
  simp only [notifyStep]
  by_cases h : l.length = 0
  · have hl : l = [] := List.eq_nil_of_length_eq_zero h
    subst hl
    have : ∀ n, share (List.replicate n (true, 0)) (Mem.of [] capacity) .done = some (Mem.of [] capacity, .done, []) := by
      intro n
      induction n with
      | zero => rfl
      | succ n ih => rw [List.replicate_succ, share]; simp [notifyStep, ih]
    simp [Mem.of] at this ⊢
    rw [this]
  · have e : (Mem.of l capacity).len = l.length := rfl
    rw [e, if_neg h]
    have := share_at l capacity n 0 (by omega)
    have ea : (Mem.of l capacity).array = 0 := rfl
    rw [ea, this]
    simp

/-- C116 is false of the program: while the clients are notified, an eighth router connects; the list is moved, and the notification goes on in the memory that was freed. -/
theorem C116_refuted : share [(true, 0), (true, 0), (false, 17), (true, 0)] (Mem.of [10, 11, 12, 13, 14, 15, 16] 8) .idle = none := by
  simp [share, notifyStep, Mem.of, Mem.add]

/- Non-vacuity: seven clients. -/
example : share (List.replicate 8 (true, 0)) (Mem.of [10, 11, 12, 13, 14, 15, 16] 8) .idle = some (Mem.of [10, 11, 12, 13, 14, 15, 16] 8, .done, [10, 11, 12, 13, 14, 15, 16]) :=
  C116_partial _ _ 7

/-! ## C117: addresses -/

theorem strrchr_none (s : List (BitVec 8)) (c : BitVec 8) (h : c ∉ s) : strrchr s c = none := by
  unfold strrchr
  have : s.reverse.findIdx? (· == c) = none := by
    rw [List.findIdx?_eq_none_iff]
    intro x hx
    simp only [beq_eq_false_iff_ne]
    intro e
    exact h (e ▸ List.mem_reverse.1 hx)
  rw [this]

theorem strrchr_split (a b : List (BitVec 8)) (c : BitVec 8) (h : c ∉ b) : strrchr (a ++ c :: b) c = some a.length := by
  unfold strrchr
  have e : (a ++ c :: b).reverse = b.reverse ++ c :: a.reverse := by simp
  have : (b.reverse ++ c :: a.reverse).findIdx? (· == c) = some b.length := by
    rw [List.findIdx?_append]
    have h1 : b.reverse.findIdx? (· == c) = none := by
      rw [List.findIdx?_eq_none_iff]
      intro x hx
      simp only [beq_eq_false_iff_ne]
      intro e
      exact h (e ▸ List.mem_reverse.1 hx)
    rw [h1, List.findIdx?_cons]
    simp
  rw [e, this]
  simp

theorem mem_split_last (s : List (BitVec 8)) (c : BitVec 8) (h : c ∈ s) : ∃ a b, s = a ++ c :: b ∧ c ∉ b := by
  induction s with
  | nil => cases h
  | cons x s ih =>
    by_cases hs : c ∈ s
    · obtain ⟨a, b, e, hb⟩ := ih hs
      exact ⟨x :: a, b, by rw [e]; rfl, hb⟩
    · rcases List.mem_cons.1 h with rfl | h'
      · exact ⟨[], s, rfl, hs⟩
      · exact absurd h' hs

/-- C117: without an address the default port is used; without a `#` the whole string is the host, and the default port is used; otherwise what's before the last `#` is the host and what's after it is the port,
which can't be empty. -/
theorem C117 (port : List (BitVec 8)) :
    parseAddress none port = some (none, port) ∧
    (∀ s, 0x23#8 ∉ s → parseAddress (some s) port = some (some s, port)) ∧
    (∀ host service, 0x23#8 ∉ service → parseAddress (some (host ++ 0x23#8 :: service)) port = if service = [] then none else some (some host, service)) ∧
    (∀ s, parseAddress (some s) port = none ↔ s.getLast? = some 0x23#8) := by
  have main : ∀ host service, 0x23#8 ∉ service → parseAddress (some (host ++ 0x23#8 :: service)) port = if service = [] then none else some (some host, service) := by
    intro host service h
    simp only [parseAddress]
    rw [strrchr_split host service _ h]
    dsimp only
    cases service with
    | nil => simp
    | cons x xs => simp
  refine ⟨rfl, ?_, main, ?_⟩
  · intro s h
    simp only [parseAddress]
    rw [strrchr_none s _ h]
  · intro s
    by_cases h : 0x23#8 ∈ s
    · obtain ⟨a, b, e, hb⟩ := mem_split_last s _ h
      subst e
      rw [main a b hb]
      cases b with
      | nil => simp
      | cons x xs =>
        simp only [List.getLast?_append, List.getLast?_cons_cons]
        constructor
        · intro hc; simp at hc
        · intro hc
          exfalso
          rw [Option.or_eq_some_iff] at hc
          rcases hc with hc | ⟨hc, _⟩
          · exact hb (List.mem_of_getLast? hc)
          · simp at hc
    · simp only [parseAddress]
      rw [strrchr_none s _ h]
      constructor
      · intro hc; cases hc
      · intro hc; exact absurd (List.mem_of_getLast? hc) h

/- Non-vacuity: "::1#80" and "a#b#c". -/
example : parseAddress (some [0x3A, 0x3A, 0x31, 0x23, 0x38, 0x30]) [0x33] = some (some [0x3A, 0x3A, 0x31], [0x38, 0x30]) ∧
    parseAddress (some [0x61, 0x23, 0x62, 0x23, 0x63]) [0x33] = some (some [0x61, 0x23, 0x62], [0x63]) := by decide

/-! ## C118: the start -/

/-- The descriptors that are open after these events, given those that are open before; `none`: one that isn't open is closed. -/
def replay : List FdEv → List Nat → Option (List Nat)
  | [], fds => some fds
  | .opened fd :: evs, fds => replay evs (fds ++ [fd])
  | .closed fd :: evs, fds => if fd ∈ fds then replay evs (fds.erase fd) else none

/-- What happens for an address, with what's asked from the system: the descriptors of its sockets, if everything goes well. -/
def sockets (resolve : Resolve) (port : List (BitVec 8)) (addr : Option (List (BitVec 8))) : Option (List Nat) :=
  match parseAddress addr port with
  | none => none
  | some (host, service) =>
    match resolve host service with
    | .inl _ => none
    | .inr l => if l.all (fun s => match s with | .ready _ => true | _ => false) then some (l.filterMap (fun s => match s with | .ready fd => some fd | _ => none)) else none

/-- Errors aren't zero. -/
def Sane (resolve : Resolve) : Prop := ∀ h s, match resolve h s with
  | .inl e => e ≠ 0
  | .inr l => ∀ x ∈ l, match x with | .noSocket e => e ≠ 0 | .fails _ e => e ≠ 0 | .ready _ => True

theorem replay_append (a b : List FdEv) (fds : List Nat) : replay (a ++ b) fds = (replay a fds).bind (replay b) := by
  induction a generalizing fds with
  | nil => rfl
  | cons x a ih =>
    cases x with
    | opened fd => simp [replay, ih]
    | closed fd =>
      simp only [List.cons_append, replay, ih]
      by_cases h : fd ∈ fds
      · rw [if_pos h, if_pos h]
      · rw [if_neg h, if_neg h]; rfl

theorem replay_closeAll (fds : List Nat) : replay (fds.map .closed) fds = some [] := by
  induction fds with
  | nil => rfl
  | cons x l ih => simp [replay, ih]

theorem replay_one (fd : Nat) (fds : List Nat) : ∃ fds', replay [.opened fd, .closed fd] fds = some fds' ∧ fds'.Perm fds := by
  refine ⟨(fds ++ [fd]).erase fd, by simp [replay], ?_⟩
  have h : (fds ++ [fd]).Perm (fd :: fds) := List.perm_append_comm
  have := h.erase fd
  simpa using this

theorem replay_perm (evs : List FdEv) (a b a' : List Nat) (hp : a.Perm b) (h : replay evs a = some a') : ∃ b', replay evs b = some b' ∧ a'.Perm b' := by
  induction evs generalizing a b with
  | nil => injection h with h; subst h; exact ⟨b, rfl, hp⟩
  | cons x evs ih =>
    cases x with
    | opened fd => exact ih _ _ (hp.append_right _) h
    | closed fd =>
      simp only [replay] at h ⊢
      by_cases hm : fd ∈ a
      · rw [if_pos hm] at h
        rw [if_pos (hp.mem_iff.1 hm)]
        exact ih _ _ (hp.erase fd) h
      · rw [if_neg hm] at h; cases h

/-- The events of a socket setup leave the servers open, whatever the order of what was open. -/
theorem createServerSocket_replay (l : List Setup) (servers : List Nat) :
    ∃ fds, replay (createServerSocket l servers).2.1 servers = some fds ∧ fds.Perm (createServerSocket l servers).1 := by
  induction l generalizing servers with
  | nil => exact ⟨servers, rfl, List.Perm.refl _⟩
  | cons x l ih =>
    cases x with
    | noSocket e => exact ⟨servers, rfl, List.Perm.refl _⟩
    | fails fd e => exact replay_one fd servers
    | ready fd => exact ih (servers ++ [fd])

theorem createServerSocket_ok (l : List Setup) (servers : List Nat) (hs : ∀ x ∈ l, match x with | .noSocket e => e ≠ 0 | .fails _ e => e ≠ 0 | .ready _ => True) :
    (createServerSocket l servers).2.2 = 0 ↔ l.all (fun s => match s with | .ready _ => true | _ => false) = true := by
  induction l generalizing servers with
  | nil => simp [createServerSocket]
  | cons x l ih =>
    have hx := hs x List.mem_cons_self
    cases x with
    | noSocket e => simpa [createServerSocket] using hx
    | fails fd e => simpa [createServerSocket] using hx
    | ready fd =>
      have := ih (servers ++ [fd]) (fun y hy => hs y (List.mem_cons_of_mem _ hy))
      simpa [createServerSocket] using this

theorem createServerSocket_servers (l : List Setup) (servers : List Nat) (h : l.all (fun s => match s with | .ready _ => true | _ => false) = true) :
    (createServerSocket l servers).1 = servers ++ l.filterMap (fun s => match s with | .ready fd => some fd | _ => none) := by
  induction l generalizing servers with
  | nil => simp [createServerSocket]
  | cons x l ih =>
    cases x with
    | noSocket e => simp at h
    | fails fd e => simp at h
    | ready fd =>
      have := ih (servers ++ [fd]) (by simpa using h)
      simp [createServerSocket, this]

theorem initServerFd_spec (resolve : Resolve) (hs : Sane resolve) (port : List (BitVec 8)) (addr : Option (List (BitVec 8))) (servers : List Nat) :
    (∃ fds, replay (initServerFd resolve port addr servers).2.1 servers = some fds ∧ fds.Perm (initServerFd resolve port addr servers).1) ∧
    ((initServerFd resolve port addr servers).2.2 = 0 ↔ ∃ l, sockets resolve port addr = some l) ∧
    ∀ l, sockets resolve port addr = some l → (initServerFd resolve port addr servers).1 = servers ++ l := by
  unfold initServerFd sockets
  cases h1 : parseAddress addr port with
  | none => exact ⟨⟨servers, rfl, List.Perm.refl _⟩, by simp, by simp⟩
  | some x =>
    obtain ⟨host, service⟩ := x
    dsimp only
    have hr := hs host service
    cases h2 : resolve host service with
    | inl e =>
      rw [h2] at hr
      refine ⟨⟨servers, rfl, List.Perm.refl _⟩, ?_, by simp⟩
      simp at hr ⊢
      omega
    | inr l =>
      rw [h2] at hr
      dsimp only at hr ⊢
      refine ⟨createServerSocket_replay l servers, ?_, ?_⟩
      · rw [show ((createServerSocket l servers).2.2 : Int) = 0 ↔ (createServerSocket l servers).2.2 = 0 by omega, createServerSocket_ok l servers hr]
        by_cases ha : l.all (fun s => match s with | .ready _ => true | _ => false) = true
        · rw [if_pos ha]; simp [ha]
        · rw [if_neg ha]; simp [ha]
      · intro m hm
        by_cases ha : l.all (fun s => match s with | .ready _ => true | _ => false) = true
        · rw [if_pos ha] at hm
          injection hm with hm
          rw [createServerSocket_servers l servers ha, ← hm]
        · rw [if_neg ha] at hm; cases hm

/-- The sockets of all the addresses. -/
def allSockets (resolve : Resolve) (port : List (BitVec 8)) (addrs : List (List (BitVec 8))) : Option (List Nat) :=
  match addrs with
  | [] => sockets resolve port none
  | _ => (addrs.mapM (fun a => sockets resolve port (some a))).map List.flatten

theorem initServers_spec (resolve : Resolve) (hs : Sane resolve) (port : List (BitVec 8)) (addrs : List (List (BitVec 8))) (servers : List Nat) :
    (∃ fds, replay (initServers resolve port addrs servers).2.1 servers = some fds ∧ fds.Perm (initServers resolve port addrs servers).1) ∧
    ((initServers resolve port addrs servers).2.2 = 0 ↔ ∃ l, (addrs.mapM (fun a => sockets resolve port (some a))) = some l) ∧
    ∀ l, (addrs.mapM (fun a => sockets resolve port (some a))) = some l → (initServers resolve port addrs servers).1 = servers ++ l.flatten := by
  induction addrs generalizing servers with
  | nil => exact ⟨⟨servers, rfl, List.Perm.refl _⟩, by simp [initServers], by simp [initServers]⟩
  | cons a as ih =>
    obtain ⟨⟨fds, hf1, hf2⟩, hz, hl⟩ := initServerFd_spec resolve hs port (some a) servers
    rw [initServers]
    dsimp only
    rw [List.mapM_cons]
    by_cases he : (initServerFd resolve port (some a) servers).2.2 = 0
    · rw [if_neg (by simp [he])]
      obtain ⟨l, hl1⟩ := hz.1 he
      have hs1 := hl l hl1
      obtain ⟨⟨g, hg1, hg2⟩, iz, il⟩ := ih (initServerFd resolve port (some a) servers).1
      refine ⟨?_, ?_, ?_⟩
      · dsimp only
        rw [replay_append, hf1, Option.bind_some]
        obtain ⟨g', hg', hp⟩ := replay_perm _ _ _ _ hf2.symm hg1
        exact ⟨g', hg', hp.symm.trans hg2⟩
      · dsimp only
        rw [iz, hl1]
        cases as.mapM (fun a => sockets resolve port (some a)) <;> simp
      · dsimp only
        rw [hl1]
        intro m hm
        cases hrest : as.mapM (fun a => sockets resolve port (some a)) with
        | none => rw [hrest] at hm; simp at hm
        | some r =>
          rw [hrest] at hm
          simp at hm
          subst hm
          rw [il r hrest, hs1]
          simp
    · rw [if_pos he]
      have hn : sockets resolve port (some a) = none := by
        cases h : sockets resolve port (some a) with
        | none => rfl
        | some l => exact absurd (hz.2 ⟨l, h⟩) he
      refine ⟨⟨fds, hf1, hf2⟩, ?_, ?_⟩
      · dsimp only
        rw [hn]
        simp [he]
      · rw [hn]
        simp

theorem initServerFds_spec (resolve : Resolve) (hs : Sane resolve) (port : List (BitVec 8)) (addrs : List (List (BitVec 8))) :
    (∃ fds, replay (initServerFds resolve port addrs).2.1 [] = some fds ∧ fds.Perm (initServerFds resolve port addrs).1) ∧
    ((initServerFds resolve port addrs).2.2 = 0 ↔ ∃ l, allSockets resolve port addrs = some l) ∧
    ∀ l, allSockets resolve port addrs = some l → (initServerFds resolve port addrs).1 = l := by
  cases addrs with
  | nil => simpa [initServerFds, allSockets] using initServerFd_spec resolve hs port none []
  | cons a as =>
    obtain ⟨h1, h2, h3⟩ := initServers_spec resolve hs port (a :: as) []
    have e : initServerFds resolve port (a :: as) = initServers resolve port (a :: as) [] := by simp [initServerFds]
    rw [e]
    refine ⟨h1, ?_, ?_⟩
    · rw [h2]
      simp only [allSockets]
      cases (a :: as).mapM (fun a => sockets resolve port (some a)) <;> simp
    · intro l hl
      simp only [allSockets, Option.map_eq_some_iff] at hl
      obtain ⟨m, hm, rfl⟩ := hl
      rw [h3 m hm]; rfl

/-- C118: the server starts exactly if every address can be parsed and resolved, all of their sockets can be made to listen, and the threads can be created. Then the open descriptors are exactly those of the
listening sockets, which are all of them, in order; otherwise every descriptor that was opened has been closed, exactly once. -/
theorem C118 (resolve : Resolve) (hs : Sane resolve) (port : List (BitVec 8)) (addrs : List (List (BitVec 8))) (pool thread : Int) :
    ((rtrStart resolve port addrs pool thread).2.2 = 0 ↔ (∃ l, allSockets resolve port addrs = some l) ∧ pool = 0 ∧ thread = 0) ∧
    ((rtrStart resolve port addrs pool thread).2.2 = 0 → allSockets resolve port addrs = some (rtrStart resolve port addrs pool thread).1) ∧
    ((rtrStart resolve port addrs pool thread).2.2 ≠ 0 → (rtrStart resolve port addrs pool thread).1 = []) ∧
    ∃ fds, replay (rtrStart resolve port addrs pool thread).2.1 [] = some fds ∧ fds.Perm (rtrStart resolve port addrs pool thread).1 := by
  obtain ⟨⟨fds, hf1, hf2⟩, hz, hl⟩ := initServerFds_spec resolve hs port addrs
  unfold rtrStart
  dsimp only
  generalize initServerFds resolve port addrs = r at *
  obtain ⟨servers, evs, err⟩ := r
  dsimp only at *
  have key : (if err ≠ 0 then err else if pool ≠ 0 then pool else thread) = 0 ↔ err = 0 ∧ pool = 0 ∧ thread = 0 := by
    by_cases h1 : err = 0 <;> by_cases h2 : pool = 0 <;> simp [h1, h2]
  by_cases he : (if err ≠ 0 then err else if pool ≠ 0 then pool else thread) = 0
  · rw [if_neg (not_not.2 he)]
    obtain ⟨h1, h2, h3⟩ := key.1 he
    refine ⟨?_, ?_, ?_, ?_⟩
    · simp only [true_iff]
      exact ⟨hz.1 h1, h2, h3⟩
    · intro _
      obtain ⟨l, hl'⟩ := hz.1 h1
      rw [hl', hl l hl']
    · simp
    · exact ⟨fds, hf1, hf2⟩
  · rw [if_pos he]
    refine ⟨?_, ?_, ?_, ?_⟩
    · dsimp only
      rw [← hz, ← key]
    · intro h; exact absurd h he
    · intro _; rfl
    · refine ⟨[], ?_, List.Perm.refl _⟩
      dsimp only
      rw [replay_append, hf1, Option.bind_some]
      obtain ⟨g, hg, hp⟩ := replay_perm _ _ _ _ hf2.symm (replay_closeAll servers)
      rw [hg, List.nil_perm.1 hp]

/- Non-vacuity: two addresses; then the second one can't be bound. -/
example : rtrStart (fun h _ => if h = some [0x61] then .inr [.ready 3, .ready 4] else .inr [.ready 5]) [0x38] [[0x61], [0x62]] 0 0 = ([3, 4, 5], [.opened 3, .opened 4, .opened 5], 0) := by decide
example : rtrStart (fun h _ => if h = some [0x61] then .inr [.ready 3, .ready 4] else .inr [.fails 5 98]) [0x38] [[0x61], [0x62]] 0 0 =
    ([], [.opened 3, .opened 4, .opened 5, .closed 5, .closed 3, .closed 4], 98) := by decide

/-! ## C119: array lists -/

/-- What's true of a list that has had `l` added. -/
structure Holds (a : ArrayList α) (l : List α) : Prop where
  len : a.len = l.length
  elems : a.elems = some l
  cap : match a.array with | none => True | some x => 0 < x.length

theorem grow_gt (len capacity : Nat) (h : 0 < capacity) : len < grow len capacity := by
  fun_induction grow len capacity with
  | case1 c hc ih => exact ih (by omega)
  | case2 c hc => omega

theorem grow_ge (len capacity : Nat) : capacity ≤ grow len capacity := by
  fun_induction grow len capacity with
  | case1 c hc ih => omega
  | case2 c hc => omega

theorem add_holds (a : ArrayList α) (l : List α) (x : α) (h : Holds a l) : ∃ b, a.add x = some b ∧ Holds b (l ++ [x]) := by
  obtain ⟨arr, n⟩ := a
  have hlen := h.len
  dsimp only at hlen
  subst hlen
  have harr : ∃ A : List (Option α), allocated arr = A ∧ 0 < A.length ∧ (A.take l.length) = l.map some ∧ l.length ≤ A.length := by
    cases arr with
    | none =>
      have := h.elems
      unfold ArrayList.elems at this
      dsimp only at this
      by_cases h0 : l.length = 0
      · have : l = [] := List.eq_nil_of_length_eq_zero h0
        subst this
        exact ⟨List.replicate 8 none, rfl, by simp, rfl, by simp⟩
      · rw [if_neg h0] at this; cases this
    | some A =>
      have he := h.elems
      unfold ArrayList.elems at he
      dsimp only at he
      by_cases hc : l.length ≤ A.length ∧ (A.take l.length).all (·.isSome) = true
      · rw [if_pos hc] at he
        injection he with he
        refine ⟨A, rfl, h.cap, ?_, hc.1⟩
        have key : ∀ t : List (Option α), t.all (·.isSome) = true → (t.filterMap id).map some = t := by
          intro t
          induction t with
          | nil => intro _; rfl
          | cons y t ih =>
            intro hall
            cases y with
            | none => simp at hall
            | some y =>
              rw [List.all_cons, Bool.and_eq_true] at hall
              simp [ih hall.2]
        rw [← key _ hc.2]
        exact congrArg _ he
      · rw [if_neg hc] at he; cases he
  obtain ⟨A, hA, hpos, htake, hle⟩ := harr
  unfold ArrayList.add
  dsimp only
  rw [hA]
  have hg := grow_gt (l.length + 1) A.length hpos
  have hg2 := grow_ge (l.length + 1) A.length
  have hlen : (A ++ List.replicate (grow (l.length + 1) A.length - A.length) none).length = grow (l.length + 1) A.length := by
    simp; omega
  have hlt : l.length + 1 - 1 < (A ++ List.replicate (grow (l.length + 1) A.length - A.length) none).length := by rw [hlen]; omega
  rw [if_pos hlt]
  refine ⟨_, rfl, ?_, ?_, ?_⟩
  · simp
  · unfold ArrayList.elems
    dsimp only
    have ht : ((A ++ List.replicate (grow (l.length + 1) A.length - A.length) none).set (l.length + 1 - 1) (some x)).take (l.length + 1) = (l ++ [x]).map some := by
      rw [Nat.add_sub_cancel]
      rw [List.set_eq_take_append_cons_drop, if_pos (by simpa using hlt)]
      rw [List.take_append_of_le_length hle, htake]
      rw [List.take_append]
      simp
      exact List.take_of_length_le (by simp)
    rw [ht, if_pos]
    · simp [List.filterMap_map]
    · refine ⟨?_, by simp⟩
      rw [List.length_set, hlen]; omega
  · dsimp only
    rw [List.length_set, hlen]; omega

/-- C119: whatever is added to a new list, one element after another, is stored within the memory allocated for it; a loop visits the elements, all of them, in order. -/
theorem C119 (l : List α) : ∃ a, l.foldlM (fun a x => ArrayList.add a x) ArrayList.init = some a ∧ a.len = l.length ∧ a.elems = some l := by
  have main : ∀ (l pre : List α) (a : ArrayList α), Holds a pre → ∃ b, l.foldlM (fun a x => ArrayList.add a x) a = some b ∧ Holds b (pre ++ l) := by
    intro l
    induction l with
    | nil => intro pre a h; exact ⟨a, rfl, by simpa using h⟩
    | cons x l ih =>
      intro pre a h
      obtain ⟨b, hb, hb2⟩ := add_holds a pre x h
      obtain ⟨c, hc, hc2⟩ := ih _ b hb2
      refine ⟨c, ?_, by simpa using hc2⟩
      rw [List.foldlM_cons, hb]
      exact hc
  obtain ⟨b, hb, hh⟩ := main l [] ArrayList.init ⟨rfl, rfl, trivial⟩
  exact ⟨b, hb, by simpa using hh.len, by simpa using hh.elems⟩

/- Non-vacuity: the ninth element doesn't fit in the first block. -/
example : ((List.range 20).foldlM (fun a x => ArrayList.add a x) (ArrayList.init (α := Nat))).map (·.len) = some 20 := by
  obtain ⟨a, h, hl, _⟩ := C119 (List.range 20)
  rw [h]; simp [hl]

/-! ## C120: the main loop -/

theorem mainLoop_spec (us : List Update) :
    (mainLoop us).2 = true ∧ (∀ u ∈ us, u.error ≠ -4) ∧ (mainLoop us).1 = us.map (fun u => decide (u.error = 0 ∧ u.changed)) ∨
    (∃ pre u post, us = pre ++ u :: post ∧ u.error = -4 ∧ (∀ u ∈ pre, u.error ≠ -4) ∧ (mainLoop us).2 = false ∧
      (mainLoop us).1 = pre.map (fun u => decide (u.error = 0 ∧ u.changed)) ++ [false]) := by
  induction us with
  | nil => left; simp [mainLoop]
  | cons u us ih =>
    rw [mainLoop]
    by_cases h : u.error = -4
    · right
      exact ⟨[], u, us, rfl, h, by simp, by rw [if_pos h], by rw [if_pos h]; rfl⟩
    · rw [if_neg h]
      rcases ih with ⟨h1, h2, h3⟩ | ⟨pre, v, post, e, h1, h2, h3, h4⟩
      · left
        refine ⟨h1, ?_, ?_⟩
        · intro w hw
          rcases List.mem_cons.1 hw with rfl | hw
          · exact h
          · exact h2 w hw
        · simp [h3]
      · right
        refine ⟨u :: pre, v, post, by rw [e]; rfl, h1, ?_, h3, ?_⟩
        · intro w hw
          rcases List.mem_cons.1 hw with rfl | hw
          · exact h
          · exact h2 w hw
        · simp [h4]

/-- C120: if the first validation fails, the program ends, and nobody is notified. Otherwise there's a notification after it, and after each of the next ones that succeeds with changes, and only then; a validation that
fails doesn't end the program, except if it was interrupted. -/
theorem C120 (us : List Update) :
    (∀ u us', us = u :: us' → u.error ≠ 0 → fortServer us = ([false], false)) ∧
    (∀ u us', us = u :: us' → u.error = 0 → (∀ v ∈ us', v.error ≠ -4) →
      fortServer us = (true :: us'.map (fun v => decide (v.error = 0 ∧ v.changed)), true)) ∧
    (∀ u pre v post, us = u :: (pre ++ v :: post) → u.error = 0 → (∀ w ∈ pre, w.error ≠ -4) → v.error = -4 →
      fortServer us = (true :: (pre.map (fun v => decide (v.error = 0 ∧ v.changed)) ++ [false]), false)) := by
  have e1 : ∀ us', (∀ v ∈ us', v.error ≠ -4) → mainLoop us' = (us'.map (fun v => decide (v.error = 0 ∧ v.changed)), true) := by
    intro us' h
    rcases mainLoop_spec us' with ⟨h1, _, h3⟩ | ⟨pre, v, post, e, h1, _⟩
    · rw [← h3, ← h1]
    · exact absurd h1 (h v (by rw [e]; simp))
  have e2 : ∀ (pre : List Update) v post, (∀ w ∈ pre, w.error ≠ -4) → v.error = -4 →
      mainLoop (pre ++ v :: post) = (pre.map (fun v => decide (v.error = 0 ∧ v.changed)) ++ [false], false) := by
    intro pre v post hp hv
    induction pre with
    | nil => simp [mainLoop, hv]
    | cons w pre ih =>
      have := ih (fun x hx => hp x (List.mem_cons_of_mem _ hx))
      rw [List.cons_append, mainLoop, if_neg (hp w List.mem_cons_self), this]
      simp
  refine ⟨?_, ?_, ?_⟩
  · rintro u us' rfl h
    rw [fortServer, if_pos h]
  · rintro u us' rfl h hv
    rw [fortServer, if_neg (not_not.2 h), e1 us' hv]
  · rintro u pre v post rfl h hp hv
    rw [fortServer, if_neg (not_not.2 h), e2 pre v post hp hv]

example : fortServer [⟨0, true⟩, ⟨0, false⟩, ⟨-22, true⟩, ⟨0, true⟩, ⟨-4, true⟩, ⟨0, true⟩] = ([true, false, false, true, false], false) := by decide

end Verif.Srv
