import Verif.Srv.ExecLemmas
/-
C110-C114: the server's thread, and the threads that answer.
-/
namespace Verif.Srv

/-! ## C110: the clients -/

/-- C110: after any round in which `poll` says that something is ready, whatever it and the other calls answer: the clients are the ones that aren't down, in the same order, and after them the connections that were
accepted; exactly the requests that arrived from clients without errors were queued, once each; exactly the clients and listening sockets that are down were closed. Nothing is read or written out of the arrays. -/
theorem C110 (r : Round) (st : St) (hs : r.stop = false) (hp : r.poll = .ready) :
    fddbPoll r st = .more
      { servers := remaining r st.servers,
        clients := survivors (clientDown r st.servers.length) st.clients ++ newcomers st.next (arrivals r st.servers),
        next := st.next + (arrivals r st.servers).length }
      (arrivalActs st.next (arrivals r st.servers) ++ requestActs r st.servers.length st.clients ++ serverCloses r st.servers ++ clientCloses r st.servers.length st.clients) := by
  unfold fddbPoll
  rw [if_neg (by simp [hs]), hp]
  exact pollRest_eq r st

/-- C110: a descriptor is down exactly if `poll` reports a hang-up, an error, or that it isn't open. -/
theorem C110_bad (r : Revents) : r.bad = true ↔ r.hup = true ∨ r.err = true ∨ r.nval = true := by
  obtain ⟨h, e, n, p⟩ := r
  cases h <;> cases e <;> cases n <;> simp [Revents.bad]

/-- C110: and no round has memory errors. -/
theorem C110_safe (r : Round) (st : St) : fddbPoll r st ≠ .ub := by
  unfold fddbPoll
  by_cases hs : r.stop = true
  · rw [if_pos hs]; intro h; cases h
  · rw [if_neg hs]
    cases hp : r.poll with
    | timeout => intro h; cases h
    | ready => dsimp only; rw [pollRest_eq]; intro h; cases h
    | error e =>
      dsimp only
      by_cases e1 : e = 4
      · rw [if_pos e1]; intro h; cases h
      · rw [if_neg e1]
        by_cases e2 : e = 12
        · rw [if_pos e2]; intro h; cases h
        · rw [if_neg e2]
          by_cases e3 : e = 11
          · rw [if_pos e3]; intro h; cases h
          · rw [if_neg e3]
            by_cases e4 : e = 14 ∨ e = 22
            · rw [if_pos e4]; intro h; cases h
            · rw [if_neg e4, pollRest_eq]; intro h; cases h

/-- A round with these answers for two listening sockets and three clients: a connection for the second socket, the first client asks something, the second one hangs up. -/
def busy : Round where
  stop := false
  poll := .ready
  revents i := if i = 1 then { pin := true } else if i = 2 then { pin := true } else if i = 3 then { hup := true } else {}
  accept _ := .fd 9 true
  next _ := .request

example : fddbPoll busy ⟨[some 3, some 4], [⟨5, 0⟩, ⟨6, 1⟩, ⟨7, 2⟩], 3⟩ =
    .more ⟨[some 3, some 4], [⟨5, 0⟩, ⟨7, 2⟩, ⟨9, 3⟩], 4⟩ [.accept 9 3, .push 5 0, .close 6 (.conn 1)] := by rfl

/-! ## C111: descriptors -/

/-- C111: in any execution of all the threads, whatever the system answers in any number of rounds: every descriptor that the server is about to close is open and still the one of that socket (so it's closed once); a request
is queued while its connection is open; and once the server stopped none of its sockets is open. -/
theorem C111 (servers : List Nat) (hn : servers.Nodup) (rs : List Round) (st : St) (acts : List Act) (b : Bool) (h : serverCb rs ⟨servers.map some, [], 0⟩ = some (st, acts, b))
    (threads : Nat) (cs : List Choice) (left : List Act) (k : K) (hr : run threads cs (acts ++ destroyDb st) (K.init servers) = some (left, k)) :
    (∀ fd o rest, left = .close fd o :: rest → k.table fd = some o) ∧
    (∀ fd c rest, left = .push fd c :: rest → k.table fd = some (.conn c)) ∧
    (left = [] → ∀ fd o, k.table fd = some o → ∃ n, o = .other n) := by
  have h1 := ok_server rs _ st acts b h _ (inv_init servers hn)
  have h2 : Ok (own (K.init servers)) (acts ++ destroyDb st) (fun T => ∀ fd, T fd = none) := by
    rw [Ok_append]
    exact Ok_mono _ _ _ (fun T hT => ok_destroy st T hT) _ h1
  have h3 := ok_run threads cs _ left _ k hr _ h2
  refine ⟨?_, ?_, ?_⟩
  · rintro fd o rest rfl; exact own_some k fd o h3.1
  · rintro fd c rest rfl; exact own_some k fd _ h3.1
  · rintro rfl fd o hfo
    have := h3 fd
    unfold own at this
    rw [hfo] at this
    cases o with
    | other n => exact ⟨n, rfl⟩
    | listen i => cases this
    | conn c => cases this

/-! ## C112: responses go to who asked -/

theorem run_append (threads : Nat) (cs1 cs2 : List Choice) (acts acts1 : List Act) (k k1 : K) (h : run threads cs1 acts k = some (acts1, k1)) :
    run threads (cs1 ++ cs2) acts k = run threads cs2 acts1 k1 := by
  induction cs1 generalizing acts k with
  | nil => rw [run] at h; injection h with h; injection h with h1 h2; subst h1 h2; rfl
  | cons c cs ih =>
    rw [List.cons_append, run]
    rw [run] at h
    cases hst : step threads acts k c with
    | none => rw [hst] at h; cases h
    | some x =>
      obtain ⟨a1, k2⟩ := x
      rw [hst] at h
      exact ih a1 k2 h

/-- Every request that isn't finished has the descriptor of its connection, and so did the responses. -/
structure Sent (k : K) : Prop where
  queue : ∀ q ∈ k.queue, k.table q.fd = some (.conn q.conn)
  running : ∀ q ∈ k.running, k.table q.fd = some (.conn q.conn)
  log : ∀ e ∈ k.log, e.2 = some (.conn e.1.conn)

theorem setFd_ne (k : K) (fd f : Nat) (o : Option Owner) (h : f ≠ fd) : (k.setFd fd o).table f = k.table f := by
  show (if f = fd then o else k.table f) = _; rw [if_neg h]

theorem Sent.setFd (k : K) (fd : Nat) (o : Option Owner) (h : Sent k) (hfd : ∀ q, (q ∈ k.queue ∨ q ∈ k.running) → q.fd ≠ fd) : Sent (k.setFd fd o) :=
  ⟨fun q hq => (setFd_ne k fd q.fd o (hfd q (Or.inl hq))).trans (h.queue q hq),
   fun q hq => (setFd_ne k fd q.fd o (hfd q (Or.inr hq))).trans (h.running q hq), h.log⟩

theorem sent_step (threads : Nat) (acts acts' : List Act) (k k' : K) (c : Choice) (hs : step threads acts k c = some (acts', k')) (Q : (Nat → Option Owner) → Prop) (hok : Ok (own k) acts Q)
    (hclose : c = .server → ∀ fd cn rest, acts = .close fd (.conn cn) :: rest → ∀ q, (q ∈ k.queue ∨ q ∈ k.running) → q.conn ≠ cn) (h : Sent k) : Sent k' := by
  have hfree : ∀ fd, k.table fd = none → ∀ q, (q ∈ k.queue ∨ q ∈ k.running) → q.fd ≠ fd := by
    intro fd hf q hq e
    have : k.table q.fd = some (.conn q.conn) := hq.elim (h.queue q) (h.running q)
    rw [e, hf] at this; cases this
  have hown : ∀ fd o, k.table fd = some o → (∀ q, (q ∈ k.queue ∨ q ∈ k.running) → o ≠ .conn q.conn) → ∀ q, (q ∈ k.queue ∨ q ∈ k.running) → q.fd ≠ fd := by
    intro fd o hf ho q hq e
    have : k.table q.fd = some (.conn q.conn) := hq.elim (h.queue q) (h.running q)
    rw [e, hf] at this; injection this with this; exact ho q hq this
  cases c with
  | server =>
    cases acts with
    | nil => cases hs
    | cons a acts =>
      unfold step at hs
      dsimp only at hs
      cases a with
      | accept fd c =>
        unfold K.act at hs
        dsimp only at hs
        by_cases hf : k.table fd = none
        · rw [if_pos hf] at hs
          injection hs with hs; injection hs with h1 h2
          subst h1 h2
          exact h.setFd k fd _ (hfree fd hf)
        · rw [if_neg hf] at hs; cases hs
      | close fd o =>
        injection hs with hs; injection hs with h1 h2
        subst h1 h2
        refine h.setFd k fd _ (hown fd o (own_some k fd o hok.1) ?_)
        intro q hq e
        subst e
        exact hclose rfl fd q.conn acts rfl q hq rfl
      | push fd c =>
        injection hs with hs; injection hs with h1 h2
        subst h1 h2
        refine ⟨?_, h.running, h.log⟩
        intro q hq
        rcases List.mem_append.1 hq with hq | hq
        · exact h.queue q hq
        · rw [List.mem_singleton] at hq
          subst hq
          exact own_some k fd _ hok.1
  | take =>
    unfold step at hs
    cases hq : k.queue with
    | nil => rw [hq] at hs; cases hs
    | cons r q =>
      rw [hq] at hs
      dsimp only at hs
      by_cases hlt : k.running.length < threads
      · rw [if_pos hlt] at hs
        injection hs with hs; injection hs with h1 h2
        subst h1 h2
        refine ⟨fun x hx => h.queue x (by rw [hq]; exact List.mem_cons_of_mem _ hx), ?_, h.log⟩
        intro x hx
        rcases List.mem_append.1 hx with hx | hx
        · exact h.running x hx
        · rw [List.mem_singleton] at hx; subst hx; exact h.queue x (by rw [hq]; exact List.mem_cons_self ..)
      · rw [if_neg hlt] at hs; cases hs
  | send i =>
    unfold step at hs
    dsimp only at hs
    cases hq : k.running[i]? with
    | none => rw [hq] at hs; cases hs
    | some r =>
      rw [hq] at hs
      injection hs with hs; injection hs with h1 h2
      subst h1 h2
      refine ⟨h.queue, h.running, ?_⟩
      intro e he
      rcases List.mem_append.1 he with he | he
      · exact h.log e he
      · rw [List.mem_singleton] at he; subst he
        exact h.running r (List.mem_of_getElem? hq)
  | finish i =>
    unfold step at hs
    dsimp only at hs
    by_cases hlt : i < k.running.length
    · rw [if_pos hlt] at hs
      injection hs with hs; injection hs with h1 h2
      subst h1 h2
      exact ⟨h.queue, fun q hq => h.running q ((List.eraseIdx_sublist _ i).subset hq), h.log⟩
    · rw [if_neg hlt] at hs; cases hs
  | openOther fd o =>
    unfold step at hs
    dsimp only at hs
    by_cases hf : k.table fd = none
    · rw [if_pos hf] at hs
      injection hs with hs; injection hs with h1 h2
      subst h1 h2
      exact h.setFd k fd _ (hfree fd hf)
    · rw [if_neg hf] at hs; cases hs
  | closeOther fd o =>
    unfold step at hs
    dsimp only at hs
    by_cases hf : k.table fd = some (.other o)
    · rw [if_pos hf] at hs
      injection hs with hs; injection hs with h1 h2
      subst h1 h2
      exact h.setFd k fd _ (hown fd _ hf (by intro q _ e; cases e))
    · rw [if_neg hf] at hs; cases hs

/-- C112, if no connection is closed while a request of it is waiting or being handled: in any execution, every message of every response is received by the connection that made the request. -/
theorem C112_partial (servers : List Nat) (hn : servers.Nodup) (rs : List Round) (st : St) (acts : List Act) (b : Bool) (h : serverCb rs ⟨servers.map some, [], 0⟩ = some (st, acts, b))
    (threads : Nat) (cs : List Choice) (left : List Act) (k : K) (hr : run threads cs (acts ++ destroyDb st) (K.init servers) = some (left, k))
    (hclose : ∀ cs1 cs2 fd c rest k1, cs = cs1 ++ .server :: cs2 → run threads cs1 (acts ++ destroyDb st) (K.init servers) = some (.close fd (.conn c) :: rest, k1) →
      ∀ q, (q ∈ k1.queue ∨ q ∈ k1.running) → q.conn ≠ c) :
    ∀ e ∈ k.log, e.2 = some (.conn e.1.conn) := by
  have h1 := ok_server rs _ st acts b h _ (inv_init servers hn)
  have h2 : Ok (own (K.init servers)) (acts ++ destroyDb st) (fun T => ∀ fd, T fd = none) := by
    rw [Ok_append]
    exact Ok_mono _ _ _ (fun T hT => ok_destroy st T hT) _ h1
  generalize acts ++ destroyDb st = as at hr hclose h2
  have h3 : Sent (K.init servers) := ⟨(fun q hq => by cases hq), (fun q hq => by cases hq), (fun q hq => by cases hq)⟩
  generalize K.init servers = k0 at hr hclose h2 h3
  refine Sent.log ?_
  induction cs generalizing as k0 with
  | nil =>
    rw [run] at hr
    injection hr with hr; injection hr with e1 e2
    subst e1 e2; exact h3
  | cons c cs ih =>
    rw [run] at hr
    cases hst : step threads as k0 c with
    | none => rw [hst] at hr; cases hr
    | some x =>
      obtain ⟨a1, k1⟩ := x
      rw [hst] at hr
      refine ih a1 k1 hr ?_ (ok_step threads as a1 k0 k1 c hst _ h2) ?_
      · intro cs1 cs2 fd cn rest k2 he hrun
        refine hclose (c :: cs1) cs2 fd cn rest k2 (by rw [he]; rfl) ?_
        rw [run, hst]; exact hrun
      · refine sent_step threads as a1 k0 k1 c hst _ h2 ?_ h3
        intro hc fd cn rest ha
        exact hclose [] cs fd cn rest k0 (by rw [hc]; rfl) (by rw [run, ha])

/-- A client is accepted with descriptor 4; it asks; it hangs up; and there's another connection, with the same descriptor. -/
def reuse : List Round :=
  [⟨false, .ready, fun i => if i = 0 then { pin := true } else {}, fun _ => .fd 4 true, fun _ => .nothing⟩,
   ⟨false, .ready, fun i => if i = 1 then { pin := true } else {}, fun _ => .error 11, fun _ => .request⟩,
   ⟨false, .ready, fun i => if i = 1 then { pin := true, hup := true } else {}, fun _ => .error 11, fun _ => .nothing⟩,
   ⟨false, .ready, fun i => if i = 0 then { pin := true } else {}, fun _ => .fd 4 true, fun _ => .nothing⟩]

/-- C112 is false of the program: the response to the first connection is sent to the second one. -/
theorem C112_refuted : ∃ st acts left k, serverCb reuse ⟨[some 3], [], 0⟩ = some (st, acts, true) ∧
    run 20 [.server, .server, .take, .server, .server, .send 0] (acts ++ destroyDb st) (K.init [3]) = some (left, k) ∧
    k.log = [(⟨0, 4, 0⟩, some (.conn 1))] := ⟨_, _, _, _, rfl, rfl, rfl⟩

/-- C112 is false of the program: or it's written to a file that the program opened meanwhile (of the cache, for instance). -/
theorem C112_refuted_file : ∃ st acts left k, serverCb reuse ⟨[some 3], [], 0⟩ = some (st, acts, true) ∧
    run 20 [.server, .server, .take, .server, .openOther 4 77, .send 0] (acts ++ destroyDb st) (K.init [3]) = some (left, k) ∧
    k.log = [(⟨0, 4, 0⟩, some (.other 77))] := ⟨_, _, _, _, rfl, rfl, rfl⟩

/- Non-vacuity of C111 and C112_partial: the same rounds, the response being sent before the client hangs up, and until the end. -/
example : ∃ st acts left k, serverCb reuse ⟨[some 3], [], 0⟩ = some (st, acts, true) ∧
    run 20 [.server, .server, .take, .send 0, .send 0, .finish 0, .server, .server, .server, .server] (acts ++ destroyDb st) (K.init [3]) = some (left, k) ∧
    left = [] ∧ k.log = [(⟨0, 4, 0⟩, some (.conn 0)), (⟨0, 4, 0⟩, some (.conn 0))] ∧ k.table 3 = none ∧ k.table 4 = none := ⟨_, _, _, _, rfl, rfl, rfl, rfl, rfl, rfl⟩

/-! ## C113: responses aren't mixed -/

/-- The requests that satisfy `P` were answered, are handled, and wait in order. -/
structure Ordered (P : Req → Bool) (k : K) : Prop where
  sorted : ((k.log.map (·.1) ++ k.running ++ k.queue).filter P).Pairwise (fun a b => a.id ≤ b.id)
  bound : ∀ q ∈ k.log.map (·.1) ++ k.running ++ k.queue, q.id < k.pushed

theorem filter_single (P : Req → Bool) (l : List Req) (r : Req) (h : (l.filter P).length ≤ 1) (hr : r ∈ l) (hp : P r = true) : l.filter P = [r] := by
  have hm : r ∈ l.filter P := List.mem_filter.2 ⟨hr, hp⟩
  cases hf : l.filter P with
  | nil => rw [hf] at hm; cases hm
  | cons a t =>
    rw [hf] at h hm
    cases t with
    | nil => rw [List.mem_singleton] at hm; rw [hm]
    | cons b t => simp at h

theorem ordered_step (P : Req → Bool) (threads : Nat) (acts acts' : List Act) (k k' : K) (c : Choice) (hs : step threads acts k c = some (acts', k'))
    (hone : (k.running.filter P).length ≤ 1) (h : Ordered P k) : Ordered P k' := by
  have same : ∀ k' : K, k'.log = k.log → k'.running = k.running → k'.queue = k.queue → k'.pushed = k.pushed → Ordered P k' := by
    intro k' h1 h2 h3 h4
    exact ⟨by rw [h1, h2, h3]; exact h.sorted, by rw [h1, h2, h3, h4]; exact h.bound⟩
  cases c with
  | server =>
    cases acts with
    | nil => cases hs
    | cons a acts =>
      unfold step at hs
      dsimp only at hs
      cases a with
      | accept fd c =>
        unfold K.act at hs
        dsimp only at hs
        by_cases hf : k.table fd = none
        · rw [if_pos hf] at hs
          injection hs with hs; injection hs with h1 h2
          subst h1 h2
          exact same _ rfl rfl rfl rfl
        · rw [if_neg hf] at hs; cases hs
      | close fd o =>
        injection hs with hs; injection hs with h1 h2
        subst h1 h2
        exact same _ rfl rfl rfl rfl
      | push fd c =>
        injection hs with hs; injection hs with h1 h2
        subst h1 h2
        constructor
        · dsimp only
          rw [← List.append_assoc, List.filter_append, List.pairwise_append]
          refine ⟨h.sorted, ?_, ?_⟩
          · exact List.Pairwise.filter P (List.pairwise_singleton _ _)
          · intro a ha b hb
            have hb := (List.mem_filter.1 hb).1
            rw [List.mem_singleton] at hb
            subst hb
            exact Nat.le_of_lt (h.bound a (List.mem_filter.1 ha).1)
        · intro q hq
          dsimp only at hq ⊢
          rw [← List.append_assoc, List.mem_append] at hq
          rcases hq with hq | hq
          · have := h.bound q hq; omega
          · rw [List.mem_singleton] at hq; subst hq; exact Nat.lt_succ_self _
  | take =>
    unfold step at hs
    cases hq : k.queue with
    | nil => rw [hq] at hs; cases hs
    | cons r q =>
      rw [hq] at hs
      dsimp only at hs
      by_cases hlt : k.running.length < threads
      · rw [if_pos hlt] at hs
        injection hs with hs; injection hs with h1 h2
        subst h1 h2
        have e : k.log.map (·.1) ++ (k.running ++ [r]) ++ q = k.log.map (·.1) ++ k.running ++ k.queue := by rw [hq]; simp
        exact ⟨by dsimp only; rw [e]; exact h.sorted, by dsimp only; rw [e]; exact h.bound⟩
      · rw [if_neg hlt] at hs; cases hs
  | send i =>
    unfold step at hs
    dsimp only at hs
    cases hq : k.running[i]? with
    | none => rw [hq] at hs; cases hs
    | some r =>
      rw [hq] at hs
      injection hs with hs; injection hs with h1 h2
      subst h1 h2
      have hmem := List.mem_of_getElem? hq
      constructor
      · dsimp only
        rw [List.map_append, List.map_cons, List.map_nil]
        cases hp : P r with
        | false =>
          have : ((k.log.map (·.1) ++ [r] ++ k.running ++ k.queue).filter P) = ((k.log.map (·.1) ++ k.running ++ k.queue).filter P) := by
            simp [List.filter_append, List.filter_cons, hp]
          rw [this]; exact h.sorted
        | true =>
          have hs := h.sorted
          have hf := filter_single P k.running r hone hmem hp
          simp only [List.filter_append, hf, List.filter_cons, hp, if_true, List.filter_nil] at hs ⊢
          rw [List.pairwise_append, List.pairwise_append] at hs
          obtain ⟨⟨p1, p2, p3⟩, p4, p5⟩ := hs
          rw [List.pairwise_append, List.pairwise_append, List.pairwise_append]
          refine ⟨⟨⟨p1, p2, p3⟩, p2, ?_⟩, p4, ?_⟩
          · intro a ha b hb
            rw [List.mem_singleton] at hb; subst hb
            rcases List.mem_append.1 ha with ha | ha
            · exact p3 a ha b (by simp)
            · rw [List.mem_singleton] at ha; subst ha; exact Nat.le_refl _
          · intro a ha b hb
            rcases List.mem_append.1 ha with ha | ha
            · exact p5 a ha b hb
            · exact p5 a (List.mem_append_right _ ha) b hb
      · intro q hq
        dsimp only at hq ⊢
        rw [List.map_append, List.map_cons, List.map_nil] at hq
        simp only [List.mem_append, List.mem_singleton] at hq
        rcases hq with ((hq | rfl) | hq) | hq
        · exact h.bound q (by simp only [List.mem_append]; exact Or.inl (Or.inl hq))
        · exact h.bound q (by simp only [List.mem_append]; exact Or.inl (Or.inr hmem))
        · exact h.bound q (by simp only [List.mem_append]; exact Or.inl (Or.inr hq))
        · exact h.bound q (by simp only [List.mem_append]; exact Or.inr hq)
  | finish i =>
    unfold step at hs
    dsimp only at hs
    by_cases hlt : i < k.running.length
    · rw [if_pos hlt] at hs
      injection hs with hs; injection hs with h1 h2
      subst h1 h2
      have hsub : (k.log.map (·.1) ++ k.running.eraseIdx i ++ k.queue).Sublist (k.log.map (·.1) ++ k.running ++ k.queue) :=
        ((List.Sublist.refl _).append (List.eraseIdx_sublist _ i)).append (List.Sublist.refl _)
      exact ⟨h.sorted.sublist (hsub.filter P), fun q hq => h.bound q (hsub.subset hq)⟩
    · rw [if_neg hlt] at hs; cases hs
  | openOther fd o =>
    unfold step at hs
    dsimp only at hs
    by_cases hf : k.table fd = none
    · rw [if_pos hf] at hs
      injection hs with hs; injection hs with h1 h2
      subst h1 h2
      exact same _ rfl rfl rfl rfl
    · rw [if_neg hf] at hs; cases hs
  | closeOther fd o =>
    unfold step at hs
    dsimp only at hs
    by_cases hf : k.table fd = some (.other o)
    · rw [if_pos hf] at hs
      injection hs with hs; injection hs with h1 h2
      subst h1 h2
      exact same _ rfl rfl rfl rfl
    · rw [if_neg hf] at hs; cases hs

theorem ordered_run (P : Req → Bool) (threads : Nat) (cs : List Choice) (acts left : List Act) (k0 k : K) (hr : run threads cs acts k0 = some (left, k))
    (hone : ∀ cs1 cs2 left1 k1, cs = cs1 ++ cs2 → run threads cs1 acts k0 = some (left1, k1) → (k1.running.filter P).length ≤ 1) (h : Ordered P k0) : Ordered P k := by
  induction cs generalizing acts k0 with
  | nil => rw [run] at hr; injection hr with hr; injection hr with e1 e2; subst e1 e2; exact h
  | cons c cs ih =>
    rw [run] at hr
    cases hst : step threads acts k0 c with
    | none => rw [hst] at hr; cases hr
    | some x =>
      obtain ⟨a1, k1⟩ := x
      rw [hst] at hr
      refine ih a1 k1 hr ?_ (ordered_step P threads acts a1 k0 k1 c hst (hone [] (c :: cs) acts k0 rfl rfl) h)
      intro cs1 cs2 left1 k2 he hrun
      exact hone (c :: cs1) cs2 left1 k2 (by rw [he]; rfl) (by rw [run, hst]; exact hrun)

/-- C113, if at every moment at most one request of that connection is being handled: its responses aren't mixed (the messages of a request are all before those of the ones made later). -/
theorem C113_partial (threads : Nat) (acts : List Act) (servers : List Nat) (cs : List Choice) (left : List Act) (k : K) (conn : Nat) (hr : run threads cs acts (K.init servers) = some (left, k))
    (hone : ∀ cs1 cs2 left1 k1, cs = cs1 ++ cs2 → run threads cs1 acts (K.init servers) = some (left1, k1) → (k1.running.filter (fun q => q.conn == conn)).length ≤ 1) :
    ((k.log.map (·.1)).filter (fun q => q.conn == conn)).Pairwise (fun a b => a.id ≤ b.id) := by
  have h := ordered_run (fun q => q.conn == conn) threads cs acts left _ k hr hone ⟨List.Pairwise.nil, by intro q hq; cases hq⟩
  refine h.sorted.sublist (List.Sublist.filter _ ?_)
  rw [List.append_assoc]
  exact List.sublist_append_left _ _

theorem running_bound (threads : Nat) (cs : List Choice) (acts left : List Act) (k0 k : K) (hr : run threads cs acts k0 = some (left, k)) (h : k0.running.length ≤ threads) :
    k.running.length ≤ threads := by
  induction cs generalizing acts k0 with
  | nil => rw [run] at hr; injection hr with hr; injection hr with e1 e2; subst e1 e2; exact h
  | cons c cs ih =>
    rw [run] at hr
    cases hst : step threads acts k0 c with
    | none => rw [hst] at hr; cases hr
    | some x =>
      obtain ⟨a1, k1⟩ := x
      rw [hst] at hr
      refine ih a1 k1 hr ?_
      cases c with
      | server =>
        cases acts with
        | nil => cases hst
        | cons a acts =>
          unfold step at hst
          dsimp only at hst
          cases a with
          | accept fd c =>
            unfold K.act at hst
            dsimp only at hst
            by_cases hf : k0.table fd = none
            · rw [if_pos hf] at hst
              injection hst with hs; injection hs with h1 h2; subst h1 h2; exact h
            · rw [if_neg hf] at hst; cases hst
          | close fd o => injection hst with hs; injection hs with h1 h2; subst h1 h2; exact h
          | push fd c => injection hst with hs; injection hs with h1 h2; subst h1 h2; exact h
      | take =>
        unfold step at hst
        cases hq : k0.queue with
        | nil => rw [hq] at hst; cases hst
        | cons r q =>
          rw [hq] at hst
          dsimp only at hst
          by_cases hlt : k0.running.length < threads
          · rw [if_pos hlt] at hst
            injection hst with hs; injection hs with h1 h2; subst h1 h2
            simp; omega
          · rw [if_neg hlt] at hst; cases hst
      | send i =>
        unfold step at hst
        dsimp only at hst
        cases hq : k0.running[i]? with
        | none => rw [hq] at hst; cases hst
        | some r => rw [hq] at hst; injection hst with hs; injection hs with h1 h2; subst h1 h2; exact h
      | finish i =>
        unfold step at hst
        dsimp only at hst
        by_cases hlt : i < k0.running.length
        · rw [if_pos hlt] at hst
          injection hst with hs; injection hs with h1 h2; subst h1 h2
          exact Nat.le_trans (List.eraseIdx_sublist _ i).length_le h
        · rw [if_neg hlt] at hst; cases hst
      | openOther fd o =>
        unfold step at hst
        dsimp only at hst
        by_cases hf : k0.table fd = none
        · rw [if_pos hf] at hst; injection hst with hs; injection hs with h1 h2; subst h1 h2; exact h
        · rw [if_neg hf] at hst; cases hst
      | closeOther fd o =>
        unfold step at hst
        dsimp only at hst
        by_cases hf : k0.table fd = some (.other o)
        · rw [if_pos hf] at hst; injection hst with hs; injection hs with h1 h2; subst h1 h2; exact h
        · rw [if_neg hf] at hst; cases hst

/-- C113 with `thread-pool.server.max = 1`: no responses are mixed, in any execution. -/
theorem C113_one_thread (acts : List Act) (servers : List Nat) (cs : List Choice) (left : List Act) (k : K) (hr : run 1 cs acts (K.init servers) = some (left, k)) :
    (k.log.map (·.1)).Pairwise (fun a b => a.id ≤ b.id) := by
  have e : ∀ l : List Req, l.filter (fun _ => true) = l := fun l => List.filter_eq_self.2 (by simp)
  have h := ordered_run (fun _ => true) 1 cs acts left _ k hr ?_ ⟨List.Pairwise.nil, by intro q hq; cases hq⟩
  · have := h.sorted
    rw [e] at this
    refine this.sublist ?_
    rw [List.append_assoc]
    exact List.sublist_append_left _ _
  · intro cs1 cs2 left1 k1 _ hrun
    rw [e]
    exact running_bound 1 cs1 acts left1 _ k1 hrun (by simp [K.init])

/-- A client that asks twice. -/
def twice : List Round :=
  [⟨false, .ready, fun i => if i = 0 then { pin := true } else {}, fun _ => .fd 4 true, fun _ => .nothing⟩,
   ⟨false, .ready, fun i => if i = 1 then { pin := true } else {}, fun _ => .error 11, fun _ => .request⟩,
   ⟨false, .ready, fun i => if i = 1 then { pin := true } else {}, fun _ => .error 11, fun _ => .request⟩]

/-- C113 is false of the program: with two threads or more, the router receives a message of the first response, one of the second one, and one of the first one again. -/
theorem C113_refuted : ∃ st acts left k, serverCb twice ⟨[some 3], [], 0⟩ = some (st, acts, true) ∧
    run 2 [.server, .server, .server, .take, .take, .send 0, .send 1, .send 0] acts (K.init [3]) = some (left, k) ∧
    k.log = [(⟨0, 4, 0⟩, some (.conn 0)), (⟨1, 4, 0⟩, some (.conn 0)), (⟨0, 4, 0⟩, some (.conn 0))] := ⟨_, _, _, _, rfl, rfl, rfl⟩

/- Non-vacuity of the partial theorems: one after the other. -/
example : ∃ st acts left k, serverCb twice ⟨[some 3], [], 0⟩ = some (st, acts, true) ∧
    run 1 [.server, .server, .take, .send 0, .server, .send 0, .finish 0, .take, .send 0] acts (K.init [3]) = some (left, k) ∧
    k.log.map (·.1.id) = [0, 0, 1] := ⟨_, _, _, _, rfl, rfl, rfl⟩

/-! ## C114: the server stays -/

/-- C114, if `poll` isn't interrupted by a signal and reports no errors of the listening sockets, and `accept` only fails with the errors its manual says to retry: the listening sockets are all open after any number of rounds, and
the thread is running. -/
theorem C114_partial (rs : List Round) (st st' : St) (acts : List Act) (b : Bool) (h : serverCb rs st = some (st', acts, b))
    (hr : ∀ r ∈ rs, r.stop = false ∧ r.poll ≠ .error 4 ∧ ∀ i < st.servers.length, (r.revents i).bad = false ∧ ∀ e, r.accept i = .error e → e ∈ retryErrors) :
    st'.servers = st.servers ∧ b = true := by
  have hkeep : ∀ (r : Round) (S : List (Option Nat)) (i : Nat), (∀ j, j < i + S.length → serverDown r j = false) → remaining r S i = S := by
    intro r S
    induction S with
    | nil => intro i _; rfl
    | cons s S ih =>
      intro i hi
      rw [remaining_cons, ih (i + 1) (fun j hj => hi j (by simp; omega)), hi i (by simp)]
      rfl
  induction rs generalizing st acts with
  | nil => rw [serverCb] at h; injection h with h; injection h with h1 h2; injection h2 with h2 h3; exact ⟨by rw [h1], h3.symm⟩
  | cons r rs ih =>
    rw [serverCb] at h
    obtain ⟨r1, r2, r3⟩ := hr r (List.mem_cons_self ..)
    cases hp : fddbPoll r st with
    | more st1 acts1 =>
      rw [hp] at h
      dsimp only at h
      have hs : st1.servers = st.servers := by
        unfold fddbPoll at hp
        rw [if_neg (by simp [r1])] at hp
        cases hq : r.poll with
        | timeout => rw [hq] at hp; injection hp with h1; rw [h1]
        | ready =>
          rw [hq] at hp
          dsimp only at hp
          rw [pollRest_eq] at hp
          injection hp with h1
          rw [← h1]
          refine hkeep r st.servers 0 ?_
          intro j hj
          obtain ⟨q1, q2⟩ := r3 j (by omega)
          unfold serverDown
          rw [q1]
          cases ha : r.accept j with
          | fd f nb => simp
          | error e => simp [q2 e ha]
        | error e =>
          rw [hq] at hp
          dsimp only at hp
          by_cases e1 : e = 4
          · rw [if_pos e1] at hp; cases hp
          · rw [if_neg e1] at hp
            by_cases e2 : e = 12
            · rw [if_pos e2] at hp; cases hp
            · rw [if_neg e2] at hp
              by_cases e3 : e = 11
              · rw [if_pos e3] at hp; injection hp with h1; rw [h1]
              · rw [if_neg e3] at hp
                by_cases e4 : e = 14 ∨ e = 22
                · rw [if_pos e4] at hp; cases hp
                · rw [if_neg e4, pollRest_eq] at hp
                  injection hp with h1
                  rw [← h1]
                  refine hkeep _ st.servers 0 ?_
                  intro j hj
                  simp [serverDown, Revents.bad]
      cases hq : serverCb rs st1 with
      | none => rw [hq] at h; cases h
      | some x =>
        obtain ⟨st2, acts2, b2⟩ := x
        rw [hq] at h
        injection h with h; injection h with h1 h2; injection h2 with h2 h3
        subst h1 h2 h3
        have := ih st1 acts2 hq (fun r hr' => by
          obtain ⟨q1, q2, q3⟩ := hr r (List.mem_cons_of_mem _ hr')
          exact ⟨q1, q2, fun i hi => q3 i (by rw [← hs]; exact hi)⟩)
        rw [hs] at this
        exact this
    | stop =>
      exfalso
      unfold fddbPoll at hp
      rw [if_neg (by simp [r1])] at hp
      cases hq : r.poll with
      | timeout => rw [hq] at hp; cases hp
      | ready => rw [hq] at hp; dsimp only at hp; rw [pollRest_eq] at hp; cases hp
      | error e =>
        rw [hq] at hp
        dsimp only at hp
        by_cases e1 : e = 4
        · rw [hq, e1] at r2; exact r2 rfl
        · rw [if_neg e1] at hp
          by_cases e2 : e = 12
          · rw [if_pos e2] at hp; cases hp
          · rw [if_neg e2] at hp
            by_cases e3 : e = 11
            · rw [if_pos e3] at hp; cases hp
            · rw [if_neg e3] at hp
              by_cases e4 : e = 14 ∨ e = 22
              · rw [if_pos e4] at hp; cases hp
              · rw [if_neg e4, pollRest_eq] at hp; cases hp
    | abort => rw [hp] at h; cases h
    | ub => rw [hp] at h; cases h

/-- A listening socket that's ready, and what `accept` answers. -/
def oneAccept (e : Nat) : Round := ⟨false, .ready, fun i => if i = 0 then { pin := true } else {}, fun _ => .error e, fun _ => .nothing⟩

/-- C114 is false of the program: if `accept` says that the client aborted the connection (103), or that there are too many open files (24), the program closes the listening socket. -/
theorem C114_refuted : (103 ∈ transient ∧ fddbPoll (oneAccept 103) ⟨[some 3], [], 0⟩ = .more ⟨[none], [], 0⟩ [.close 3 (.listen 0)]) ∧
    (24 ∈ transient ∧ fddbPoll (oneAccept 24) ⟨[some 3], [], 0⟩ = .more ⟨[none], [], 0⟩ [.close 3 (.listen 0)]) := by
  refine ⟨⟨by decide, rfl⟩, ⟨by decide, rfl⟩⟩

/-- C114 is false of the program: a signal during `poll` ends the thread, with the listening sockets still open (so that routers connect, and nobody answers). -/
theorem C114_refuted_signal (r : Round) (st : St) (h : r.poll = .error 4) : fddbPoll r st = .stop := by
  unfold fddbPoll
  by_cases hs : r.stop = true
  · rw [if_pos hs]
  · rw [if_neg hs, h]; rfl

/-- And once it's closed there are no connections from that socket, ever. -/
theorem C114_forever (rs : List Round) (st st' : St) (acts : List Act) (b : Bool) (h : serverCb rs st = some (st', acts, b)) (hc : ∀ s ∈ st.servers, s = none) :
    st'.next = st.next ∧ ∀ s ∈ st'.servers, s = none := by
  have hrem : ∀ (r : Round) (S : List (Option Nat)) (i : Nat), (∀ s ∈ S, s = none) → (∀ s ∈ remaining r S i, s = none) ∧ arrivals r S i = [] := by
    intro r S
    induction S with
    | nil => intro i _; exact ⟨(fun s hs => by cases hs), rfl⟩
    | cons s S ih =>
      intro i hi
      obtain ⟨h1, h2⟩ := ih (i + 1) (fun s hs => hi s (List.mem_cons_of_mem _ hs))
      have hs := hi s (List.mem_cons_self ..)
      subst hs
      rw [remaining_cons, arrivals_cons, h2]
      refine ⟨?_, by simp⟩
      intro s hs
      rcases List.mem_cons.1 hs with hs | hs
      · rw [hs]; cases serverDown r i <;> rfl
      · exact h1 s hs
  have hrest : ∀ (r : Round) (st st' : St) (acts : List Act), pollRest r st = .more st' acts → (∀ s ∈ st.servers, s = none) → st'.next = st.next ∧ ∀ s ∈ st'.servers, s = none := by
    intro r st st' acts h hc
    rw [pollRest_eq] at h
    obtain ⟨h1, h2⟩ := hrem r st.servers 0 hc
    injection h with h
    rw [← h]
    exact ⟨by dsimp only; rw [h2]; rfl, h1⟩
  induction rs generalizing st acts with
  | nil => rw [serverCb] at h; injection h with h; injection h with h1 h2; subst h1; exact ⟨rfl, hc⟩
  | cons r rs ih =>
    rw [serverCb] at h
    cases hp : fddbPoll r st with
    | more st1 acts1 =>
      rw [hp] at h
      dsimp only at h
      have hs : st1.next = st.next ∧ ∀ s ∈ st1.servers, s = none := by
        unfold fddbPoll at hp
        by_cases r1 : r.stop = true
        · rw [if_pos r1] at hp; cases hp
        · rw [if_neg r1] at hp
          cases hq : r.poll with
          | timeout => rw [hq] at hp; injection hp with h1; rw [← h1]; exact ⟨rfl, hc⟩
          | ready => rw [hq] at hp; exact hrest r st st1 acts1 hp hc
          | error e =>
            rw [hq] at hp
            dsimp only at hp
            by_cases e1 : e = 4
            · rw [if_pos e1] at hp; cases hp
            · rw [if_neg e1] at hp
              by_cases e2 : e = 12
              · rw [if_pos e2] at hp; cases hp
              · rw [if_neg e2] at hp
                by_cases e3 : e = 11
                · rw [if_pos e3] at hp; injection hp with h1; rw [← h1]; exact ⟨rfl, hc⟩
                · rw [if_neg e3] at hp
                  by_cases e4 : e = 14 ∨ e = 22
                  · rw [if_pos e4] at hp; cases hp
                  · rw [if_neg e4] at hp; exact hrest _ st st1 acts1 hp hc
      cases hq : serverCb rs st1 with
      | none => rw [hq] at h; cases h
      | some x =>
        obtain ⟨st2, acts2, b2⟩ := x
        rw [hq] at h
        injection h with h; injection h with h1 h2; injection h2 with h2 h3
        subst h1 h2 h3
        have := ih st1 acts2 hq hs.2
        exact ⟨this.1.trans hs.1, this.2⟩
    | stop => rw [hp] at h; injection h with h; injection h with h1 h2; subst h1; exact ⟨rfl, hc⟩
    | abort => rw [hp] at h; cases h
    | ub => rw [hp] at h; cases h

/- Non-vacuity of C114_partial: with those errors the socket stays. -/
example : serverCb [oneAccept 71, oneAccept 11] ⟨[some 3], [], 0⟩ = some (⟨[some 3], [], 0⟩, [], true) := by rfl

end Verif.Srv
