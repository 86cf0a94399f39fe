import Verif.Conn.Lost
/-
C198: the memory of the RTR server.
-/
namespace Verif.Conn
open Verif.Heap Verif.Rtr

/-- A run of the server, from the start. -/
def after (l : List Step) : Server × H := run l Server.init (H.init fun _ => 0)

/-- Then, the shutdown. -/
def afterStop (l : List Step) : H := (stop (after l).1 (after l).2).2

/-- **C198** Whatever the clients send, and whatever the order in which they connect, send, disconnect and are served: memory that isn't allocated is never used or released; what's allocated is
one stream per connected client, and one task and one request (with its copy of the PDU) for each query that waits or is being served; and at most one request (with its copy) for each read that failed.
After the shutdown, the queries that were waiting remain too. -/
theorem C198_server_keeps_only_its_clients_partial (l : List Step) :
    (after l).2.bad = false ∧ (∃ lost : List Heap.Id, lost.length ≤ 2 * readErrors l ∧ ∀ i, (after l).2.refs i = (after l).1.things.count i + lost.count i) ∧
    (afterStop l).bad = false ∧ (∃ lost : List Heap.Id, lost.length ≤ 2 * readErrors l + 2 * (after l).1.queue.length ∧ ∀ i, (afterStop l).refs i = lost.count i) := by
  have h1 : Own (after l).1.things (after l).2 := t_run l Server.init _ (own_init _)
  have l1 : (after l).2.lost.length ≤ 0 + 2 * readErrors l := lo_run l Server.init _
  unfold afterStop
  generalize after l = x at h1 l1
  have h2 := t_stop _ h1
  have l2 : _ ≤ _ + 2 * x.1.queue.length := lo_stop (v := x.1) x.2
  exact ⟨h1.good, ⟨_, by omega, h1.bal⟩, h2.good, ⟨_, by omega, fun i => (h2.bal i).trans (Nat.zero_add _)⟩⟩

/-- If no read fails, and no query is waiting at the shutdown, nothing remains. -/
theorem C198_nothing_remains (l : List Step) (h1 : readErrors l = 0) (h2 : (after l).1.queue = []) : ∀ i, (afterStop l).refs i = 0 := by
  obtain ⟨_, _, _, lost, hl, hr⟩ := C198_server_keeps_only_its_clients_partial l
  rw [h1, h2] at hl
  have : lost = [] := List.length_eq_zero_iff.1 (by simpa using hl)
  intro i
  rw [hr, this]; rfl

/-- And what a client's bytes yield is what the parser of `Verif/Rtr` says (C16 and others): the heap does not matter. -/
theorem C198_requests_are_the_parsers (s : Stream) (hs : Reachable s) (es : List SockEv) (h : H) : erase (next (pending es + 2) s es none h).1 = resultOf (s.next es) :=
  next_refines _ s es none h (C67_no_spin s hs es)

/-! ### It's false of the program -/

/-- A Reset Query. -/
def query : List Byte := [1, 2, 0, 0, 0, 0, 0, 8]

theorem parse_query (v : Option (BitVec 8)) (hv : v = none ∨ v = some 1) (off : Nat) (rest : List Byte) :
    parseOne ⟨v, off, query ++ rest⟩ = .pdu ⟨some 1, off + 8, rest⟩ ⟨1, .reset, query, false⟩ := by
  have hh : readHdr (query ++ rest) = ⟨1, 2, 0, 8⟩ := rfl
  have hr : rawOf (query ++ rest) = query := by
    unfold rawOf
    rw [hh]
    simp [query]
  unfold parseOne
  simp only [hh, hr]
  rw [if_neg (by simp [query]), if_neg (by decide)]
  have hval : validateVersion v 1 query = .ok 1 := by
    rcases hv with rfl | rfl <;> rfl
  rw [hval]
  simp [loadPdu, loadResetQuery, query]

theorem parse_queries : ∀ (n : Nat) (v : Option (BitVec 8)) (off : Nat) (a : Option Request), (v = none ∨ v = some 1) →
    ∃ v' o, parseLoop ⟨v, off, (List.replicate (n + 1) query).flatten⟩ a = .fine ⟨v', o, []⟩ (some ⟨1, .reset, query, false⟩)
  | n, v, off, a, hv => by
    have e : (List.replicate (n + 1) query).flatten = query ++ (List.replicate n query).flatten := rfl
    have hp := parse_query v hv off (List.replicate n query).flatten
    have step : parseLoop ⟨v, off, query ++ (List.replicate n query).flatten⟩ a = parseLoop ⟨some 1, off + 8, (List.replicate n query).flatten⟩ (some ⟨1, .reset, query, false⟩) := by
      conv_lhs => rw [parseLoop]
      rw [if_neg (by simp [query])]
      split <;> rename_i h <;> rw [hp] at h
      all_goals first | cases h; done | skip
      cases h; rfl
    rw [e, step]
    cases n with
    | zero => exact ⟨some 1, off + 8, by rw [parseLoop]; exact if_pos rfl⟩
    | succ n => exact parse_queries n (some 1) _ _ (Or.inr rfl)

/-- What a client sends: 128 Reset Queries, which fill the buffer; then, the connection is reset. -/
def attack : List SockEv := [.data (List.replicate 128 query).flatten, .error]

theorem attack_length : (List.replicate 128 query).flatten.length = 1024 := by decide +kernel

theorem readLoop_full (bs : List Byte) (h : bs.length = 1024) (es : List SockEv) : readLoop (.data bs :: es) [] = (bs, es, .keepReading) := by
  rw [readLoop.eq_def]
  simp only
  rw [if_neg (by simp), if_neg (by omega), if_pos (by simp; omega), readLoop.eq_def]
  simp only [List.nil_append]
  rw [if_pos (by omega)]

theorem k_reqDestroy {r : Req} : Keeps (reqDestroy r) := Keeps.bind k_use fun _ => Keeps.bind k_free fun _ => k_free
theorem k_reqDestroyOpt : ∀ a, Keeps (reqDestroyOpt a)
  | none => Keeps.pure
  | some _ => k_reqDestroy
theorem k_failed {a b : Option Req} {raw : Option Heap.Id} : Keeps (failed a b raw) := Keeps.bind (k_reqDestroyOpt _) fun _ => Keeps.bind (k_reqDestroyOpt _) fun _ => k_freeAll _

theorem k_iter {s : Stream} {a : Option Req} : Keeps (iter s a) := by
  refine Keeps.ite Keeps.pure (Keeps.bind k_new fun raw => ?_)
  have hraw : Keeps (do use raw; failed a none (some raw); return .fail : HM Iter) := Keeps.bind k_use fun _ => Keeps.bind k_failed fun _ => Keeps.pure
  refine Keeps.ite hraw ?_
  cases validateVersion s.ver (readHdr s.buf).version (rawOf s.buf) with
  | error _ => exact hraw
  | ok v =>
    refine Keeps.bind k_new fun self => ?_
    cases loadPdu v (readHdr s.buf) s (rawOf s.buf) with
    | frag v => exact Keeps.bind k_reqDestroy fun _ => Keeps.pure
    | fail _ _ => exact Keeps.bind (k_useAll _) fun _ => Keeps.bind k_failed fun _ => Keeps.pure
    | pdu s' r => exact Keeps.bind k_use fun _ => Keeps.bind (k_reqDestroyOpt _) fun _ => Keeps.pure
    | text _ _ => exact Keeps.bind k_new fun _ => Keeps.bind k_use fun _ => Keeps.bind k_free fun _ => Keeps.bind k_failed fun _ => Keeps.pure
    | stale => exact Keeps.bind k_new fun _ => Keeps.bind k_use fun _ => Keeps.bind k_free fun _ => Keeps.bind k_failed fun _ => Keeps.pure
    | ub => exact Keeps.bind k_new fun _ => Keeps.bind k_use fun _ => Keeps.bind k_free fun _ => Keeps.bind k_failed fun _ => Keeps.pure

theorem q_loop : ∀ (n : Nat) (s : Stream) (a : Option Req), Keeps (loop n s a)
  | 0, _, _ => Keeps.pure
  | n + 1, _, _ => by
    refine Keeps.ite Keeps.pure (Keeps.bind k_iter fun r => ?_)
    cases r with
    | leave s => exact Keeps.pure
    | fail => exact Keeps.pure
    | got s r => exact q_loop n _ _

/-- One such connection. -/
theorem attack_next (h : H) (n : Nat) : (next (n + 2) Stream.new attack none h).1 = none ∧ (next (n + 2) Stream.new attack none h).2.lost.length = h.lost.length + 2 := by
  have hu : updateBuffer Stream.new attack = (⟨none, 0, (List.replicate 128 query).flatten⟩, [.error], .keepReading) := by
    unfold updateBuffer attack Stream.new
    simp only
    rw [readLoop_full _ attack_length]
  have hl := loop_refines (List.replicate 128 query).flatten.length ⟨none, 0, (List.replicate 128 query).flatten⟩ none h (Nat.le_refl _)
  obtain ⟨v, o, hp⟩ := parse_queries 127 none 0 none (Or.inl rfl)
  rw [Option.map_none, hp] at hl
  have l0 := lo_loop (List.replicate 128 query).flatten.length ⟨none, 0, (List.replicate 128 query).flatten⟩ none h
  have l1 := q_loop (List.replicate 128 query).flatten.length ⟨none, 0, (List.replicate 128 query).flatten⟩ none h
  rw [next]
  simp only [hu]
  rw [if_neg (by decide), run_bind]
  generalize loop (List.replicate 128 query).flatten.length ⟨none, 0, (List.replicate 128 query).flatten⟩ none h = x at *
  obtain ⟨x, s1⟩ := x
  simp only at *
  cases x with
  | none => cases hl
  | some x =>
    obtain ⟨st, b⟩ := x
    simp only [erase, endOf, Option.map_some, Option.some.injEq, Prod.mk.injEq] at hl
    obtain ⟨rfl, hb⟩ := hl
    cases b with
    | none => cases hb
    | some b =>
      simp only
      have he : (updateBuffer ⟨v, o, []⟩ [.error]).2.2 = .error := by
        unfold updateBuffer
        rw [readLoop.eq_def]; rfl
      rw [next]
      simp only
      rw [if_pos he, run_bind]
      refine ⟨rfl, ?_⟩
      show (b.self :: b.raw :: s1.lost).length = _
      rw [l1]; rfl

/-- A client connects, and does that. -/
def once : List Step := [.poll 1 [], .poll 0 [.input attack]]

/-- `n` of them, one after the other. -/
def attacks : Nat → List Step
  | 0 => []
  | n + 1 => once ++ attacks n

theorem run_append : ∀ (a b : List Step) (v : Server) (h : H), run (a ++ b) v h = run b (run a v h).1 (run a v h).2
  | [], _, _, _ => rfl
  | x :: a, b, v, h => by
    have := run_append a b (step v x h).1 (step v x h).2
    simpa only [List.cons_append, run, run_bind] using this

theorem connect (h : H) : ∃ i h', poll 1 [] Server.init h = (⟨[⟨i, Stream.new⟩], [], []⟩, h') ∧ h'.lost = h.lost := ⟨_, _, rfl, rfl⟩

theorem handle_closed (c : Client) (es : List SockEv) (h : H) (hn : (next (pending es + 2) c.stream es none (use c.self h).2).1 = none) :
    handleClient c es [] h = ((true, c, []), (next (pending es + 2) c.stream es none (use c.self h).2).2) := by
  unfold handleClient
  rw [run_bind, run_bind, hn]; rfl

theorem pollClients_closed (c : Client) (es : List SockEv) (h : H) (hn : (handleClient c es [] h).1 = (true, c, [])) :
    pollClients [c] [.input es] [] h = (([(true, c)], []), (handleClient c es [] h).2) := by
  simp only [pollClients, run_bind, List.headD_cons, pollClient, hn]; rfl

theorem handle_closed_fst (c : Client) (es : List SockEv) (h : H) (hn : (next (pending es + 2) c.stream es none (use c.self h).2).1 = none) : (handleClient c es [] h).1 = (true, c, []) := by
  rw [handle_closed c es h hn]

theorem poll_closed (c : Client) (es : List SockEv) (h : H) (hn : (handleClient c es [] (use c.self (new h).2).2).1 = (true, c, [])) :
    (poll 0 [.input es] ⟨[c], [], []⟩ h).1 = Server.init ∧ (poll 0 [.input es] ⟨[c], [], []⟩ h).2.lost = (handleClient c es [] (use c.self (new h).2).2).2.lost := by
  have e := pollClients_closed c es _ hn
  have e2 : poll 0 [.input es] ⟨[c], [], []⟩ h = (do
      let l ← applyPollfds (pollClients [c] [.input es] [] (use c.self (new h).2).2).1.1
      free (new h).1
      return ⟨l ++ [], (pollClients [c] [.input es] [] (use c.self (new h).2).2).1.2, []⟩ : HM Server) (pollClients [c] [.input es] [] (use c.self (new h).2).2).2 := by
    unfold poll
    simp only [run_bind, List.map_cons, List.map_nil, useAll, accept]
    rfl
  rw [e2, e]
  exact ⟨rfl, rfl⟩

theorem disconnect (c : Client) (hc : c.stream = Stream.new) (h : H) :
    (poll 0 [.input attack] ⟨[c], [], []⟩ h).1 = Server.init ∧ (poll 0 [.input attack] ⟨[c], [], []⟩ h).2.lost.length = h.lost.length + 2 := by
  obtain ⟨h1, h2⟩ := attack_next (use c.self (use c.self (new h).2).2).2 (pending attack)
  rw [← hc] at h1 h2
  have h3 := handle_closed c attack _ h1
  obtain ⟨h4, h5⟩ := poll_closed c attack h (handle_closed_fst c attack _ h1)
  rw [h3] at h5
  refine ⟨h4, ?_⟩
  rw [h5]
  generalize next (pending attack + 2) c.stream attack none (use c.self (use c.self (new h).2).2).2 = x at h2 ⊢
  exact h2

theorem once_run (h : H) : (run once Server.init h).1 = Server.init ∧ (run once Server.init h).2.lost.length = h.lost.length + 2 := by
  obtain ⟨i, h', h1, h2⟩ := connect h
  obtain ⟨h3, h4⟩ := disconnect ⟨i, Stream.new⟩ rfl h'
  have e : run once Server.init h = poll 0 [.input attack] ⟨[⟨i, Stream.new⟩], [], []⟩ h' := by
    unfold once
    rw [run, run_bind, step, h1, run, run_bind, step]
    rw [run]
    generalize poll 0 [.input attack] _ _ = x
    rfl
  rw [e, ← h2]
  exact ⟨h3, h4⟩

theorem attacks_run : ∀ (n : Nat) (h : H), (run (attacks n) Server.init h).1 = Server.init ∧ (run (attacks n) Server.init h).2.lost.length = h.lost.length + 2 * n
  | 0, _ => ⟨rfl, rfl⟩
  | n + 1, h => by
    obtain ⟨h1, h2⟩ := once_run h
    obtain ⟨h3, h4⟩ := attacks_run n (run once Server.init h).2
    rw [attacks, run_append, h1]
    exact ⟨h3, by rw [h4, h2]; omega⟩

/-- **C198** is false of the program: clients that fill the buffer with queries and whose connections are then reset leave a request each. Any number of them can come and go: when all are gone, no query
is waiting and the server has been shut down, all that memory is still allocated. -/
theorem C198_refuted (n : Nat) : ∃ l : List Step, (after l).1 = Server.init ∧ ∃ left : List Heap.Id, left.length = 2 * n ∧ ∀ i, (afterStop l).refs i = left.count i := by
  obtain ⟨h1, h2⟩ := attacks_run n (H.init fun _ => 0)
  have h3 : Own (after (attacks n)).1.things (after (attacks n)).2 := t_run _ Server.init _ (own_init _)
  refine ⟨attacks n, h1, (after (attacks n)).2.lost, h2.trans (Nat.zero_add _), fun i => ?_⟩
  unfold afterStop
  have h1 : (after (attacks n)).1 = Server.init := h1
  rw [h1] at h3 ⊢
  exact (h3.bal i).trans (Nat.zero_add _)

/-- So are queries that are waiting when the server is shut down. -/
theorem C198_refuted_queue : ∃ l : List Step, readErrors l = 0 ∧ ∃ i, (afterStop l).refs i ≠ 0 :=
  ⟨[.poll 1 [], .poll 0 [.input [.data query, .block]]], rfl, 3, by decide +kernel⟩

/-! ### The claims aren't empty -/

/-- Two clients, two queries of one of them (one has come to a worker, the other waits), a third that is disconnected. -/
def story : List Step := [.poll 2 [], .poll 1 [.quiet, .input [.data query, .block]], .take, .poll 0 [.input [.data (query.take 5), .block], .input [.data query, .block], .down], .notify]

example : (after story).1.clients.map Client.self = [1, 2] ∧ (after story).1.queue.map taskThings = [[11, 10, 9]] ∧ (after story).1.working.map taskThings = [[7, 6, 5]] := by decide +kernel
example : (after (story ++ [.finish 0, .take, .finish 0])).1.queue = [] ∧ readErrors (story ++ [.finish 0, .take, .finish 0]) = 0 :=
  ⟨List.length_eq_zero_iff.1 (by decide +kernel), rfl⟩

end Verif.Conn
