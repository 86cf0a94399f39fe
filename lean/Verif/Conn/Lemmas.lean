import Verif.Conn.Model
import Verif.Heap.Lost
/-
Ownership in the RTR server.
-/
namespace Verif.Conn
open Verif.Heap Verif.Rtr

theorem t_reqDestroy {L : List Heap.Id} {r : Req} : Tri (Own (r.things ++ L)) (reqDestroy r) (fun _ => Own L) := by
  refine Tri.bind (t_use (by simp [Req.things])) fun _ => Tri.bind (Tri.perm (t_free (L := r.self :: L)) fun i => ?_) fun _ => t_free
  simp only [Req.things, List.count_append, List.count_cons, List.count_nil]; omega

theorem t_reqDestroyOpt {L : List Heap.Id} : ∀ (r : Option Req), Tri (Own (optReq r ++ L)) (reqDestroyOpt r) (fun _ => Own L)
  | none => Tri.pure fun _ h => h
  | some r => Tri.perm (t_reqDestroy (r := r)) fun i => by simp [optReq]

theorem t_failed {L : List Heap.Id} {a b : Option Req} {raw : Option Heap.Id} : Tri (Own (optReq a ++ (optReq b ++ (raw.toList ++ L)))) (failed a b raw) (fun _ => Own L) :=
  Tri.bind (t_reqDestroyOpt a) fun _ => Tri.bind (t_reqDestroyOpt b) fun _ => t_freeAll _

/-- What an iteration leaves, `a` being the request before it. -/
def Iter.things (a : Option Req) : Iter → List Heap.Id
  | .leave _ => optReq a
  | .fail => []
  | .got _ r => r.things

theorem optReq_some (r : Req) : optReq (some r) = r.things := by simp [optReq]
theorem optReq_none : optReq none = [] := rfl

theorem t_iter {L : List Heap.Id} {s : Stream} {a : Option Req} : Tri (Own (optReq a ++ L)) (iter s a) (fun r => Own (r.things a ++ L)) := by
  refine Tri.ite (fun _ => Tri.pure fun _ h => h) fun _ => Tri.bind t_new fun raw => ?_
  have hraw : Tri (Own (raw :: (optReq a ++ L))) (do use raw; failed a none (some raw); return .fail : HM Iter) (fun r => Own (r.things a ++ L)) := by
    refine Tri.bind (t_use List.mem_cons_self) fun _ => Tri.bind (Tri.perm (t_failed (L := L)) fun i => ?_) fun _ => Tri.pure fun _ h => h
    simp only [optReq_none, Option.toList, List.count_append, List.count_cons, List.count_nil]; omega
  refine Tri.ite (fun _ => hraw) fun _ => ?_
  cases validateVersion s.ver (readHdr s.buf).version (rawOf s.buf) with
  | error _ => exact hraw
  | ok v =>
    refine Tri.bind t_new fun self => ?_
    simp only
    generalize hw : (⟨(readHdr s.buf).version, .reset, rawOf s.buf, false⟩ : Request) = w
    have htext : Tri (Own (self :: raw :: (optReq a ++ L))) (do let text ← new; use text; free text; failed a (some ⟨self, raw, w⟩) none; return .fail : HM Iter) (fun r => Own (r.things a ++ L)) := by
      refine Tri.bind t_new fun text => Tri.bind (t_use List.mem_cons_self) fun _ => Tri.bind t_free fun _ => Tri.bind (Tri.perm (t_failed (L := L)) fun i => ?_) fun _ => Tri.pure fun _ h => h
      simp only [optReq_some, Req.things, Option.toList, List.count_append, List.count_cons, List.count_nil]; omega
    cases loadPdu v (readHdr s.buf) s (rawOf s.buf) with
    | frag v => exact Tri.bind (t_reqDestroy (r := ⟨self, raw, w⟩)) fun _ => Tri.pure fun _ h => h
    | fail _ _ =>
      refine Tri.bind (t_useAll _ fun i hi => ?_) fun _ => Tri.bind (Tri.perm (t_failed (L := L)) fun i => ?_) fun _ => Tri.pure fun _ h => h
      · simp [Req.things] at hi ⊢; tauto
      · simp only [optReq_some, Req.things, Option.toList, List.count_append, List.count_cons, List.count_nil]; omega
    | pdu s' r =>
      refine Tri.bind (t_use List.mem_cons_self) fun _ => Tri.bind (Tri.perm (t_reqDestroyOpt (L := self :: raw :: L) a) fun i => ?_) fun _ => Tri.pure fun _ h => h
      simp only [List.count_append, List.count_cons]; omega
    | text _ _ => exact htext
    | stale => exact htext
    | ub => exact htext

/-- What the loop leaves. -/
def left (x : Option (Stream × Option Req)) : List Heap.Id := x.toList.flatMap fun y => optReq y.2

theorem left_some (s : Stream) (a : Option Req) : left (some (s, a)) = optReq a := by simp [left]

theorem t_leave {L : List Heap.Id} {s : Stream} {a : Option Req} : Tri (Own (optReq a ++ L)) (return some (s, a) : HM (Option (Stream × Option Req))) (fun r => Own (left r ++ L)) :=
  Tri.pure fun _ h => by rw [left_some]; exact h

theorem t_loop {L : List Heap.Id} : ∀ (n : Nat) (s : Stream) (a : Option Req), Tri (Own (optReq a ++ L)) (loop n s a) (fun r => Own (left r ++ L))
  | 0, _, _ => t_leave
  | n + 1, s, a => by
    refine Tri.ite (fun _ => t_leave) fun _ => Tri.bind t_iter fun r => ?_
    cases r with
    | leave s => exact t_leave
    | fail => exact Tri.pure fun _ h => h
    | got s r => exact Tri.perm (t_loop n s (some r)) fun i => by rw [optReq_some]; rfl

theorem t_loseReq {L : List Heap.Id} : ∀ (a : Option Req), Tri (Own (optReq a ++ L)) (loseReq a) (fun _ => Own L)
  | none => Tri.pure fun _ h => h
  | some r => Tri.bind (Tri.perm (t_lose (L := r.self :: L)) fun i => by rw [optReq_some]; simp only [Req.things, List.count_append, List.count_cons, List.count_nil]; omega) fun _ => t_lose

theorem t_next {L : List Heap.Id} : ∀ (n : Nat) (s : Stream) (es : List SockEv) (a : Option Req), Tri (Own (optReq a ++ L)) (next n s es a) (fun r => Own (left r ++ L))
  | 0, _, _, _ => t_leave
  | n + 1, s, es, a => by
    refine Tri.ite (fun _ => Tri.bind (t_loseReq a) fun _ => Tri.pure fun _ h => h) fun _ => Tri.bind (t_loop _ _ a) fun r => ?_
    cases r with
    | none => exact Tri.pure fun _ h => h
    | some x =>
      obtain ⟨s1, b⟩ := x
      simp only
      rw [left_some]
      cases (updateBuffer s es).2.2 with
      | eos =>
        cases b with
        | none => exact Tri.pure fun _ h => h
        | some r =>
          refine Tri.bind (t_use (by simp [optReq_some, Req.things])) fun _ => Tri.pure fun _ h => ?_
          rw [left_some]; exact h
      | wouldBlock => exact t_leave
      | keepReading => exact t_next n _ _ _
      | error => exact t_next n _ _ _

/-! ### The server -/

theorem t_accept {L : List Heap.Id} : ∀ (n : Nat) (l : List Client), Tri (Own (l.map Client.self ++ L)) (accept n l) (fun r => Own (r.map Client.self ++ L))
  | 0, _ => Tri.pure fun _ h => h
  | n + 1, l => Tri.bind t_new fun c => Tri.perm (t_accept n (l ++ [⟨c, Stream.new⟩])) fun i => by
      simp only [List.map_append, List.map_cons, List.map_nil, List.count_append, List.count_cons, List.count_nil]; omega

theorem t_pollClient {L : List Heap.Id} {c : Client} {ev : Ev} {q : List (Heap.Id × Req)} (hc : c.self ∈ L) :
    Tri (Own (q.flatMap taskThings ++ L)) (pollClient c ev q) (fun r s => Own (r.2.2.flatMap taskThings ++ L) s ∧ r.2.1.self = c.self) := by
  cases ev with
  | quiet => exact Tri.pure fun _ h => ⟨h, rfl⟩
  | down => exact Tri.pure fun _ h => ⟨h, rfl⟩
  | input es =>
    refine Tri.bind (t_use (List.mem_append_right _ hc)) fun _ => Tri.bind (t_next (L := q.flatMap taskThings ++ L) (a := none) _ _ es) fun r => ?_
    cases r with
    | none => exact Tri.pure fun _ h => ⟨h, rfl⟩
    | some x =>
      obtain ⟨s, r⟩ := x
      cases r with
      | none => exact Tri.pure fun _ h => ⟨h, rfl⟩
      | some r =>
        refine Tri.bind t_new fun t => Tri.pure fun _ h => ⟨h.perm fun i => ?_, rfl⟩
        rw [left_some, optReq_some]
        simp only [List.flatMap_cons, taskThings, List.count_append, List.count_cons]; omega

theorem t_pollClients {L : List Heap.Id} : ∀ (l : List Client) (evs : List Ev) (q : List (Heap.Id × Req)), (∀ c ∈ l, c.self ∈ L) →
    Tri (Own (q.flatMap taskThings ++ L)) (pollClients l evs q) (fun r s => Own (r.2.flatMap taskThings ++ L) s ∧ r.1.map (fun x => x.2.self) = l.map Client.self)
  | [], _, _, _ => Tri.pure fun _ h => ⟨h, rfl⟩
  | c :: l, evs, q, hl => by
    refine Tri.bind (t_pollClient (hl c List.mem_cons_self)) fun r => Tri.pre fun hr => Tri.bind (t_pollClients l _ _ fun c hc => hl c (List.mem_cons_of_mem _ hc)) fun r2 => Tri.pre fun hr2 => Tri.pure fun _ h => ⟨h, ?_⟩
    simp only [List.map_cons, hr, hr2]

theorem t_applyPollfds {L : List Heap.Id} : ∀ (l : List (Bool × Client)), Tri (Own (l.map (fun x => x.2.self) ++ L)) (applyPollfds l) (fun r => Own (r.map Client.self ++ L))
  | [] => Tri.pure fun _ h => h
  | (dead, c) :: l => by
    refine Tri.bind (t_use List.mem_cons_self) fun _ => Tri.ite (fun _ => Tri.bind t_free fun _ => t_applyPollfds l) fun _ => ?_
    refine Tri.bind (Tri.perm (t_applyPollfds (L := c.self :: L) l) fun i => ?_) fun r => Tri.pure fun _ h => h.perm fun i => ?_
    · simp only [List.map_cons, List.count_append, List.count_cons]; omega
    · simp only [List.map_cons, List.count_append, List.count_cons]; omega

theorem t_poll {n : Nat} {evs : List Ev} {v : Server} : Tri (Own v.things) (poll n evs v) (fun r => Own r.things) := by
  refine Tri.bind t_new fun p => Tri.bind (t_useAll _ fun i hi => ?_) fun _ => Tri.bind (t_accept n []) fun fresh => ?_
  · simp only [Server.things, List.mem_cons, List.mem_append]; tauto
  refine Tri.bind (Tri.perm (t_pollClients (L := v.clients.map Client.self ++ (p :: (v.working.flatMap taskThings ++ fresh.map Client.self))) v.clients evs v.queue fun c hc => ?_) fun i => ?_) fun r => Tri.pre fun hr => ?_
  · exact List.mem_append_left _ (List.mem_map_of_mem hc)
  · simp only [Server.things, List.count_append, List.count_cons]; omega
  refine Tri.bind (Tri.perm (t_applyPollfds (L := p :: (r.2.flatMap taskThings ++ (v.working.flatMap taskThings ++ fresh.map Client.self))) r.1) fun i => ?_) fun l => ?_
  · rw [hr]; simp only [List.count_append, List.count_cons]; omega
  refine Tri.bind (Tri.perm (t_free (L := l.map Client.self ++ (r.2.flatMap taskThings ++ (v.working.flatMap taskThings ++ fresh.map Client.self)))) fun i => ?_) fun _ => Tri.pure fun _ h => h.perm fun i => ?_
  · simp only [List.count_append, List.count_cons]; omega
  · simp only [Server.things, List.map_append, List.count_append]; omega

theorem t_take {v : Server} : Tri (Own v.things) (take v) (fun r => Own r.things) := by
  unfold take
  cases hq : v.queue.getLast? with
  | none => exact Tri.pure fun _ h => h
  | some x =>
    have e := List.dropLast_append_getLast? _ hq
    have hc : ∀ i, (v.queue.flatMap taskThings).count i = (v.queue.dropLast.flatMap taskThings).count i + (taskThings x).count i := by
      intro i
      conv_lhs => rw [← e]
      simp only [List.flatMap_append, List.flatMap_cons, List.flatMap_nil, List.append_nil, List.count_append]
    refine Tri.bind (t_use ?_) fun _ => Tri.pure fun _ h => h.perm fun i => ?_
    · have := hc x.1
      refine List.mem_append_left _ (List.mem_append_right _ (List.count_pos_iff.1 ?_))
      rw [this]; simp [taskThings]; omega
    · have := hc i
      simp only [Server.things, List.flatMap_cons, List.count_append] at this ⊢; omega

theorem t_finishTask {L : List Heap.Id} {x : Heap.Id × Req} : Tri (Own (taskThings x ++ L)) (finishTask x) (fun _ => Own L) := by
  refine Tri.bind (t_useAll _ fun i hi => ?_) fun _ => Tri.bind (Tri.perm (t_reqDestroy (L := x.1 :: L)) fun i => ?_) fun _ => Tri.bind (t_use List.mem_cons_self) fun _ => t_free
  · simp only [taskThings, List.mem_append, List.mem_cons]; tauto
  · simp only [taskThings, List.count_append, List.count_cons]; omega

theorem t_finish {i : Nat} {v : Server} : Tri (Own v.things) (finish i v) (fun r => Own r.things) := by
  unfold finish
  cases hw : v.working[i]? with
  | none => exact Tri.pure fun _ h => h
  | some x =>
    refine Tri.bind (Tri.perm (t_finishTask (L := v.clients.map Client.self ++ v.queue.flatMap taskThings ++ (v.working.eraseIdx i).flatMap taskThings)) fun j => ?_) fun _ => Tri.pure fun _ h => h
    have hi := (List.getElem?_eq_some_iff.1 hw)
    obtain ⟨hlt, hx⟩ := hi
    have e : (v.working.flatMap taskThings).count j = (taskThings x).count j + ((v.working.eraseIdx i).flatMap taskThings).count j := by
      rw [List.eraseIdx_eq_take_drop_succ]
      conv_lhs => rw [← List.take_append_drop i v.working, List.drop_eq_getElem_cons hlt, hx]
      simp only [List.flatMap_append, List.flatMap_cons, List.count_append]; omega
    simp only [Server.things, List.count_append]; omega

theorem t_step {v : Server} : ∀ (x : Step), Tri (Own v.things) (step v x) (fun r => Own r.things)
  | .poll _ _ => t_poll
  | .take => t_take
  | .finish _ => t_finish
  | .notify => Tri.bind (t_useAll _ fun i hi => by simp only [Server.things, List.mem_append]; tauto) fun _ => Tri.pure fun _ h => h

theorem t_run : ∀ (l : List Step) (v : Server), Tri (Own v.things) (run l v) (fun r => Own r.things)
  | [], _ => Tri.pure fun _ h => h
  | x :: l, _ => Tri.bind (t_step x) fun r => t_run l r

theorem t_dropQueue {L : List Heap.Id} : ∀ (l : List (Heap.Id × Req)), Tri (Own (l.flatMap taskThings ++ L)) (dropQueue l) (fun _ => Own L)
  | [] => Tri.pure fun _ h => h
  | (t, r) :: l => by
    refine Tri.bind (Tri.perm (t_free (L := r.things ++ (l.flatMap taskThings ++ L))) fun i => ?_) fun _ => Tri.bind (Tri.perm (t_loseReq (some r)) fun i => by rw [optReq_some]) fun _ => t_dropQueue l
    simp only [List.flatMap_cons, taskThings, List.count_append, List.count_cons]; omega

theorem t_finishAll {L : List Heap.Id} : ∀ (l : List (Heap.Id × Req)), Tri (Own (l.flatMap taskThings ++ L)) (finishAll l) (fun _ => Own L)
  | [] => Tri.pure fun _ h => h
  | x :: l => Tri.bind (Tri.perm (t_finishTask (L := l.flatMap taskThings ++ L)) fun i => by simp only [List.flatMap_cons, List.count_append]; omega) fun _ => t_finishAll l

theorem t_stop {v : Server} : Tri (Own v.things) (stop v) (fun _ => Own []) := by
  refine Tri.bind (Tri.perm (t_dropQueue (L := v.working.flatMap taskThings ++ (v.clients.map Client.self ++ [])) v.queue) fun i => ?_) fun _ => Tri.bind (t_finishAll _) fun _ => t_freeAll _
  simp only [Server.things, List.count_append, List.count_nil]; omega

end Verif.Conn
