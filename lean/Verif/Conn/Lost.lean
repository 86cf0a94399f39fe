import Verif.Conn.Refine
/-
How much the RTR server loses.
-/
namespace Verif.Conn
open Verif.Heap Verif.Rtr

theorem lo_reqDestroy {r : Req} : Lo0 (reqDestroy r) := Lo.bind0 lo_use fun _ => Lo.bind0 lo_free fun _ => lo_free
theorem lo_reqDestroyOpt : ∀ a, Lo0 (reqDestroyOpt a)
  | none => Lo.pure
  | some _ => lo_reqDestroy
theorem lo_failed {a b : Option Req} {raw : Option Heap.Id} : Lo0 (failed a b raw) := Lo.bind0 (lo_reqDestroyOpt _) fun _ => Lo.bind0 (lo_reqDestroyOpt _) fun _ => lo_freeAll _

theorem lo_iter {s : Stream} {a : Option Req} : Lo0 (iter s a) := by
  refine Lo.ite Lo.pure (Lo.bind0 lo_new fun raw => ?_)
  have hraw : Lo0 (do use raw; failed a none (some raw); return .fail : HM Iter) := Lo.bind0 lo_use fun _ => Lo.bind0 lo_failed fun _ => Lo.pure
  refine Lo.ite hraw ?_
  cases validateVersion s.ver (readHdr s.buf).version (rawOf s.buf) with
  | error _ => exact hraw
  | ok v =>
    refine Lo.bind0 lo_new fun self => ?_
    cases loadPdu v (readHdr s.buf) s (rawOf s.buf) with
    | frag v => exact Lo.bind0 lo_reqDestroy fun _ => Lo.pure
    | fail _ _ => exact Lo.bind0 (lo_useAll _) fun _ => Lo.bind0 lo_failed fun _ => Lo.pure
    | pdu s' r => exact Lo.bind0 lo_use fun _ => Lo.bind0 (lo_reqDestroyOpt _) fun _ => Lo.pure
    | text _ _ => exact Lo.bind0 lo_new fun _ => Lo.bind0 lo_use fun _ => Lo.bind0 lo_free fun _ => Lo.bind0 lo_failed fun _ => Lo.pure
    | stale => exact Lo.bind0 lo_new fun _ => Lo.bind0 lo_use fun _ => Lo.bind0 lo_free fun _ => Lo.bind0 lo_failed fun _ => Lo.pure
    | ub => exact Lo.bind0 lo_new fun _ => Lo.bind0 lo_use fun _ => Lo.bind0 lo_free fun _ => Lo.bind0 lo_failed fun _ => Lo.pure

theorem lo_loop : ∀ n s a, Lo0 (loop n s a)
  | 0, _, _ => Lo.pure
  | n + 1, _, _ => by
    refine Lo.ite Lo.pure (Lo.bind0 lo_iter fun r => ?_)
    cases r with
    | leave s => exact Lo.pure
    | fail => exact Lo.pure
    | got s r => exact lo_loop n _ _

theorem lo_loseReq : ∀ a, Lo (loseReq a) (fun _ => 2)
  | none => Lo.pure
  | some _ => Lo.bind lo_lose fun _ _ => Nat.le_refl _

/-- How many reads fail. -/
def errors : List SockEv → Nat
  | [] => 0
  | .error :: es => errors es + 1
  | _ :: es => errors es

/-- Those that are left, and the one that failed. -/
def cost (r : List Byte × List SockEv × BufState) : Nat := errors r.2.1 + (if r.2.2 = .error then 1 else 0)

theorem errors_readLoop : ∀ (es : List SockEv) (b : List Byte), cost (readLoop es b) ≤ errors es
  | [], b => by
    rw [readLoop.eq_def]
    simp only
    by_cases h : 1024 ≤ b.length
    · rw [if_pos h]; simp [cost]
    · rw [if_neg h]; simp [cost]
  | e :: es, b => by
    rw [readLoop.eq_def]
    simp only
    by_cases h : 1024 ≤ b.length
    · rw [if_pos h]; simp [cost]
    rw [if_neg h]
    cases e with
    | block => simp [errors, cost]
    | error => simp [errors, cost]
    | data bs =>
      simp only
      by_cases h1 : bs.length = 0
      · rw [if_pos h1]; simp [errors, cost]
      rw [if_neg h1]
      by_cases h2 : bs.length ≤ 1024 - b.length
      · rw [if_pos h2]
        exact errors_readLoop es (b ++ bs)
      · rw [if_neg h2]; simp [errors, cost]

theorem errors_updateBuffer (s : Stream) (es : List SockEv) : errors (updateBuffer s es).2.1 + (if (updateBuffer s es).2.2 = .error then 1 else 0) ≤ errors es := errors_readLoop es s.buf

theorem lo_next : ∀ n s es a, Lo (next n s es a) (fun _ => 2 * errors es)
  | 0, _, _, _ => Lo.pure
  | n + 1, s, es, a => by
    have hu := errors_updateBuffer s es
    unfold next
    simp only
    by_cases he : (updateBuffer s es).2.2 = .error
    · rw [if_pos he]
      rw [if_pos he] at hu
      refine Lo.bind (lo_loseReq a) fun _ st => ?_
      show st.lost.length + 2 ≤ st.lost.length + 2 * errors es
      omega
    rw [if_neg he]
    rw [if_neg he] at hu
    refine Lo.bind0 (lo_loop _ _ _) fun r => ?_
    cases r with
    | none => exact Lo.pure
    | some x =>
      obtain ⟨s1, b⟩ := x
      have hk : Lo (next n s1 (updateBuffer s es).2.1 b) (fun _ => 2 * errors es) := (lo_next n s1 _ b).mono fun _ => by omega
      simp only
      cases (updateBuffer s es).2.2 with
      | eos =>
        cases b with
        | none => exact Lo.pure
        | some r => exact Lo.bind0 lo_use fun _ => Lo.pure
      | wouldBlock => exact Lo.pure
      | keepReading => exact hk
      | error => exact hk

/-- How many reads fail in a step. -/
def Ev.errors : Ev → Nat
  | .input es => Conn.errors es
  | _ => 0

def evErrors : List Ev → Nat
  | [] => 0
  | e :: l => e.errors + evErrors l

def Step.errors : Step → Nat
  | .poll _ evs => evErrors evs
  | _ => 0

/-- How many reads fail in a run. -/
def readErrors : List Step → Nat
  | [] => 0
  | x :: l => x.errors + readErrors l

theorem lo_accept : ∀ n l, Lo0 (accept n l)
  | 0, _ => Lo.pure
  | n + 1, _ => Lo.bind0 lo_new fun _ => lo_accept n _

theorem lo_pollClient {c : Client} {ev : Ev} {q : List (Heap.Id × Req)} : Lo (pollClient c ev q) (fun _ => 2 * ev.errors) := by
  cases ev with
  | quiet => exact Lo.pure
  | down => exact Lo.pure
  | input es =>
    refine Lo.bind0 lo_use fun _ => Lo.bind (lo_next _ _ es none) fun r s => ?_
    refine Nat.add_le_add_right ?_ _
    revert s
    show Lo0 _
    cases r with
    | none => exact Lo.pure
    | some x =>
      obtain ⟨s, r⟩ := x
      cases r with
      | none => exact Lo.pure
      | some r => exact Lo.bind0 lo_new fun _ => Lo.pure

theorem lo_pollClients : ∀ l evs q, Lo (pollClients l evs q) (fun _ => 2 * evErrors evs)
  | [], _, _ => Lo.pure
  | c :: l, evs, q => by
    have he : evErrors evs = (evs.headD .quiet).errors + evErrors evs.tail := by
      cases evs <;> rfl
    refine Lo.bind lo_pollClient fun r s => ?_
    have h := lo_pollClients l evs.tail r.2.2 s
    simp only [run_bind] at h ⊢
    show ((pollClients l evs.tail r.2.2 s).2).lost.length + 2 * (evs.headD .quiet).errors ≤ s.lost.length + 2 * evErrors evs
    omega

theorem lo_applyPollfds : ∀ l, Lo0 (applyPollfds l)
  | [] => Lo.pure
  | (_, _) :: l => Lo.bind0 lo_use fun _ => Lo.ite (Lo.bind0 lo_free fun _ => lo_applyPollfds l) (Lo.bind0 (lo_applyPollfds l) fun _ => Lo.pure)

theorem lo_poll {n : Nat} {evs : List Ev} {v : Server} : Lo (poll n evs v) (fun _ => 2 * evErrors evs) := by
  refine Lo.bind0 lo_new fun _ => Lo.bind0 (lo_useAll _) fun _ => Lo.bind0 (lo_accept _ _) fun _ => Lo.bind (lo_pollClients _ _ _) fun r s => Nat.add_le_add_right ?_ _
  exact (Lo.bind0 (lo_applyPollfds r.1) fun _ => Lo.bind0 lo_free fun _ => Lo.pure : Lo0 _) s

theorem lo_take {v : Server} : Lo0 (take v) := by
  unfold take
  cases v.queue.getLast? with
  | none => exact Lo.pure
  | some x => exact Lo.bind0 lo_use fun _ => Lo.pure

theorem lo_finishTask {x : Heap.Id × Req} : Lo0 (finishTask x) := Lo.bind0 (lo_useAll _) fun _ => Lo.bind0 lo_reqDestroy fun _ => Lo.bind0 lo_use fun _ => lo_free

theorem lo_finish {i : Nat} {v : Server} : Lo0 (finish i v) := by
  unfold finish
  cases v.working[i]? with
  | none => exact Lo.pure
  | some x => exact Lo.bind0 lo_finishTask fun _ => Lo.pure

theorem lo_step {v : Server} : ∀ (x : Step), Lo (step v x) (fun _ => 2 * x.errors)
  | .poll _ _ => lo_poll
  | .take => lo_take
  | .finish _ => lo_finish
  | .notify => Lo.bind0 (lo_useAll _) fun _ => Lo.pure

theorem lo_run : ∀ (l : List Step) (v : Server), Lo (run l v) (fun _ => 2 * readErrors l)
  | [], _ => Lo.pure
  | x :: l, v => Lo.bind (lo_step x) fun r s => by
      have h := lo_run l r s
      simp only [readErrors] at h ⊢
      omega

theorem lo_dropQueue : ∀ (l : List (Heap.Id × Req)), Lo (dropQueue l) (fun _ => 2 * l.length)
  | [] => Lo.pure
  | (t, r) :: l => by
    refine Lo.bind0 lo_free fun _ => Lo.bind (lo_loseReq _) fun _ s => ?_
    have h := lo_dropQueue l s
    simp only [List.length_cons] at h ⊢
    omega

theorem lo_finishAll : ∀ (l : List (Heap.Id × Req)), Lo0 (finishAll l)
  | [] => Lo.pure
  | _ :: l => Lo.bind0 lo_finishTask fun _ => lo_finishAll l

theorem lo_stop {v : Server} : Lo (stop v) (fun _ => 2 * v.queue.length) :=
  Lo.bind (lo_dropQueue _) fun _ s => Nat.add_le_add_right ((Lo.bind0 (lo_finishAll _) fun _ => lo_freeAll _ : Lo0 (do finishAll v.working; freeAll (v.clients.map Client.self))) s) _

end Verif.Conn
