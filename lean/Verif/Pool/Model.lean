import Mathlib.Data.Fintype.BigOperators
import Mathlib.Algebra.BigOperators.Group.Finset.Basic
import Mathlib.Algebra.BigOperators.Fin
/-
The thread pool of the RTR server, as an interleaving of its worker threads and of the thread that owns it.

Each step is a piece of code between two points at which another thread can do something that matters: acquiring the mutex, what is
done while it is held (in several steps), releasing it. Everything outside of the mutex which touches the pool is a step as well. The
mutex and the condition variables are POSIX's: waiting releases the mutex and blocks in one step, a signal wakes one waiting thread if
there is one, a wake-up without a signal can happen any time, and a thread that was woken has to acquire the mutex again.
Not modelled: failures of the POSIX functions (the program aborts), the tasks' own code, names and debugging messages.
-/
namespace Verif.Pool

/-- What a worker thread is about to do; src/thread/thread_pool.c:175-219 `tasks_poll`. -/
inductive W (T : Type) where
  /-- The first `mutex_lock`. -/
  | start
  /-- (Holds the mutex.) `while (TAILQ_EMPTY(&pool->queue) && !pool->stop)`, and the two lines after that loop. -/
  | loop
  /-- Blocked in `pthread_cond_wait`. -/
  | waiting
  /-- Woken up; `pthread_cond_wait` acquires the mutex. -/
  | woken
  /-- (Holds the mutex.) The task was claimed and counted; `mutex_unlock`. -/
  | claimed (t : T)
  /-- `task->cb(task->arg)` is running. -/
  | run (t : T)
  /-- The task ended; `mutex_lock`. -/
  | ended
  /-- (Holds the mutex.) `pool->working_count--`. -/
  | count
  /-- (Holds the mutex.) `if (pool->stop)`, and the signal. -/
  | check
  /-- (Holds the mutex.) The last `mutex_unlock`. -/
  | leave
  /-- The thread returned. -/
  | over
  deriving DecidableEq, Repr

/-- What the owner of the pool calls. Nothing is called after `destroy`. -/
inductive Op (T : Type) where
  | push (t : T)
  | wait
  | destroy
  deriving DecidableEq, Repr

/-- What the owner is about to do; the list is what it calls later. -/
inductive P (T : Type) where
  /-- Nothing. -/
  | idle
  /-- (Holds the mutex.) src/thread/thread_pool.c:387-404 `thread_pool_push`: `task_queue_push`. -/
  | push (t : T)
  /-- (Holds the mutex.) `mutex_unlock`. -/
  | pushed
  /-- `signal_to_worker`, after the mutex was released. -/
  | signal
  /-- (Holds the mutex.) src/thread/thread_pool.c:420-443 `thread_pool_wait`: the loop's conditions. -/
  | wait
  /-- Blocked in `pthread_cond_wait`. -/
  | waiting
  /-- Woken up; `pthread_cond_wait` acquires the mutex. -/
  | woken
  /-- (Holds the mutex.) `mutex_unlock`, and `thread_pool_wait` returns. -/
  | waited
  /-- (Holds the mutex.) src/thread/thread_pool.c:350-381 `thread_pool_destroy`: the loop that drops the tasks. -/
  | drop
  /-- (Holds the mutex.) `pthread_cond_broadcast`. -/
  | broadcast
  /-- (Holds the mutex.) `mutex_unlock`. -/
  | stopped
  /-- `pthread_join` of that thread and the following ones. -/
  | join (k : Nat)
  /-- The pool was freed. -/
  | over
  deriving DecidableEq, Repr

/-- Who holds the mutex. -/
inductive Owner (n : Nat) where
  | parent
  | worker (i : Fin n)
  deriving DecidableEq, Repr

/-- `struct thread_pool` (`working_count` is the unsigned number without its limit), the threads, and the history: tasks in the order
in which they were queued, claimed, finished, and how many were dropped by `thread_pool_destroy` from the head of the queue. -/
structure St (n : Nat) (T : Type) where
  queue : List T
  working : Nat
  stop : Bool
  lock : Option (Owner n)
  ws : Fin n → W T
  p : P T
  ops : List (Op T)
  pushed : List T
  claimed : List T
  finished : List T
  dropped : Bool

variable {n : Nat} {T : Type}

/-- A worker goes on. -/
def St.setW (s : St n T) (i : Fin n) (w : W T) : St n T := { s with ws := Function.update s.ws i w }

/-- `pthread_cond_broadcast(&pool->parent2worker)`: every waiting worker is woken. -/
def wakeAll (ws : Fin n → W T) : Fin n → W T := fun i =>
  match ws i with
  | .waiting => .woken
  | w => w

/-- A step of worker `i`. -/
inductive WStep (i : Fin n) : St n T → St n T → Prop
  /-- `mutex_lock`. -/
  | start (s : St n T) : s.ws i = .start → s.lock = none →
    WStep i s ({ s with lock := some (.worker i) }.setW i .loop)
  /-- `wait_for_parent_signal`. -/
  | block (s : St n T) : s.ws i = .loop → s.queue = [] → s.stop = false →
    WStep i s ({ s with lock := none }.setW i .waiting)
  /-- The end of `pthread_cond_wait`. -/
  | wake (s : St n T) : s.ws i = .woken → s.lock = none →
    WStep i s ({ s with lock := some (.worker i) }.setW i .loop)
  /-- `if (pool->stop) break;` -/
  | stop (s : St n T) : s.ws i = .loop → s.stop = true → WStep i s (s.setW i .leave)
  /-- src/thread/thread_pool.c:138-154 `task_queue_pull` (the tail of the queue), `pool->working_count++` -/
  | claim (s : St n T) (t : T) (q : List T) : s.ws i = .loop → s.stop = false → s.queue = q ++ [t] →
    WStep i s ({ s with queue := q, working := s.working + 1, claimed := s.claimed ++ [t] }.setW i (.claimed t))
  /-- `mutex_unlock` -/
  | unlock (s : St n T) (t : T) : s.ws i = .claimed t → WStep i s ({ s with lock := none }.setW i (.run t))
  /-- The task's function returns. -/
  | finish (s : St n T) (t : T) : s.ws i = .run t → WStep i s ({ s with finished := s.finished ++ [t] }.setW i .ended)
  /-- `mutex_lock` -/
  | relock (s : St n T) : s.ws i = .ended → s.lock = none → WStep i s ({ s with lock := some (.worker i) }.setW i .count)
  /-- `pool->working_count--` -/
  | count (s : St n T) : s.ws i = .count → WStep i s ({ s with working := s.working - 1 }.setW i .check)
  /-- `if (pool->stop) break;` -/
  | checkStop (s : St n T) : s.ws i = .check → s.stop = true → WStep i s (s.setW i .leave)
  /-- There is more work. -/
  | checkMore (s : St n T) : s.ws i = .check → s.stop = false → ¬(s.working = 0 ∧ s.queue = []) → WStep i s (s.setW i .loop)
  /-- `signal_to_parent`, and it was waiting. -/
  | checkWake (s : St n T) : s.ws i = .check → s.stop = false → s.working = 0 → s.queue = [] → s.p = .waiting →
    WStep i s ({ s with p := .woken }.setW i .loop)
  /-- `signal_to_parent`, and it wasn't. -/
  | checkNone (s : St n T) : s.ws i = .check → s.stop = false → s.working = 0 → s.queue = [] → s.p ≠ .waiting →
    WStep i s (s.setW i .loop)
  /-- `mutex_unlock` -/
  | leave (s : St n T) : s.ws i = .leave → WStep i s ({ s with lock := none }.setW i .over)

/-- A step of the owner. -/
inductive PStep : St n T → St n T → Prop
  /-- `thread_pool_push`: `mutex_lock`. -/
  | push (s : St n T) (t : T) (ops : List (Op T)) : s.p = .idle → s.ops = .push t :: ops → s.lock = none →
    PStep s { s with lock := some .parent, p := .push t, ops := ops }
  /-- src/thread/thread_pool.c:157-162 `task_queue_push` (the head of the queue) -/
  | insert (s : St n T) (t : T) : s.p = .push t → PStep s { s with queue := t :: s.queue, pushed := s.pushed ++ [t], p := .pushed }
  /-- `mutex_unlock` -/
  | pushed (s : St n T) : s.p = .pushed → PStep s { s with lock := none, p := .signal }
  /-- `signal_to_worker`, and one of them was waiting. -/
  | signal (s : St n T) (i : Fin n) : s.p = .signal → s.ws i = .waiting → PStep s ({ s with p := .idle }.setW i .woken)
  /-- `signal_to_worker`, and none of them was. -/
  | signalNone (s : St n T) : s.p = .signal → (∀ i, s.ws i ≠ .waiting) → PStep s { s with p := .idle }
  /-- `thread_pool_wait`: `mutex_lock`. -/
  | wait (s : St n T) (ops : List (Op T)) : s.p = .idle → s.ops = .wait :: ops → s.lock = none →
    PStep s { s with lock := some .parent, p := .wait, ops := ops }
  /-- The loop ends. -/
  | waitEnd (s : St n T) : s.p = .wait → (s.stop = true ∨ (s.working = 0 ∧ s.queue = [])) → PStep s { s with p := .waited }
  /-- `wait_for_worker_signal` -/
  | block (s : St n T) : s.p = .wait → s.stop = false → ¬(s.working = 0 ∧ s.queue = []) →
    PStep s { s with lock := none, p := .waiting }
  /-- The end of `pthread_cond_wait`. -/
  | wake (s : St n T) : s.p = .woken → s.lock = none → PStep s { s with lock := some .parent, p := .wait }
  /-- `mutex_unlock` -/
  | waited (s : St n T) : s.p = .waited → PStep s { s with lock := none, p := .idle }
  /-- `thread_pool_destroy`: `mutex_lock`. -/
  | destroy (s : St n T) (ops : List (Op T)) : s.p = .idle → s.ops = .destroy :: ops → s.lock = none →
    PStep s { s with lock := some .parent, p := .drop, ops := [] }
  /-- The head of the queue is freed. -/
  | drop (s : St n T) (t : T) (q : List T) : s.p = .drop → s.queue = t :: q → PStep s { s with queue := q, dropped := true }
  /-- `pool->stop = true` -/
  | stop (s : St n T) : s.p = .drop → s.queue = [] → PStep s { s with stop := true, p := .broadcast }
  /-- `pthread_cond_broadcast` -/
  | broadcast (s : St n T) : s.p = .broadcast → PStep s { s with ws := wakeAll s.ws, p := .stopped }
  /-- `mutex_unlock` -/
  | stopped (s : St n T) : s.p = .stopped → PStep s { s with lock := none, p := .join 0 }
  /-- `pthread_join` returns when the thread has. -/
  | join (s : St n T) (i : Fin n) : s.p = .join i.val → s.ws i = .over → PStep s { s with p := .join (i.val + 1) }
  /-- `free(pool)` -/
  | free (s : St n T) : s.p = .join n → PStep s { s with p := .over }

/-- A step of somebody. -/
inductive Step : St n T → St n T → Prop
  | worker (i : Fin n) {s s' : St n T} : WStep i s s' → Step s s'
  | parent {s s' : St n T} : PStep s s' → Step s s'

/-- A wake-up without a signal. POSIX allows these, and a signal that wakes several threads. -/
inductive Spurious : St n T → St n T → Prop
  | worker (i : Fin n) (s : St n T) : s.ws i = .waiting → Spurious s (s.setW i .woken)
  | parent (s : St n T) : s.p = .waiting → Spurious s { s with p := .woken }

/-- src/thread/thread_pool.c:290-348 `thread_pool_create`, when it succeeds: the threads exist, and did not do anything yet. -/
def init (n : Nat) (ops : List (Op T)) : St n T := ⟨[], 0, false, none, fun _ => .start, .idle, ops, [], [], [], false⟩

/-- Anything that can happen to a pool. -/
inductive Reach (ops : List (Op T)) : St n T → Prop
  | init : Reach ops (init n ops)
  | step {s s' : St n T} : Reach ops s → Step s s' → Reach ops s'
  | spurious {s s' : St n T} : Reach ops s → Spurious s s' → Reach ops s'

end Verif.Pool
