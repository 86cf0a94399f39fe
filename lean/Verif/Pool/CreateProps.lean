import Verif.Pool.Model
/-
C95: creation of a thread pool, including failures of `pthread_create`. `pthread_mutex_init` and the like are not modelled: they fail
before any thread exists, and are undone in reverse order.
-/
namespace Verif.Pool

/-- What `thread_pool_create` leaves behind. -/
inductive Created where
  /-- A pool with that many threads. -/
  | pool (threads : Nat)
  /-- An error. The pool was freed; that many threads are running `tasks_poll` on it. -/
  | freed (threads : Nat)
  deriving DecidableEq, Repr

/-- src/thread/thread_pool.c:262-288 `spawn_threads`; the list says which calls of `pthread_create` succeed. Yields whether there
was an error, and the number of threads that exist. -/
def spawnThreads : List Bool → Bool × Nat
  | [] => (true, 0)
  | false :: _ => (false, 0)
  | true :: l => ((spawnThreads l).1, (spawnThreads l).2 + 1)

/-- src/thread/thread_pool.c:290-348 `thread_pool_create` -/
def create (l : List Bool) : Created :=
  if (spawnThreads l).1 then .pool (spawnThreads l).2 else .freed (spawnThreads l).2

/-- Nobody uses memory that was freed. -/
def Created.Sound : Created → Prop
  | .pool _ => True
  | .freed k => k = 0

theorem spawnThreads_ok : ∀ l, (∀ b ∈ l, b = true) → spawnThreads l = (true, l.length)
  | [], _ => rfl
  | b :: l, h => by
    rw [h b (List.mem_cons_self ..)]
    unfold spawnThreads
    rw [spawnThreads_ok l fun b hb => h b (List.mem_cons_of_mem _ hb)]
    rfl

theorem spawnThreads_fail : ∀ (k : Nat) (l : List Bool), spawnThreads (List.replicate k true ++ false :: l) = (false, k)
  | 0, l => rfl
  | k + 1, l => by
    show spawnThreads (true :: (List.replicate k true ++ false :: l)) = _
    unfold spawnThreads
    rw [spawnThreads_fail k l]

/-- **C95.** If all threads can be created, the pool has as many as asked for. -/
theorem C95_all (l : List Bool) (h : ∀ b ∈ l, b = true) : create l = .pool l.length := by
  unfold create
  rw [spawnThreads_ok l h]
  rfl

/-- **C95** (partial: only the first thread can fail harmlessly). The creation is sound exactly if all threads can be created or the first
one can't. -/
theorem C95_partial (l : List Bool) : (create l).Sound ↔ (∀ b ∈ l, b = true) ∨ l.head? = some false := by
  match l with
  | [] => simp [create, spawnThreads, Created.Sound]
  | false :: l => simp [create, spawnThreads, Created.Sound]
  | true :: l =>
    constructor
    · intro h
      left
      by_cases hf : (spawnThreads (true :: l)).1 = true
      · have key : ∀ l : List Bool, (spawnThreads l).1 = true → ∀ b ∈ l, b = true := by
          intro l
          induction l with
          | nil => intro _ b hb; cases hb
          | cons a l ih =>
            intro h b hb
            cases a with
            | false => cases h
            | true =>
              rcases List.mem_cons.1 hb with rfl | hb
              · rfl
              · exact ih h b hb
        exact key _ hf
      · unfold create at h
        rw [if_neg hf] at h
        exact absurd h (Nat.succ_ne_zero _)
    · rintro (h | h)
      · rw [C95_all _ h]; trivial
      · cases h

/-- **C95 is refuted**: after a failure past the first thread, the other threads go on with memory that was freed. -/
theorem C95_refuted (k : Nat) (l : List Bool) : create (List.replicate k true ++ false :: l) = .freed k := by
  unfold create
  rw [spawnThreads_fail]
  rfl

example : ¬(create [true, true, false, true]).Sound := fun h => by cases h

end Verif.Pool
