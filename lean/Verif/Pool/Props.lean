import Verif.Pool.Lemmas
import Mathlib.Algebra.Order.BigOperators.Group.Finset
/-
C54: the thread pool.
-/
namespace Verif.Pool
variable {n : Nat} {T : Type}

/-- **C54.** Only one thread at a time is between acquiring and releasing the mutex. -/
theorem C54_exclusive {ops : List (Op T)} {s : St n T} (h : Reach ops s) :
    (∀ i j, (s.ws i).holds = true → (s.ws j).holds = true → i = j) ∧ (∀ i, (s.ws i).holds = true → s.p.holds = false) := by
  have m := h.inv.mutex
  constructor
  · intro i j hi hj
    have := (m.w i).1 hi
    rw [(m.w j).1 hj] at this
    cases this
    rfl
  · intro i hi
    cases hp : s.p.holds with
    | false => rfl
    | true =>
      have := (m.w i).1 hi
      rw [m.p.1 hp] at this
      cases this

/-- **C54.** Tasks are claimed in the order in which they were pushed, without gaps; until the pool is destroyed, those not
claimed yet are exactly the ones in the queue. -/
theorem C54_fifo {ops : List (Op T)} {s : St n T} (h : Reach ops s) :
    s.claimed <+: s.pushed ∧ (s.dropped = false → s.claimed ++ s.queue.reverse = s.pushed) := by
  obtain ⟨⟨d, h1, h2⟩, _⟩ := h.inv.fifo
  constructor
  · exact ⟨s.queue.reverse ++ d, by rw [← List.append_assoc, h1]⟩
  · intro hd
    rw [h2 hd, List.append_nil] at h1
    exact h1

/-- The tasks that are being run or about to be. -/
noncomputable def St.running (s : St n T) : Multiset T := ∑ i, (s.ws i).task

/-- **C54.** Each claimed task is run once: it is being run, or it was, but not both, and not twice. -/
theorem C54_once {ops : List (Op T)} {s : St n T} (h : Reach ops s) :
    (s.finished : Multiset T) + s.running = (s.claimed : Multiset T) ∧ s.finished.Subperm s.pushed := by
  refine ⟨h.inv.tasks, ?_⟩
  have h1 : (s.finished : Multiset T) ≤ (s.claimed : Multiset T) := by
    rw [← h.inv.tasks]; exact Multiset.le_add_right ..
  exact List.Subperm.trans (Multiset.coe_le.1 h1) (C54_fifo h).1.sublist.subperm

theorem idle_task {s : St n T} (h : Inv s) (hw : s.working = 0) : s.running = 0 := by
  have : ∀ i, (s.ws i).busy = 0 := by
    intro i
    by_contra hc
    have := h.counts
    have e : (s.ws i).busy = 1 := by cases hi : s.ws i <;> rw [hi] at hc <;> simp_all [W.busy]
    have := one_le_busy h.counts e
    omega
  apply Finset.sum_eq_zero
  intro i _
  have := this i
  cases hi : s.ws i <;> rw [hi] at this <;> simp_all [W.busy, W.task]

theorem all_done {ops : List (Op T)} {s : St n T} (h : Reach ops s) (hd : s.dropped = false) (hw : s.working = 0) (hq : s.queue = []) :
    s.finished.Perm s.pushed := by
  have h1 := (C54_fifo h).2 hd
  rw [hq, List.reverse_nil, List.append_nil] at h1
  have h2 := (C54_once h).1
  rw [idle_task h.inv hw, add_zero] at h2
  rw [← h1]
  exact Multiset.coe_eq_coe.1 h2

theorem not_dropped {s : St n T} (h : Inv s) (hp : s.p ≠ .drop) (hs : s.p.stopping = false) : s.dropped = false := by
  cases hd : s.dropped with
  | false => rfl
  | true =>
    rcases h.fifo.drop hd with h | h
    · exact absurd h hp
    · rw [hs] at h; cases h

/-- `waited` is only entered through the loop's end. -/
theorem waited_inv {ops : List (Op T)} {s : St n T} (h : Reach ops s) (hp : s.p = .waited) : s.working = 0 ∧ s.queue = [] := by
  induction h with
  | init => cases hp
  | step h st ih =>
    rename_i s s'
    have hm := h.inv.mutex
    cases st with
    | worker i st =>
      have hp' : s.p = .waited := by
        cases st <;> simp_all [St.setW]
      have hl := hm.p.1 (by rw [hp']; rfl)
      have ih := ih hp'
      cases st with
      | claim t q hi => have := (hm.w i).1 (by rw [hi]; rfl); rw [hl] at this; cases this
      | count hi => have := (hm.w i).1 (by rw [hi]; rfl); rw [hl] at this; cases this
      | _ => exact ih
    | parent st =>
      cases st with
      | waitEnd hp0 hc =>
        rcases hc with hc | hc
        · have := h.inv.stop.p; rw [hc, hp0] at this; cases this
        · exact hc
      | drop t q hp0 => rw [show s.p = .waited from hp] at hp0; cases hp0
      | _ => cases hp
  | spurious h st ih =>
    cases st with
    | worker i _ hi => exact ih hp
    | parent => cases hp

/-- **C54.** When `thread_pool_wait` returns, every task that was ever pushed has been run to its end. -/
theorem C54_wait {ops : List (Op T)} {s s' : St n T} (h : Reach ops s) (hp : s.p = .waited) (st : PStep s s') :
    s'.p = .idle ∧ s'.queue = [] ∧ s'.running = 0 ∧ s'.finished.Perm s'.pushed := by
  obtain ⟨hw, hq⟩ := waited_inv h hp
  have hd := not_dropped h.inv (by rw [hp]; exact fun h => by cases h) (by rw [hp]; rfl)
  have hr := idle_task h.inv hw
  have := all_done h hd hw hq
  cases st with
  | waited => exact ⟨rfl, hq, hr, this⟩
  | _ => simp_all

/-- **C54.** When `thread_pool_destroy` has freed the pool, all threads have ended, and every task that was claimed was run to its end. -/
theorem C54_destroyed {ops : List (Op T)} {s : St n T} (h : Reach ops s) (hp : s.p = .over) :
    (∀ i, s.ws i = .over) ∧ s.queue = [] ∧ s.finished.Perm s.claimed := by
  have ho := h.inv.joined.all hp
  refine ⟨ho, h.inv.stop.queue (by rw [h.inv.stop.p, hp]; rfl), ?_⟩
  have h2 := (C54_once h).1
  have : s.running = 0 := Finset.sum_eq_zero fun i _ => by rw [ho i]; rfl
  rw [this, add_zero] at h2
  exact Multiset.coe_eq_coe.1 h2

/-- Nothing is left to do: the owner called everything it wanted to call, and either the pool was freed, or everything that was pushed
was done and all workers are waiting for more. -/
def Final (s : St n T) : Prop :=
  s.p = .over ∨ (s.p = .idle ∧ s.ops = [] ∧ (∀ i, s.ws i = .waiting) ∧ s.queue = [] ∧ s.finished.Perm s.pushed)

/-- **C54.** There are no deadlocks and no lost wake-ups: whenever something is left to do, some thread can do something, without relying on
wake-ups that nobody signalled. -/
theorem C54_progress {ops : List (Op T)} {s : St n T} (hn : 0 < n) (h : Reach ops s) (hstuck : ∀ s', ¬Step s s') : Final s := by
  have inv := h.inv
  have free : s.lock = none := by
    cases hl : s.lock with
    | none => rfl
    | some o =>
      exfalso
      cases o with
      | worker i =>
        have hi := (inv.mutex.w i).2 hl
        cases hw : s.ws i <;> rw [hw] at hi <;> simp only [W.holds, Bool.false_eq_true] at hi
        · by_cases hst : s.stop = true
          · exact hstuck _ (.worker i (.stop s hw hst))
          · have hst : s.stop = false := by simpa using hst
            rcases List.eq_nil_or_concat s.queue with hq | ⟨q, t, hq⟩
            · exact hstuck _ (.worker i (.block s hw hq hst))
            · exact hstuck _ (.worker i (.claim s t q hw hst (by rw [hq]; simp)))
        · exact hstuck _ (.worker i (.unlock s _ hw))
        · exact hstuck _ (.worker i (.count s hw))
        · by_cases hst : s.stop = true
          · exact hstuck _ (.worker i (.checkStop s hw hst))
          · have hst : s.stop = false := by simpa using hst
            by_cases hq : s.working = 0 ∧ s.queue = []
            · by_cases hp : s.p = .waiting
              · exact hstuck _ (.worker i (.checkWake s hw hst hq.1 hq.2 hp))
              · exact hstuck _ (.worker i (.checkNone s hw hst hq.1 hq.2 hp))
            · exact hstuck _ (.worker i (.checkMore s hw hst hq))
        · exact hstuck _ (.worker i (.leave s hw))
      | parent =>
        have hi := inv.mutex.p.2 hl
        cases hp : s.p <;> rw [hp] at hi <;> simp only [P.holds, Bool.false_eq_true] at hi
        · exact hstuck _ (.parent (.insert s _ hp))
        · exact hstuck _ (.parent (.pushed s hp))
        · by_cases hc : s.stop = true ∨ (s.working = 0 ∧ s.queue = [])
          · exact hstuck _ (.parent (.waitEnd s hp hc))
          · rw [not_or] at hc
            exact hstuck _ (.parent (.block s hp (by simpa using hc.1) hc.2))
        · exact hstuck _ (.parent (.waited s hp))
        · cases hq : s.queue with
          | nil => exact hstuck _ (.parent (.stop s hp hq))
          | cons t q => exact hstuck _ (.parent (.drop s t q hp hq))
        · exact hstuck _ (.parent (.broadcast s hp))
        · exact hstuck _ (.parent (.stopped s hp))
  have hws : ∀ i, s.ws i = .waiting ∨ s.ws i = .over := by
    intro i
    have nh : (s.ws i).holds = false := by
      cases hh : (s.ws i).holds with
      | false => rfl
      | true => have := (inv.mutex.w i).1 hh; rw [free] at this; cases this
    cases hw : s.ws i <;> rw [hw] at nh <;> simp only [W.holds, Bool.true_eq_false] at nh
    · exact absurd (.worker i (.start s hw free)) (hstuck _)
    · exact .inl rfl
    · exact absurd (.worker i (.wake s hw free)) (hstuck _)
    · exact absurd (.worker i (.finish s _ hw)) (hstuck _)
    · exact absurd (.worker i (.relock s hw free)) (hstuck _)
    · exact .inr rfl
  have nohold : s.p.holds = false := by
    cases hh : s.p.holds with
    | false => rfl
    | true => have := inv.mutex.p.1 hh; rw [free] at this; cases this
  have calm : s.stop = false → s.working = 0 ∧ ∀ i, s.ws i = .waiting := by
    intro hst
    have hall : ∀ i, s.ws i = .waiting := fun i => (hws i).resolve_right (inv.stop.live hst i).2
    refine ⟨?_, hall⟩
    rw [inv.counts]
    exact Finset.sum_eq_zero fun i _ => by rw [hall i]; rfl
  cases hp : s.p <;> rw [hp] at nohold <;> simp only [P.holds, Bool.true_eq_false] at nohold
  · -- idle
    have hst : s.stop = false := by rw [inv.stop.p, hp]; rfl
    cases ho : s.ops with
    | cons o os =>
      cases o with
      | push t => exact absurd (.parent (.push s t os hp ho free)) (hstuck _)
      | wait => exact absurd (.parent (.wait s os hp ho free)) (hstuck _)
      | destroy => exact absurd (.parent (.destroy s os hp ho free)) (hstuck _)
    | nil =>
      obtain ⟨hwk, hall⟩ := calm hst
      have hq : s.queue = [] := by
        by_contra hq
        rcases inv.wakeups.w hn hq with ⟨i, hi⟩ | h | h
        · exact hi (hall i)
        · rw [hp] at h; cases h
        · rw [hp] at h; cases h
      exact .inr ⟨hp, ho, hall, hq, all_done h (not_dropped inv (by rw [hp]; exact fun h => by cases h) (by rw [hp]; rfl)) hwk hq⟩
  · -- signal
    by_cases hw : ∃ i, s.ws i = .waiting
    · obtain ⟨i, hi⟩ := hw
      exact absurd (.parent (.signal s i hp hi)) (hstuck _)
    · exact absurd (.parent (.signalNone s hp fun i hi => hw ⟨i, hi⟩)) (hstuck _)
  · -- waiting
    have hst : s.stop = false := by rw [inv.stop.p, hp]; rfl
    obtain ⟨hwk, hall⟩ := calm hst
    rcases inv.wakeups.p hp with h | ⟨i, hi⟩
    · have hq : s.queue ≠ [] := fun hq => h ⟨hwk, hq⟩
      rcases inv.wakeups.w hn hq with ⟨i, hi⟩ | h | h
      · exact absurd (hall i) hi
      · rw [hp] at h; cases h
      · rw [hp] at h; cases h
    · rw [hall i] at hi; cases hi
  · -- woken
    exact absurd (.parent (.wake s hp free)) (hstuck _)
  · -- join
    rename_i k
    have hst : s.stop = true := by rw [inv.stop.p, hp]; rfl
    have hall : ∀ i, s.ws i = .over := fun i => (hws i).resolve_left (inv.stop.wake hst (by rw [hp]; exact fun h => by cases h) i)
    rcases Nat.lt_or_ge k n with hk | hk
    · exact absurd (.parent (.join s ⟨k, hk⟩ hp (hall _))) (hstuck _)
    · have : k = n := Nat.le_antisymm (inv.joined.some k hp).1 hk
      subst this
      exact absurd (.parent (.free s hp)) (hstuck _)
  · exact .inl hp

/-- What a worker can still do by itself. -/
def W.weight : W T → Nat
  | .over | .waiting => 0
  | .leave => 1
  | .loop => 2
  | .woken | .start => 3
  | .check => 6
  | .count => 7
  | .ended => 8
  | .run _ => 9
  | .claimed _ => 10

/-- What the owner can still do in the present call. -/
def P.weight (n : Nat) : P T → Nat
  | .idle | .waiting | .over => 0
  | .waited => 1
  | .wait => 2
  | .woken => 3
  | .signal => 4
  | .pushed => 5
  | .push _ => 15
  | .join k => n - k + 1
  | .stopped => n + 2
  | .broadcast => 3 * n + n + 3
  | .drop => 3 * n + n + 4

/-- What the owner can still call. -/
def Op.weight (n : Nat) : Op T → Nat
  | .push _ => 16
  | .wait => 4
  | .destroy => 3 * n + n + 5

/-- This decreases. -/
def St.weight (s : St n T) : Nat :=
  (∑ i, (s.ws i).weight) + 9 * s.queue.length + s.p.weight n + (s.ops.map (Op.weight n)).sum

theorem sum_setW {s : St n T} {i : Fin n} {w : W T} : (∑ j, (Function.update s.ws i w j).weight) + (s.ws i).weight = (∑ j, (s.ws j).weight) + w.weight :=
  sum_set W.weight s.ws i w

theorem weight_values : ((W.over : W T).weight = 0 ∧ (W.waiting : W T).weight = 0 ∧ (W.leave : W T).weight = 1 ∧ (W.loop : W T).weight = 2 ∧
    (W.woken : W T).weight = 3 ∧ (W.start : W T).weight = 3 ∧ (W.check : W T).weight = 6 ∧ (W.count : W T).weight = 7 ∧ (W.ended : W T).weight = 8) ∧
    ∀ t : T, (W.run t).weight = 9 ∧ (W.claimed t).weight = 10 := by simp [W.weight]

theorem wakeAll_weight (ws : Fin n → W T) : (∑ i, (wakeAll ws i).weight) ≤ (∑ i, (ws i).weight) + 3 * n := by
  obtain ⟨⟨_, w2, _, _, w5, _⟩, _⟩ := weight_values (T := T)
  calc (∑ i, (wakeAll ws i).weight) ≤ ∑ i, ((ws i).weight + 3) := by
        apply Finset.sum_le_sum
        intro i _
        unfold wakeAll
        split
        · rename_i h; rw [h, w5, w2]
        · exact Nat.le_add_right ..
    _ = (∑ i, (ws i).weight) + 3 * n := by
        rw [Finset.sum_add_distrib]
        simp [Nat.mul_comm]

theorem step_weight {s s' : St n T} (st : Step s s') : s'.weight < s.weight := by
  obtain ⟨⟨w1, w2, w3, w4, w5, w6, w7, w8, w9⟩, w10⟩ := weight_values (T := T)
  cases st with
  | worker i st =>
    cases st with
    | start hi hl =>
      have e := sum_set W.weight s.ws i .loop
      rw [hi] at e
      simp only [St.weight, St.setW]
      omega
    | block hi hq hs =>
      have e := sum_set W.weight s.ws i .waiting
      rw [hi] at e
      simp only [St.weight, St.setW]
      omega
    | wake hi hl =>
      have e := sum_set W.weight s.ws i .loop
      rw [hi] at e
      simp only [St.weight, St.setW]
      omega
    | stop hi hs =>
      have e := sum_set W.weight s.ws i .leave
      rw [hi] at e
      simp only [St.weight, St.setW]
      omega
    | claim t q hi hs hq =>
      have e := sum_set W.weight s.ws i (.claimed t)
      rw [hi] at e
      have := w10 t
      simp only [St.weight, St.setW, hq, List.length_append, List.length_singleton]
      omega
    | unlock t hi =>
      have e := sum_set W.weight s.ws i (.run t)
      rw [hi] at e
      have := w10 t
      simp only [St.weight, St.setW]
      omega
    | finish t hi =>
      have e := sum_set W.weight s.ws i .ended
      rw [hi] at e
      have := w10 t
      simp only [St.weight, St.setW]
      omega
    | relock hi hl =>
      have e := sum_set W.weight s.ws i .count
      rw [hi] at e
      simp only [St.weight, St.setW]
      omega
    | count hi =>
      have e := sum_set W.weight s.ws i .check
      rw [hi] at e
      simp only [St.weight, St.setW]
      omega
    | checkStop hi hs =>
      have e := sum_set W.weight s.ws i .leave
      rw [hi] at e
      simp only [St.weight, St.setW]
      omega
    | checkMore hi hs hq =>
      have e := sum_set W.weight s.ws i .loop
      rw [hi] at e
      simp only [St.weight, St.setW]
      omega
    | checkWake hi hs hw hq hp =>
      have e := sum_set W.weight s.ws i .loop
      rw [hi] at e
      simp only [St.weight, St.setW, hp, P.weight]
      omega
    | checkNone hi hs hw hq hp =>
      have e := sum_set W.weight s.ws i .loop
      rw [hi] at e
      simp only [St.weight, St.setW]
      omega
    | leave hi =>
      have e := sum_set W.weight s.ws i .over
      rw [hi] at e
      simp only [St.weight, St.setW]
      omega
  | parent st =>
    cases st with
    | push t ops hp ho hl => simp only [St.weight, hp, ho, P.weight, List.map_cons, List.sum_cons, Op.weight]; omega
    | insert t hp => simp only [St.weight, hp, P.weight, List.length_cons]; omega
    | pushed hp => simp only [St.weight, hp, P.weight]; omega
    | signal i hp hi =>
      have e := sum_set W.weight s.ws i .woken
      rw [hi] at e
      simp only [St.weight, St.setW, hp, P.weight]
      omega
    | signalNone hp _ => simp only [St.weight, hp, P.weight]; omega
    | wait ops hp ho hl => simp only [St.weight, hp, ho, P.weight, List.map_cons, List.sum_cons, Op.weight]; omega
    | waitEnd hp _ => simp only [St.weight, hp, P.weight]; omega
    | block hp _ _ => simp only [St.weight, hp, P.weight]; omega
    | wake hp _ => simp only [St.weight, hp, P.weight]; omega
    | waited hp => simp only [St.weight, hp, P.weight]; omega
    | destroy ops hp ho hl => simp only [St.weight, hp, ho, P.weight, List.map_cons, List.sum_cons, Op.weight, List.map_nil, List.sum_nil]; omega
    | drop t q hp hq => simp only [St.weight, hp, hq, P.weight, List.length_cons]; omega
    | stop hp hq => simp only [St.weight, hp, P.weight]; omega
    | broadcast hp =>
      have := wakeAll_weight s.ws
      simp only [St.weight, hp, P.weight]
      omega
    | stopped hp => simp only [St.weight, hp, P.weight]; omega
    | join i hp _ => have := i.isLt; simp only [St.weight, hp, P.weight]; omega
    | free hp => simp only [St.weight, hp, P.weight]; omega

/-- **C54.** Nothing goes on forever, except for wake-ups that nobody signalled: however the threads are scheduled, the number of steps
is bounded by a number that is known in advance. -/
theorem C54_bounded (f : Nat → St n T) (k : Nat) (h : ∀ j, j < k → Step (f j) (f (j + 1))) : k ≤ (f 0).weight := by
  have : ∀ j, j ≤ k → j + (f j).weight ≤ (f 0).weight := by
    intro j
    induction j with
    | zero => intro _; omega
    | succ j ih =>
      intro hj
      have := ih (by omega)
      have := step_weight (h j (by omega))
      omega
  have := this k (Nat.le_refl k)
  omega

/-- An execution of a pool, as long as the scheduler lets some thread do something if some can. -/
structure Execution (ops : List (Op T)) (f : Nat → St n T) : Prop where
  start : f 0 = init n ops
  next : ∀ k, Step (f k) (f (k + 1)) ∨ Spurious (f k) (f (k + 1)) ∨ (f (k + 1) = f k ∧ ∀ s, ¬Step (f k) s)

theorem Execution.reach {ops : List (Op T)} {f : Nat → St n T} (h : Execution ops f) (k : Nat) : Reach ops (f k) := by
  induction k with
  | zero => rw [h.start]; exact .init
  | succ k ih =>
    rcases h.next k with st | st | ⟨e, _⟩
    · exact .step ih st
    · exact .spurious ih st
    · rw [e]; exact ih

/-- **C54.** In every execution with finitely many wake-ups that nobody signalled, in whatever order threads are scheduled, all of the
owner's calls return, and everything that was pushed is run, or the pool is destroyed. -/
theorem C54_ends {ops : List (Op T)} {f : Nat → St n T} (hn : 0 < n) (h : Execution ops f) (K : Nat)
    (hfin : ∀ k, K ≤ k → ¬Spurious (f k) (f (k + 1))) : ∃ k, Final (f k) := by
  by_contra hc
  have hstep : ∀ j, Step (f (K + j)) (f (K + (j + 1))) := by
    intro j
    rcases h.next (K + j) with st | st | ⟨_, hs⟩
    · exact st
    · exact absurd st (hfin _ (Nat.le_add_right ..))
    · exact absurd ⟨_, C54_progress hn (h.reach _) hs⟩ hc
  have := C54_bounded (fun j => f (K + j)) ((f (K + 0)).weight + 1) (fun j _ => hstep j)
  exact absurd this (Nat.not_succ_le_self _)

theorem spurious_weight {s s' : St n T} (st : Spurious s s') : s'.weight = s.weight + 3 := by
  obtain ⟨⟨_, w2, _, _, w5, _⟩, _⟩ := weight_values (T := T)
  cases st with
  | worker i _ hi =>
    have e := sum_set W.weight s.ws i .woken
    rw [hi] at e
    simp only [St.weight, St.setW]
    omega
  | parent _ hp => simp only [St.weight, hp, P.weight]; omega

/-- The hypotheses of `C54_ends` hold for every number of threads and all calls of the owner: a scheduler that goes on while it can. -/
theorem C54_ends_applies (n : Nat) (ops : List (Op T)) : ∃ f : Nat → St n T, Execution ops f ∧ ∀ k, 0 ≤ k → ¬Spurious (f k) (f (k + 1)) := by
  classical
  let next (s : St n T) : St n T := if h : ∃ s', Step s s' then h.choose else s
  let f : Nat → St n T := fun k => Nat.rec (init n ops) (fun _ s => next s) k
  have hnext : ∀ k, (Step (f k) (f (k + 1))) ∨ (f (k + 1) = f k ∧ ∀ s, ¬Step (f k) s) := by
    intro k
    have e : f (k + 1) = next (f k) := rfl
    rw [e]
    by_cases h : ∃ s', Step (f k) s'
    · left
      simp only [next, dif_pos h]
      exact h.choose_spec
    · right
      simp only [next, dif_neg h]
      exact ⟨trivial, fun s hs => h ⟨s, hs⟩⟩
  refine ⟨f, ⟨rfl, fun k => (hnext k).imp_right .inr⟩, fun k _ hs => ?_⟩
  have h1 := spurious_weight hs
  rcases hnext k with h | ⟨h, _⟩
  · have := step_weight h; omega
  · rw [h] at h1; omega

/-- Two tasks, one thread: a state in which `thread_pool_wait` is about to return. -/
example : ∃ s : St 1 Nat, Reach [.push 7, .push 8, .wait, .destroy] s ∧ s.p = .waited ∧ s.pushed = [7, 8] ∧ s.finished = [7, 8] := by
  have h0 : Reach (n := 1) [.push 7, .push 8, .wait, .destroy] _ := .init
  have h1 := h0.step (.parent (.push _ 7 _ rfl rfl rfl))
  have h2 := h1.step (.parent (.insert _ 7 rfl))
  have h3 := h2.step (.parent (.pushed _ rfl))
  have h4 := h3.step (.parent (.signalNone _ rfl fun i => by simp [init]))
  have h5 := h4.step (.worker 0 (.start _ rfl rfl))
  have h6 := h5.step (.worker 0 (.claim _ 7 [] rfl rfl rfl))
  have h7 := h6.step (.worker 0 (.unlock _ 7 rfl))
  have h8 := h7.step (.parent (.push _ 8 _ rfl rfl rfl))
  have h9 := h8.step (.parent (.insert _ 8 rfl))
  have h10 := h9.step (.parent (.pushed _ rfl))
  have h11 := h10.step (.parent (.signalNone _ rfl fun i => by
    have : i = 0 := Subsingleton.elim _ _
    subst this
    exact fun h => by cases h))
  have h12 := h11.step (.parent (.wait _ _ rfl rfl rfl))
  have h13 := h12.step (.parent (.block _ rfl rfl fun h => by cases h.2))
  have h14 := h13.step (.worker 0 (.finish _ 7 rfl))
  have h15 := h14.step (.worker 0 (.relock _ rfl rfl))
  have h16 := h15.step (.worker 0 (.count _ rfl))
  have h17 := h16.step (.worker 0 (.checkMore _ rfl rfl fun h => by cases h.2))
  have h18 := h17.step (.worker 0 (.claim _ 8 [] rfl rfl rfl))
  have h19 := h18.step (.worker 0 (.unlock _ 8 rfl))
  have h20 := h19.step (.worker 0 (.finish _ 8 rfl))
  have h21 := h20.step (.worker 0 (.relock _ rfl rfl))
  have h22 := h21.step (.worker 0 (.count _ rfl))
  have h23 := h22.step (.worker 0 (.checkWake _ rfl rfl rfl rfl rfl))
  have h24 := h23.step (.worker 0 (.block _ rfl rfl rfl))
  have h25 := h24.step (.parent (.wake _ rfl rfl))
  have h26 := h25.step (.parent (.waitEnd _ rfl (.inr ⟨rfl, rfl⟩)))
  exact ⟨_, h26, rfl, rfl, rfl⟩

end Verif.Pool
