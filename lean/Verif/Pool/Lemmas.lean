import Verif.Pool.Model
import Mathlib.Data.Multiset.Basic
import Mathlib.Tactic.SplitIfs
/-
Invariants of the thread pool.
-/
namespace Verif.Pool
variable {n : Nat} {T : Type}

/-- The worker holds the mutex. -/
def W.holds : W T → Bool
  | .loop | .claimed _ | .count | .check | .leave => true
  | _ => false

/-- The owner holds the mutex. -/
def P.holds : P T → Bool
  | .push _ | .pushed | .wait | .waited | .drop | .broadcast | .stopped => true
  | _ => false

/-- The worker is counted in `working_count`. -/
def W.busy : W T → Nat
  | .claimed _ | .run _ | .ended | .count => 1
  | _ => 0

/-- The task which the worker claimed and did not finish. -/
def W.task : W T → Multiset T
  | .claimed t | .run t => {t}
  | _ => 0

/-- The pool was told to stop. -/
def P.stopping : P T → Bool
  | .broadcast | .stopped | .join _ | .over => true
  | _ => false

theorem sum_set {M : Type} [AddCommMonoid M] (f : W T → M) (ws : Fin n → W T) (i : Fin n) (w : W T) :
    ∑ j, f (Function.update ws i w j) + f (ws i) = ∑ j, f (ws j) + f w := by
  rw [← Finset.add_sum_erase Finset.univ (fun j => f (Function.update ws i w j)) (Finset.mem_univ i),
    ← Finset.add_sum_erase Finset.univ (fun j => f (ws j)) (Finset.mem_univ i)]
  have : ∑ j ∈ Finset.univ.erase i, f (Function.update ws i w j) = ∑ j ∈ Finset.univ.erase i, f (ws j) := by
    apply Finset.sum_congr rfl
    intro j hj
    rw [Function.update_of_ne (Finset.ne_of_mem_erase hj)]
  rw [this, Function.update_self]
  rw [add_comm (f w), add_comm (f (ws i)), add_assoc, add_assoc, add_comm (f w)]

/-- The mutex is held by whoever is between its acquisition and its release. -/
structure Mutex (s : St n T) : Prop where
  w : ∀ i, (s.ws i).holds = true ↔ s.lock = some (.worker i)
  p : s.p.holds = true ↔ s.lock = some .parent

theorem wakeAll_holds (ws : Fin n → W T) (i : Fin n) : (wakeAll ws i).holds = (ws i).holds := by
  unfold wakeAll; split <;> simp_all [W.holds]

theorem Mutex.wstep {i : Fin n} {s s' : St n T} (h : Mutex s) (st : WStep i s s') : Mutex s' := by
  obtain ⟨hw, hp⟩ := h
  cases st <;> constructor <;>
    first
    | (intro j
       have hi := hw i
       have hj := hw j
       simp only [St.setW, Function.update_apply]
       by_cases e : j = i
       · subst e; simp_all [W.holds]
       · have e' : ¬ i = j := fun h => e h.symm
         simp_all [W.holds])
    | (have hi := hw i
       simp_all [St.setW, W.holds, P.holds])

theorem Mutex.pstep {s s' : St n T} (h : Mutex s) (st : PStep s s') : Mutex s' := by
  obtain ⟨hw, hp⟩ := h
  cases st <;> constructor <;>
    first
    | (intro j
       have hj := hw j
       simp only [St.setW, Function.update_apply, wakeAll_holds]
       try split_ifs
       all_goals simp_all [W.holds, P.holds])
    | (simp_all [St.setW, W.holds, P.holds])

theorem Mutex.spurious {s s' : St n T} (h : Mutex s) (st : Spurious s s') : Mutex s' := by
  obtain ⟨hw, hp⟩ := h
  cases st <;> constructor <;>
    first
    | (intro j
       have hj := hw j
       simp only [St.setW, Function.update_apply]
       try split_ifs
       all_goals simp_all [W.holds, P.holds])
    | (simp_all [St.setW, W.holds, P.holds])

theorem wakeAll_busy (ws : Fin n → W T) (i : Fin n) : (wakeAll ws i).busy = (ws i).busy := by
  unfold wakeAll; split <;> simp_all [W.busy]

theorem wakeAll_task (ws : Fin n → W T) (i : Fin n) : (wakeAll ws i).task = (ws i).task := by
  unfold wakeAll; split <;> simp_all [W.task]

theorem busy_start : (W.start : W T).busy = 0 := rfl
theorem task_start : (W.start : W T).task = 0 := rfl
theorem busy_loop : (W.loop : W T).busy = 0 := rfl
theorem task_loop : (W.loop : W T).task = 0 := rfl
theorem busy_waiting : (W.waiting : W T).busy = 0 := rfl
theorem task_waiting : (W.waiting : W T).task = 0 := rfl
theorem busy_woken : (W.woken : W T).busy = 0 := rfl
theorem task_woken : (W.woken : W T).task = 0 := rfl
theorem busy_claimed (t : T) : (W.claimed t : W T).busy = 1 := rfl
theorem task_claimed (t : T) : (W.claimed t : W T).task = {t} := rfl
theorem busy_run (t : T) : (W.run t : W T).busy = 1 := rfl
theorem task_run (t : T) : (W.run t : W T).task = {t} := rfl
theorem busy_ended : (W.ended : W T).busy = 1 := rfl
theorem task_ended : (W.ended : W T).task = 0 := rfl
theorem busy_count : (W.count : W T).busy = 1 := rfl
theorem task_count : (W.count : W T).task = 0 := rfl
theorem busy_check : (W.check : W T).busy = 0 := rfl
theorem task_check : (W.check : W T).task = 0 := rfl
theorem busy_leave : (W.leave : W T).busy = 0 := rfl
theorem task_leave : (W.leave : W T).task = 0 := rfl
theorem busy_over : (W.over : W T).busy = 0 := rfl
theorem task_over : (W.over : W T).task = 0 := rfl

/-- `working_count` counts. -/
def Counts (s : St n T) : Prop := s.working = ∑ i, (s.ws i).busy

theorem Counts.set {s : St n T} (h : Counts s) {i : Fin n} {w : W T} {s' : St n T} (hws : s'.ws = Function.update s.ws i w)
    (hc : s'.working + (s.ws i).busy = s.working + w.busy) : Counts s' := by
  unfold Counts at h ⊢
  have := sum_set W.busy s.ws i w
  rw [hws]
  omega

theorem one_le_busy {s : St n T} (h : Counts s) {i : Fin n} (hi : (s.ws i).busy = 1) : 1 ≤ s.working := by
  rw [h, ← Finset.add_sum_erase Finset.univ (fun j => (s.ws j).busy) (Finset.mem_univ i), hi]
  exact Nat.le_add_right ..

theorem Counts.wstep {i : Fin n} {s s' : St n T} (h : Counts s) (st : WStep i s s') : Counts s' := by
  cases st with
  | count hi =>
    refine h.set rfl ?_
    have := one_le_busy h (i := i) (by rw [hi]; rfl)
    rw [hi, busy_count, busy_check]
    simp only [St.setW]
    omega
  | _ =>
    rename_i hi
    first
    | (refine h.set rfl ?_; simp only [St.setW, *, busy_start, busy_loop, busy_waiting, busy_woken, busy_claimed, busy_run, busy_ended, busy_count, busy_check, busy_leave, busy_over])

theorem Counts.pstep {s s' : St n T} (h : Counts s) (st : PStep s s') : Counts s' := by
  cases st with
  | signal i hp hi => exact h.set (i := i) rfl (by rw [hi]; rfl)
  | broadcast hp => unfold Counts at *; rw [h]; exact Finset.sum_congr rfl fun j _ => (wakeAll_busy s.ws j).symm
  | _ => exact h

theorem Counts.spurious {s s' : St n T} (h : Counts s) (st : Spurious s s') : Counts s' := by
  cases st with
  | worker i _ hi => exact h.set (i := i) rfl (by rw [hi]; rfl)
  | parent => exact h

/-- Tasks that were claimed are being run or were run, each as often as it was claimed. -/
def Tasks (s : St n T) : Prop := (s.finished : Multiset T) + ∑ i, (s.ws i).task = (s.claimed : Multiset T)

theorem Tasks.set {s : St n T} (h : Tasks s) {i : Fin n} {w : W T} {s' : St n T} (hws : s'.ws = Function.update s.ws i w)
    (hc : (s'.finished : Multiset T) + w.task + s.claimed = s.finished + (s.ws i).task + s'.claimed) : Tasks s' := by
  unfold Tasks at h ⊢
  have e := sum_set W.task s.ws i w
  rw [hws]
  apply add_right_cancel (b := (s.ws i).task)
  rw [add_assoc, e]
  apply add_right_cancel (b := (s.finished : Multiset T))
  rw [show (s'.finished : Multiset T) + (∑ j, (s.ws j).task + w.task) + s.finished =
      (s'.finished : Multiset T) + w.task + (s.finished + ∑ j, (s.ws j).task) by
    rw [add_comm (∑ j, (s.ws j).task), ← add_assoc, add_assoc _ (∑ j, (s.ws j).task), add_comm (∑ j, (s.ws j).task)], h, hc,
    add_comm _ (s'.claimed : Multiset T), add_assoc, add_comm (s.ws i).task]

theorem Tasks.wstep {i : Fin n} {s s' : St n T} (h : Tasks s) (st : WStep i s s') : Tasks s' := by
  cases st with
  | claim t q hi hs hq =>
    refine h.set rfl ?_
    simp only [St.setW, hi, task_loop, task_claimed, add_zero]
    rw [← Multiset.coe_add, add_assoc, add_comm (s.claimed : Multiset T)]
    rfl
  | finish t hi =>
    refine h.set rfl ?_
    simp only [St.setW, hi, task_run, task_ended, add_zero]
    rw [← Multiset.coe_add]
    rfl
  | _ =>
    rename_i hi
    refine h.set rfl ?_
    simp only [St.setW, *, task_start, task_loop, task_waiting, task_woken, task_claimed, task_run, task_ended, task_count, task_check, task_leave, task_over]

theorem Tasks.pstep {s s' : St n T} (h : Tasks s) (st : PStep s s') : Tasks s' := by
  cases st with
  | signal i hp hi => exact h.set (i := i) rfl (by rw [hi]; rfl)
  | broadcast hp => unfold Tasks at *; rw [← h]; exact congrArg _ (Finset.sum_congr rfl fun j _ => (wakeAll_task s.ws j))
  | _ => exact h

theorem Tasks.spurious {s s' : St n T} (h : Tasks s) (st : Spurious s s') : Tasks s' := by
  cases st with
  | worker i _ hi => exact h.set (i := i) rfl (by rw [hi]; rfl)
  | parent => exact h

/-- The queue holds, backwards, what was pushed and not claimed, except for what was dropped, which are the last ones. -/
structure Fifo (s : St n T) : Prop where
  all : ∃ d, s.claimed ++ s.queue.reverse ++ d = s.pushed ∧ (s.dropped = false → d = [])
  drop : s.dropped = true → s.p = .drop ∨ s.p.stopping = true

theorem Fifo.wstep {i : Fin n} {s s' : St n T} (h : Fifo s) (st : WStep i s s') : Fifo s' := by
  obtain ⟨⟨d, h1, h2⟩, h3⟩ := h
  cases st with
  | claim t q hi hs hq =>
    refine ⟨⟨d, ?_, h2⟩, h3⟩
    rw [← h1, hq]
    simp [St.setW]
  | checkWake hi hs hw hq hp =>
    refine ⟨⟨d, h1, h2⟩, fun h => ?_⟩
    have := h3 h
    rw [hp] at this
    rcases this with h | h <;> cases h
  | _ => exact ⟨⟨d, h1, h2⟩, h3⟩

theorem Fifo.pstep {s s' : St n T} (h : Fifo s) (st : PStep s s') : Fifo s' := by
  obtain ⟨⟨d, h1, h2⟩, h3⟩ := h
  cases st with
  | insert t hp =>
    have hd : s.dropped = false := by
      cases hd : s.dropped with
      | false => rfl
      | true => have := h3 hd; rw [hp] at this; rcases this with h | h <;> cases h
    refine ⟨⟨[], ?_, fun _ => rfl⟩, fun h => ?_⟩
    · rw [h2 hd] at h1
      simp only [List.append_nil, List.reverse_cons] at h1 ⊢
      rw [← h1, List.append_assoc]
    · rw [hd] at h; cases h
  | drop t q hp hq =>
    refine ⟨⟨t :: d, ?_, fun h => by cases h⟩, fun _ => .inl hp⟩
    rw [← h1, hq]
    simp
  | _ =>
    refine ⟨⟨d, h1, h2⟩, fun h => ?_⟩
    have := h3 h
    simp_all [P.stopping, St.setW]

theorem Fifo.spurious {s s' : St n T} (h : Fifo s) (st : Spurious s s') : Fifo s' := by
  obtain ⟨⟨d, h1, h2⟩, h3⟩ := h
  cases st with
  | worker i _ hi => exact ⟨⟨d, h1, h2⟩, h3⟩
  | parent _ hp =>
    refine ⟨⟨d, h1, h2⟩, fun h => ?_⟩
    have := h3 h
    rw [hp] at this
    rcases this with h | h <;> cases h

/-- Stopping. -/
structure Stop (s : St n T) : Prop where
  p : s.stop = s.p.stopping
  queue : s.stop = true → s.queue = []
  wake : s.stop = true → s.p ≠ .broadcast → ∀ i, s.ws i ≠ .waiting
  live : s.stop = false → ∀ i, s.ws i ≠ .leave ∧ s.ws i ≠ .over

theorem wakeAll_waiting (ws : Fin n → W T) (i : Fin n) : wakeAll ws i ≠ .waiting := by
  unfold wakeAll; split <;> simp_all

theorem wakeAll_eq {ws : Fin n → W T} {i : Fin n} {w : W T} (h : wakeAll ws i = w) (hw : w ≠ .woken) : ws i = w := by
  unfold wakeAll at h; split at h <;> simp_all

theorem Stop.wstep {i : Fin n} {s s' : St n T} (h : Stop s) (st : WStep i s s') : Stop s' := by
  obtain ⟨h1, h2, h3, h4⟩ := h
  cases st <;> constructor <;> simp only [St.setW, Function.update_apply] <;> intros <;> (try split_ifs) <;> simp_all [P.stopping]

theorem Stop.pstep {s s' : St n T} (h : Stop s) (st : PStep s s') : Stop s' := by
  obtain ⟨h1, h2, h3, h4⟩ := h
  cases st <;> constructor <;> simp only [St.setW, Function.update_apply] <;> intros <;> (try split_ifs) <;> simp_all [P.stopping, wakeAll_waiting]

theorem Stop.spurious {s s' : St n T} (h : Stop s) (st : Spurious s s') : Stop s' := by
  obtain ⟨h1, h2, h3, h4⟩ := h
  cases st <;> constructor <;> simp only [St.setW, Function.update_apply] <;> intros <;> (try split_ifs) <;> simp_all [P.stopping]

/-- No wake-up is lost. -/
structure Woken (s : St n T) : Prop where
  w : 0 < n → s.queue ≠ [] → (∃ i, s.ws i ≠ .waiting) ∨ s.p = .pushed ∨ s.p = .signal
  p : s.p = .waiting → ¬(s.working = 0 ∧ s.queue = []) ∨ ∃ i, s.ws i = .check

theorem Woken.wstep {i : Fin n} {s s' : St n T} (hs : Stop s) (h : Woken s) (st : WStep i s s') : Woken s' := by
  obtain ⟨h1, h2⟩ := h
  constructor
  · intro hn hq
    cases st with
    | block hi hq' => exact absurd hq' hq
    | _ => exact .inl ⟨i, by simp [St.setW]⟩
  · intro hp
    have keep : s.p = .waiting → s'.p = s.p → s'.working = s.working → s'.queue = s.queue → (∃ w, s'.ws = Function.update s.ws i w) → s.ws i ≠ .check →
        ¬(s'.working = 0 ∧ s'.queue = []) ∨ ∃ i, s'.ws i = .check := by
      intro e1 _ e2 e3 ⟨w, e4⟩ hne
      rw [e2, e3]
      rcases h2 e1 with h | ⟨j, hj⟩
      · exact .inl h
      · refine .inr ⟨j, ?_⟩
        rw [e4, Function.update_of_ne]
        · exact hj
        · rintro rfl; exact hne hj
    cases st with
    | claim t q hi => exact .inl fun h => by simp [St.setW] at h
    | count hi => exact .inr ⟨i, by simp [St.setW]⟩
    | checkStop hi hst => have := hs.p; rw [hst, show s.p = .waiting from hp] at this; cases this
    | checkMore hi _ h => exact .inl h
    | checkWake => cases hp
    | checkNone _ _ _ _ h => exact absurd hp h
    | _ => exact keep hp rfl rfl rfl ⟨_, rfl⟩ (by simp_all)

theorem Woken.pstep {s s' : St n T} (h : Woken s) (st : PStep s s') : Woken s' := by
  obtain ⟨h1, h2⟩ := h
  constructor
  · intro hn hq
    cases st with
    | signal i _ _ => exact .inl ⟨i, by simp [St.setW]⟩
    | signalNone _ h => exact .inl ⟨⟨0, hn⟩, h _⟩
    | broadcast _ => exact .inl ⟨⟨0, hn⟩, wakeAll_waiting _ _⟩
    | insert => exact .inr (.inl rfl)
    | pushed => exact .inr (.inr rfl)
    | drop t q hp hq' =>
      rcases h1 hn (by rw [hq']; exact List.cons_ne_nil _ _) with h | h | h
      · exact .inl h
      · rw [hp] at h; cases h
      · rw [hp] at h; cases h
    | _ =>
      rcases h1 hn hq with h | h | h
      · exact .inl h
      · simp_all
      · simp_all
  · intro hp
    cases st with
    | block _ _ h => exact .inl h
    | drop t q hp' hq' => rw [show s.p = .waiting from hp] at hp'; cases hp'
    | _ => cases hp

theorem Woken.spurious {s s' : St n T} (h : Woken s) (st : Spurious s s') : Woken s' := by
  obtain ⟨h1, h2⟩ := h
  cases st with
  | worker i _ hi =>
    refine ⟨fun _ _ => .inl ⟨i, by simp [St.setW]⟩, fun hp => ?_⟩
    rcases h2 hp with h | ⟨j, hj⟩
    · exact .inl h
    · refine .inr ⟨j, ?_⟩
      simp only [St.setW]
      rw [Function.update_of_ne]
      · exact hj
      · rintro rfl; rw [hi] at hj; cases hj
  | parent _ hp =>
    refine ⟨fun hn hq => ?_, fun h => by cases h⟩
    rcases h1 hn hq with h | h | h
    · exact .inl h
    · rw [hp] at h; cases h
    · rw [hp] at h; cases h

/-- Threads which were joined have ended. -/
structure Joined (s : St n T) : Prop where
  some : ∀ k, s.p = .join k → k ≤ n ∧ ∀ i, i.val < k → s.ws i = .over
  all : s.p = .over → ∀ i, s.ws i = .over

theorem Joined.wstep {i : Fin n} {s s' : St n T} (h : Joined s) (st : WStep i s s') : Joined s' := by
  obtain ⟨h1, h2⟩ := h
  have ne : s.ws i ≠ .over := by cases st <;> simp_all
  have hp : (∀ k, s'.p = .join k → s.p = .join k) ∧ (s'.p = .over → s.p = .over) := by cases st <;> simp_all [St.setW]
  have hw : ∀ j, j ≠ i → s'.ws j = s.ws j := by
    intro j hj
    cases st <;> simp only [St.setW, Function.update_of_ne hj]
  constructor
  · intro k hk
    obtain ⟨a, b⟩ := h1 k (hp.1 k hk)
    refine ⟨a, fun j hj => ?_⟩
    rw [hw j (by rintro rfl; exact ne (b j hj))]
    exact b j hj
  · intro ho
    exact absurd (h2 (hp.2 ho) i) ne

theorem Joined.pstep {s s' : St n T} (h : Joined s) (st : PStep s s') : Joined s' := by
  obtain ⟨h1, h2⟩ := h
  cases st with
  | join i hp hi =>
    refine ⟨fun k hk => ?_, fun h => by cases h⟩
    cases hk
    refine ⟨i.isLt, fun j hj => ?_⟩
    rcases Nat.lt_succ_iff_lt_or_eq.1 hj with h | h
    · exact (h1 _ hp).2 j h
    · rw [show j = i from Fin.ext h]; exact hi
  | free hp => exact ⟨fun k hk => (by cases hk), fun _ i => (h1 _ hp).2 i i.isLt⟩
  | stopped => exact ⟨fun k hk => (by cases hk; exact ⟨Nat.zero_le _, fun i hi => absurd hi (Nat.not_lt_zero _)⟩), fun h => by cases h⟩
  | drop t q hp _ => exact ⟨fun k hk => (by rw [show s.p = .join k from hk] at hp; cases hp), fun h => by rw [show s.p = .over from h] at hp; cases hp⟩
  | _ => exact ⟨fun k hk => (by cases hk), fun h => by cases h⟩

theorem Joined.spurious {s s' : St n T} (h : Joined s) (st : Spurious s s') : Joined s' := by
  obtain ⟨h1, h2⟩ := h
  cases st with
  | worker i _ hi =>
    constructor
    · intro k hk
      refine ⟨(h1 k hk).1, fun j hj => ?_⟩
      have := (h1 k hk).2 j hj
      simp only [St.setW]
      rw [Function.update_of_ne]
      · exact this
      · rintro rfl; rw [hi] at this; cases this
    · intro ho
      have := h2 ho i
      rw [hi] at this; cases this
  | parent => exact ⟨fun k hk => (by cases hk), fun h => by cases h⟩

/-- The invariant. -/
structure Inv (s : St n T) : Prop where
  mutex : Mutex s
  counts : Counts s
  tasks : Tasks s
  fifo : Fifo s
  stop : Stop s
  wakeups : Woken s
  joined : Joined s

theorem Inv.init (ops : List (Op T)) : Inv (init n ops) where
  mutex := ⟨fun i => by simp [Pool.init, W.holds], by simp [Pool.init, P.holds]⟩
  counts := by simp [Counts, Pool.init, W.busy]
  tasks := by simp [Tasks, Pool.init, W.task]
  fifo := ⟨⟨[], rfl, fun _ => rfl⟩, fun h => by cases h⟩
  stop := ⟨rfl, fun h => (by cases h), fun h => (by cases h), fun _ i => ⟨(fun h => by cases h), (fun h => by cases h)⟩⟩
  wakeups := ⟨fun _ h => absurd rfl h, fun h => by cases h⟩
  joined := ⟨fun _ h => (by cases h), fun h => by cases h⟩

theorem Inv.step {s s' : St n T} (h : Inv s) (st : Step s s') : Inv s' := by
  cases st with
  | worker i st => exact ⟨h.1.wstep st, h.2.wstep st, h.3.wstep st, h.4.wstep st, h.5.wstep st, h.6.wstep h.5 st, h.7.wstep st⟩
  | parent st => exact ⟨h.1.pstep st, h.2.pstep st, h.3.pstep st, h.4.pstep st, h.5.pstep st, h.6.pstep st, h.7.pstep st⟩

theorem Inv.spurious {s s' : St n T} (h : Inv s) (st : Spurious s s') : Inv s' :=
  ⟨h.1.spurious st, h.2.spurious st, h.3.spurious st, h.4.spurious st, h.5.spurious st, h.6.spurious st, h.7.spurious st⟩

theorem Reach.inv {ops : List (Op T)} {s : St n T} (h : Reach ops s) : Inv s := by
  induction h with
  | init => exact Inv.init ops
  | step _ st ih => exact ih.step st
  | spurious _ st ih => exact ih.spurious st

end Verif.Pool
