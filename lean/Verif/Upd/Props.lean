import Verif.Upd.Lost
/-
C197: the memory of the main loop.
-/
namespace Verif.Upd
open Verif.Heap

/-- `n` cycles, from the start. -/
def after (lifetime : Nat) (orc : Nat → Nat) (n : Nat) : Srv × H := cycles lifetime n Srv.init (H.init orc)

/-- Then, the shutdown. -/
def afterShutdown (lifetime : Nat) (orc : Nat → Nat) (n : Nat) : H := (vrpsDestroy (after lifetime orc n).1 (after lifetime orc n).2).2

/-- **C197** Whatever happens in each cycle, for any number of cycles: memory that isn't allocated is never used or released; what is allocated afterwards is what the state refers to (each
object once: the last table, at most `lifetime` deltas, the SLURM), and at most one string per cycle. After the shutdown, only those strings remain. -/
theorem C197_cycles_keep_only_the_state_partial (lifetime : Nat) (h0 : 0 < lifetime) (orc : Nat → Nat) (n : Nat) :
    let r := after lifetime orc n
    let e := afterShutdown lifetime orc n
    r.2.bad = false ∧ (∃ lost : List Id, lost.length ≤ n ∧ ∀ i, r.2.refs i = r.1.things.count i + lost.count i) ∧ r.1.deltas.length ≤ lifetime ∧
    e.bad = false ∧ (∃ lost : List Id, lost.length ≤ n ∧ ∀ i, e.refs i = lost.count i) := by
  have h1 := t_cycles h0 n (ok_init lifetime) _ (own_init orc)
  have h2 := t_vrpsDestroy h1.2 _ h1.1
  have l1 := lo_cycles (lifetime := lifetime) n Srv.init (H.init orc)
  have l2 := lo_vrpsDestroy (st := (after lifetime orc n).1) (after lifetime orc n).2
  have e0 : (H.init orc).lost.length = 0 := rfl
  simp only [e0, Nat.zero_add] at l1
  refine ⟨h1.1.good, ⟨_, l1, h1.1.bal⟩, h1.2.len, h2.good, ⟨_, Nat.le_trans l2 l1, fun i => ?_⟩⟩
  exact (h2.bal i).trans (Nat.zero_add _)

/-- What happens in a cycle: one TAL with one ROA; there is one SLURM file, whose first prefix filter can't be understood; the ROAs haven't changed. -/
def broken : List Nat := [0, 1, 0, 1, 7, 0, 0, 1, 0, 0, 0, 0, 1, 0, 0, 0, 1, 1, 1]

/-- The same in each cycle. (The first time, there's nothing to compare the ROAs with.) -/
def brokenSlurm (i : Nat) : Nat := (broken[if i < 18 then i else (i - 18) % 19]?).getD 0

/-- `m` neither asks what happens nor loses anything. -/
def Quiet {α : Type} (m : HM α) : Prop := ∀ s, (m s).2.orc = s.orc ∧ (m s).2.pos = s.pos ∧ (m s).2.lost = s.lost

theorem quiet_useAll : ∀ l, Quiet (useAll l)
  | [], _ => ⟨rfl, rfl, rfl⟩
  | i :: l, s => quiet_useAll l { s with bad := s.bad || s.refs i = 0 }

theorem quiet_freeAll : ∀ l, Quiet (freeAll l)
  | [], _ => ⟨rfl, rfl, rfl⟩
  | i :: l, s => quiet_freeAll l { s with bad := s.bad || s.refs i = 0, refs := fun j => if j = i then s.refs i - 1 else s.refs j }

theorem quiet_tableDestroy (t : Table) : Quiet (tableDestroy (some t)) := fun s => quiet_freeAll (t.rows.map Prod.snd) s

theorem broken_low (j : Nat) (h : j < 18) : brokenSlurm j = (broken[j]?).getD 0 := by
  unfold brokenSlurm
  rw [if_pos h]

theorem broken_at (n j : Nat) (h : j < 19) : brokenSlurm (18 + 19 * n + j) = (broken[j]?).getD 0 := by
  unfold brokenSlurm
  rw [if_neg (by omega), show (18 + 19 * n + j - 18) % 19 = j by omega]


theorem join_one (a b : Id) (d : Table) : joinThreads [⟨a, b, some d⟩] none false = (do use a; threadDestroy ⟨a, b, none⟩; return some d) := rfl

theorem pv_broken (s : H) (p : Nat) (hp : s.pos = p) (a0 : s.orc p = 0) (a1 : s.orc (p + 1) = 1) (a2 : s.orc (p + 2) = 0) (a3 : s.orc (p + 3) = 1) (a4 : s.orc (p + 4) = 7) (a5 : s.orc (p + 5) = 0) :
    let r := performValidation s
    r.1.isSome = true ∧ r.2.orc = s.orc ∧ r.2.pos = p + 6 ∧ r.2.lost = s.lost := by
  subst hp
  simp [performValidation, spawn, doFileValidation, join_one, threadDestroy, tableDestroy, tableNew, addRows, addNew, addRow, bind, StateT.bind, pure, StateT.pure, askB, ask, new, use, free, a0, a1, a2, a3, a4, a5, Nat.add_assoc]

theorem us_broken (s : H) (p : Nat) (hp : s.pos = p) (a0 : s.orc p = 1) (a1 : s.orc (p + 1) = 0) (a2 : s.orc (p + 2) = 0) (a3 : s.orc (p + 3) = 0) (a4 : s.orc (p + 4) = 0) (a5 : s.orc (p + 5) = 1)
    (a6 : s.orc (p + 6) = 0) (a7 : s.orc (p + 7) = 0) (a8 : s.orc (p + 8) = 0) (a9 : s.orc (p + 9) = 1) (a10 : s.orc (p + 10) = 1) :
    let r := updateSlurm none s
    r.1 = (none, false) ∧ r.2.orc = s.orc ∧ r.2.pos = p + 11 ∧ r.2.lost.length = s.lost.length + 1 := by
  subst hp
  simp [updateSlurm, loadChecksums, loadSlurmFiles, slurmFiles, create, handleJson, loadSection, loadPrefixes, dump, slurmDestroy, listsCleanup, listsDestroy, wrapPuts, freeAll, Lists.empty, lose, bind, StateT.bind, pure, StateT.pure, askB, ask, new, use, free, a0, a1, a2, a3, a4, a5, a6, a7, a8, a9, a10, Nat.add_assoc]

theorem run_bind {α β : Type} (m : HM α) (k : α → HM β) (s : H) : (m >>= k) s = k (m s).1 (m s).2 := rfl

theorem sa_broken (b : Table) (s : H) (p : Nat) (hp : s.pos = p) (a : s.orc p = 0) (a0 : s.orc (p + 1) = 1) (a1 : s.orc (p + 2) = 0) (a2 : s.orc (p + 3) = 0) (a3 : s.orc (p + 4) = 0) (a4 : s.orc (p + 5) = 0)
    (a5 : s.orc (p + 6) = 1) (a6 : s.orc (p + 7) = 0) (a7 : s.orc (p + 8) = 0) (a8 : s.orc (p + 9) = 0) (a9 : s.orc (p + 10) = 1) (a10 : s.orc (p + 11) = 1) :
    let r := slurmApply b none s
    r.1 = (b, none, false) ∧ r.2.orc = s.orc ∧ r.2.pos = p + 12 ∧ r.2.lost.length = s.lost.length + 1 := by
  have h := us_broken { s with pos := s.pos + 1 } (p + 1) (by rw [← hp]) a0 a1 a2 a3 a4 a5 a6 a7 a8 a9 a10
  rw [← hp] at a
  obtain ⟨h1, h2, h3, h4⟩ := h
  have e0 : (askB s).1 = false := by simp [askB, ask, run_bind, a, pure, StateT.pure]
  have e1 : (askB s).2 = { s with pos := s.pos + 1 } := rfl
  unfold slurmApply
  simp only [run_bind, e0, e1, Bool.false_eq_true, if_false, h1]
  exact ⟨rfl, h2, h3, h4⟩

theorem cd_same (t u : Table) (s : H) (a : s.orc s.pos = 1) :
    let r := computeDeltas t u s
    r.1 = none ∧ r.2.orc = s.orc ∧ r.2.pos = s.pos + 1 ∧ r.2.lost = s.lost := by
  have h1 := quiet_useAll t.things (new s).2
  have h2 := quiet_useAll u.things (useAll t.things (new s).2).2
  generalize hu : useAll u.things (useAll t.things (new s).2).2 = w at h2
  have e : computeDeltas t u s = (do if ← askB then (do free s.next; return none) else return some s.next : HM (Option Id)) w.2 := by
    rw [← hu]; rfl
  have ha : w.2.orc w.2.pos = 1 := by rw [h2.1, h2.2.1, h1.1, h1.2.1]; exact a
  simp only [e]
  simp only [bind, StateT.bind, askB, ask, ha, pure, StateT.pure]
  refine ⟨rfl, h2.1.trans h1.1, ?_, h2.2.2.trans h1.2.2⟩
  exact congrArg (· + 1) (h2.2.1.trans h1.2.1)

/-- A cycle in which the SLURM is broken, and there was a table. -/
theorem broken_cycle (lifetime n : Nat) (st : Srv) (old : Table) (hb : st.base = some old) (hs : st.slurm = none) (s : H) (ho : s.orc = brokenSlurm) (hp : s.pos = 18 + 19 * n) :
    let r := vrpsUpdate lifetime st s
    r.1 = st ∧ r.2.orc = brokenSlurm ∧ r.2.pos = 18 + 19 * (n + 1) ∧ r.2.lost.length = s.lost.length + 1 := by
  obtain ⟨refs, next, bad, lost, orc, pos⟩ := s
  obtain ⟨base, deltas, last, slurm⟩ := st
  simp only at hb hs ho hp
  subst hb hs ho hp
  have a0 := broken_at n 0 (by omega)
  have a1 := broken_at n 1 (by omega)
  have a2 := broken_at n 2 (by omega)
  have a3 := broken_at n 3 (by omega)
  have a4 := broken_at n 4 (by omega)
  have a5 := broken_at n 5 (by omega)
  have a6 := broken_at n 6 (by omega)
  have a7 := broken_at n 7 (by omega)
  have a8 := broken_at n 8 (by omega)
  have a9 := broken_at n 9 (by omega)
  have a10 := broken_at n 10 (by omega)
  have a11 := broken_at n 11 (by omega)
  have a12 := broken_at n 12 (by omega)
  have a13 := broken_at n 13 (by omega)
  have a14 := broken_at n 14 (by omega)
  have a15 := broken_at n 15 (by omega)
  have a16 := broken_at n 16 (by omega)
  have a17 := broken_at n 17 (by omega)
  have a18 := broken_at n 18 (by omega)
  simp only [broken, Nat.add_zero, List.getElem?_cons_zero, List.getElem?_cons_succ, Option.getD_some] at a0 a1 a2 a3 a4 a5 a6 a7 a8 a9 a10 a11 a12 a13 a14 a15 a16 a17 a18
  have hv := pv_broken ⟨refs, next, bad, lost, brokenSlurm, 18 + 19 * n⟩ _ rfl a0 a1 a2 a3 a4 a5
  obtain ⟨h1, h2, h3, h4⟩ := hv
  obtain ⟨b, hb⟩ := Option.isSome_iff_exists.1 h1
  unfold vrpsUpdate
  simp only [run_bind, hb]
  generalize (performValidation ⟨refs, next, bad, lost, brokenSlurm, 18 + 19 * n⟩).2 = s1 at h2 h3 h4
  simp only at h2 h3 h4
  have hs := sa_broken b s1 _ h3 (by rw [h2]; exact a6) (by rw [h2]; exact a7) (by rw [h2]; exact a8) (by rw [h2]; exact a9) (by rw [h2]; exact a10) (by rw [h2]; exact a11) (by rw [h2]; exact a12) (by rw [h2]; exact a13)
    (by rw [h2]; exact a14) (by rw [h2]; exact a15) (by rw [h2]; exact a16) (by rw [h2]; exact a17)
  obtain ⟨g1, g2, g3, g4⟩ := hs
  simp only [run_bind, g1, Bool.false_eq_true, if_false]
  generalize (slurmApply b none s1).2 = s2 at g2 g3 g4
  have hu := quiet_useAll b.things s2
  obtain ⟨c1, c2, c3, c4⟩ := cd_same old b (useAll b.things s2).2 (by rw [hu.1, hu.2.1, g2, g3, h2]; exact a18)
  have hd := quiet_tableDestroy b (computeDeltas old b (useAll b.things s2).2).2
  simp only [run_bind, c1]
  refine ⟨rfl, ?_, ?_, ?_⟩
  · exact hd.1.trans (by rw [c2, hu.1, g2, h2])
  · exact hd.2.1.trans (by rw [c3, hu.2.1, g3]; omega)
  · exact (congrArg List.length hd.2.2).trans (by rw [c4, hu.2.2, g4, h4])

theorem Quiet.bind {α β : Type} {m : HM α} {k : α → HM β} (h : Quiet m) (hk : ∀ a, Quiet (k a)) : Quiet (m >>= k) := fun s =>
  ⟨(hk _ _).1.trans (h s).1, (hk _ _).2.1.trans (h s).2.1, (hk _ _).2.2.trans (h s).2.2⟩

theorem quiet_pure {α : Type} (a : α) : Quiet (pure a : HM α) := fun _ => ⟨rfl, rfl, rfl⟩
theorem quiet_free (i : Id) : Quiet (free i) := fun _ => ⟨rfl, rfl, rfl⟩
theorem quiet_use (i : Id) : Quiet (use i) := fun _ => ⟨rfl, rfl, rfl⟩

theorem quiet_wrapPuts : ∀ l, Quiet (wrapPuts l)
  | [] => quiet_pure _
  | w :: l => Quiet.bind (by
      unfold wrapPut
      by_cases h : w.refs = 1
      · rw [if_pos h]; exact quiet_freeAll _
      · rw [if_neg h]; exact quiet_pure _) fun _ => quiet_wrapPuts l

theorem quiet_listsCleanup (l : Lists) : Quiet (listsCleanup l) := Quiet.bind (quiet_wrapPuts _) fun _ => quiet_wrapPuts _

theorem quiet_slurmDestroy (db : Slurm) : Quiet (slurmDestroy db) := by
  have he : Quiet (do freeAll db.csums; free db.self) := Quiet.bind (quiet_freeAll _) fun _ => quiet_free _
  refine Quiet.bind (quiet_use _) fun _ => Quiet.bind (quiet_listsCleanup _) fun _ => ?_
  cases db.cache with
  | none => exact he
  | some c => exact Quiet.bind (Quiet.bind (quiet_listsCleanup _) fun _ => quiet_free _) fun _ => he

theorem quiet_vrpsDestroy (st : Srv) : Quiet (vrpsDestroy st) := by
  refine Quiet.bind ?_ fun _ => Quiet.bind (quiet_freeAll _) fun _ => ?_
  · cases st.slurm with
    | none => exact quiet_pure _
    | some db => exact quiet_slurmDestroy db
  · cases st.base with
    | none => exact quiet_pure _
    | some t => exact quiet_tableDestroy t

/-- The first one. -/
theorem broken_first (lifetime : Nat) :
    let r := vrpsUpdate lifetime Srv.init (H.init brokenSlurm)
    r.1.base.isSome = true ∧ r.1.slurm = none ∧ r.2.orc = brokenSlurm ∧ r.2.pos = 18 ∧ r.2.lost.length = 1 := by
  obtain ⟨h1, h2, h3, h4⟩ := pv_broken (H.init brokenSlurm) 0 rfl (broken_low 0 (by omega)) (broken_low 1 (by omega)) (broken_low 2 (by omega)) (broken_low 3 (by omega)) (broken_low 4 (by omega)) (broken_low 5 (by omega))
  obtain ⟨b, hb⟩ := Option.isSome_iff_exists.1 h1
  unfold vrpsUpdate
  simp only [run_bind, hb]
  generalize (performValidation (H.init brokenSlurm)).2 = s1 at h2 h3 h4
  have h2 : s1.orc = brokenSlurm := h2
  obtain ⟨g1, g2, g3, g4⟩ := sa_broken b s1 6 h3 (by rw [h2]; exact broken_low 6 (by omega)) (by rw [h2]; exact broken_low 7 (by omega)) (by rw [h2]; exact broken_low 8 (by omega)) (by rw [h2]; exact broken_low 9 (by omega)) (by rw [h2]; exact broken_low 10 (by omega)) (by rw [h2]; exact broken_low 11 (by omega)) (by rw [h2]; exact broken_low 12 (by omega)) (by rw [h2]; exact broken_low 13 (by omega)) (by rw [h2]; exact broken_low 14 (by omega))
    (by rw [h2]; exact broken_low 15 (by omega)) (by rw [h2]; exact broken_low 16 (by omega)) (by rw [h2]; exact broken_low 17 (by omega))
  simp only [Srv.init, run_bind, g1, Bool.false_eq_true, if_false]
  generalize (slurmApply b none s1).2 = s2 at g2 g3 g4
  have hu := quiet_useAll b.things s2
  refine ⟨rfl, rfl, ?_, ?_, ?_⟩
  · exact hu.1.trans (g2.trans h2)
  · exact hu.2.1.trans g3
  · exact (congrArg List.length hu.2.2).trans (g4.trans (by rw [h4]; rfl))

theorem broken_cycles (lifetime : Nat) : ∀ (n m : Nat) (st : Srv) (s : H), st.base.isSome = true → st.slurm = none → s.orc = brokenSlurm → s.pos = 18 + 19 * m →
    (cycles lifetime n st s).2.lost.length = s.lost.length + n
  | 0, _, _, _, _, _, _, _ => rfl
  | n + 1, m, st, s, hb, hs, ho, hp => by
    obtain ⟨old, hb'⟩ := Option.isSome_iff_exists.1 hb
    obtain ⟨r1, r2, r3, r4⟩ := broken_cycle lifetime m st old hb' hs s ho hp
    have := broken_cycles lifetime n (m + 1) (vrpsUpdate lifetime st s).1 (vrpsUpdate lifetime st s).2 (by rw [r1]; exact hb) (by rw [r1]; exact hs) r2 r3
    show (cycles lifetime n (vrpsUpdate lifetime st s).1 (vrpsUpdate lifetime st s).2).2.lost.length = _
    rw [this, r4]; omega

theorem after_succ (lifetime : Nat) (orc : Nat → Nat) (n : Nat) :
    after lifetime orc (n + 1) = cycles lifetime n (vrpsUpdate lifetime Srv.init (H.init orc)).1 (vrpsUpdate lifetime Srv.init (H.init orc)).2 := by
  unfold after
  rw [cycles, run_bind]

theorem broken_lost (lifetime n : Nat) : (after lifetime brokenSlurm n).2.lost.length = n := by
  cases n with
  | zero => unfold after; rw [cycles]; rfl
  | succ n =>
    have hf := broken_first lifetime
    rw [after_succ]
    generalize vrpsUpdate lifetime Srv.init (H.init brokenSlurm) = x at hf
    obtain ⟨f1, f2, f3, f4, f5⟩ := hf
    rw [broken_cycles lifetime n 0 x.1 x.2 f1 f2 f3 (by rw [f4]), f5]; omega

/-- **C197** is false of the program: there are runs in which, after any number of cycles and the shutdown, one string per cycle is still allocated. -/
theorem C197_refuted (lifetime : Nat) (h0 : 0 < lifetime) : ∃ orc, ∀ n, ∃ left : List Id, left.length = n ∧ ∀ i, (afterShutdown lifetime orc n).refs i = left.count i := by
  refine ⟨brokenSlurm, fun n => ?_⟩
  have hl := broken_lost lifetime n
  have h1 : Own (after lifetime brokenSlurm n).1.things (after lifetime brokenSlurm n).2 ∧ Ok lifetime (after lifetime brokenSlurm n).1 := t_cycles h0 n (ok_init lifetime) _ (own_init brokenSlurm)
  unfold afterShutdown
  generalize after lifetime brokenSlurm n = x at hl h1
  have h2 := t_vrpsDestroy h1.2 _ h1.1
  have q := quiet_vrpsDestroy x.1 x.2
  exact ⟨(vrpsDestroy x.1 x.2).2.lost, (congrArg List.length q.2.2).trans hl, fun i => (h2.bal i).trans (Nat.zero_add _)⟩

/-! ### The claims aren't empty -/

/-- Two cycles with different ROAs, and no SLURM: there is a table with one row, and one delta. -/
def plain (i : Nat) : Nat := ([0, 1, 0, 1, 7, 0, 1, 0, 1, 0, 1, 8, 0, 1, 0][i]?).getD 0

example : (after 5 plain 2).1.base.map Table.rows = some [(8, 7)] ∧ (after 5 plain 2).1.deltas = [8] ∧ (after 5 plain 2).2.lost = [] ∧ (after 5 plain 2).2.next = 9 := by
  simp [after, cycles, Srv.init, H.init, vrpsUpdate, slurmApply, computeDeltas, darrayAdd, useAll, Table.things, performValidation, spawn, doFileValidation, join_one, threadDestroy, tableDestroy, freeAll, tableNew, addRows, addNew, addRow,
    bind, StateT.bind, pure, StateT.pure, askB, ask, new, use, free, plain]

end Verif.Upd
