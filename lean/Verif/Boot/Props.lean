import Verif.Boot.LogProps
import Verif.Net.HttpProps
import Mathlib.Data.List.Induction
/-
C157: rsync's streams. C158: what children hold. C159: permissions. C160: starting and ending. C161: the end of the server. C162: object identifiers. C163: downloading TALs.
-/
namespace Verif.Boot

/-! ### C157 -/

/-- The child's standard streams are the ends for writing of its pipes, and it has no other end of them. -/
def Redirected (t : Fds Obj) : Prop :=
  t 2 = some errW ∧ t 1 = some outW ∧ ∀ fd, fd ≠ 1 → fd ≠ 2 → t fd ≠ some errR ∧ t fd ≠ some errW ∧ t fd ≠ some outR ∧ t fd ≠ some outW

/-- The ends of the pipes are these descriptors, and no others. -/
structure Piped (t : Fds Obj) (e : Ends) : Prop where
  er : ∀ fd, t fd = some errR ↔ fd = e.errRead
  ew : ∀ fd, t fd = some errW ↔ fd = e.errWrite
  or : ∀ fd, t fd = some outR ↔ fd = e.outRead
  ow : ∀ fd, t fd = some outW ↔ fd = e.outWrite

theorem Piped.distinct {t : Fds Obj} {e : Ends} (h : Piped t e) : e.errRead ≠ e.errWrite ∧ e.errRead ≠ e.outRead ∧ e.errRead ≠ e.outWrite ∧
    e.errWrite ≠ e.outRead ∧ e.errWrite ≠ e.outWrite ∧ e.outRead ≠ e.outWrite := by
  have a := (h.er _).mpr rfl
  have b := (h.ew _).mpr rfl
  have c := (h.or _).mpr rfl
  have d := (h.ow _).mpr rfl
  refine ⟨?_, ?_, ?_, ?_, ?_, ?_⟩ <;> intro e <;> simp_all [errR, errW, outR, outW]

theorem dup2_open {t : Fds Obj} {old new : Nat} {o : Obj} (h : t old = some o) : dup2 t old new = fun fd => if fd = new then some o else t fd := by
  simp [dup2, h]

/-- The child's descriptors, in one go, if nothing interferes. -/
theorem duplicate_eq {t : Fds Obj} {e : Ends} (h : Piped t e) (h1 : e.outWrite ≠ 2) (fd : Nat) :
    duplicateFds t e fd =
      if fd = e.outRead then none else if fd = e.outWrite then none else if fd = 1 then some outW
      else if fd = e.errRead then none else if fd = e.errWrite then none else if fd = 2 then some errW else t fd := by
  have hd := h.distinct
  have a : t e.errWrite = some errW := (h.ew _).mpr rfl
  have b : t e.outWrite = some outW := (h.ow _).mpr rfl
  unfold duplicateFds
  rw [dup2_open a]
  have c : closeFd (closeFd (fun fd => if fd = 2 then some errW else t fd) e.errWrite) e.errRead e.outWrite = some outW := by
    simp [closeFd, hd.2.2.1.symm, hd.2.2.2.2.1.symm, h1, b]
  rw [dup2_open c]
  simp [closeFd]

/-- **C157**, exactly: the child's streams are what they should be if and only if none of these six coincidences happens. -/
theorem C157_exact {t : Fds Obj} {e : Ends} (h : Piped t e) :
    Redirected (duplicateFds t e) ↔ e.errRead ≠ 2 ∧ e.errWrite ≠ 2 ∧ e.outRead ≠ 1 ∧ e.outRead ≠ 2 ∧ e.outWrite ≠ 1 ∧ e.outWrite ≠ 2 := by
  have hd := h.distinct
  obtain ⟨d1, d2, d3, d4, d5, d6⟩ := hd
  constructor
  · rintro ⟨r1, r2, r3⟩
    have how : e.outWrite ≠ 2 := by
      intro e2
      have : duplicateFds t e 2 = none := by
        unfold duplicateFds
        by_cases hr : (2 : Nat) = e.outRead
        · simp [closeFd, ← hr]
        · simp [closeFd, e2]
      rw [this] at r1
      cases r1
    rw [duplicate_eq h how] at r1 r2
    refine ⟨?_, ?_, ?_, ?_, ?_, how⟩
    · intro e1; rw [e1] at r1 d1 d2 d3; simp [errW] at r1
    · intro e1; rw [e1] at r1; simp [errW] at r1
    · intro e1; rw [e1] at r2; simp at r2
    · intro e1; rw [e1] at r1; simp at r1
    · intro e1; rw [e1] at r2; simp at r2
  · rintro ⟨c1, c2, c3, c4, c5, c6⟩
    refine ⟨?_, ?_, ?_⟩
    · rw [duplicate_eq h c6, if_neg c4.symm, if_neg c6.symm, if_neg (by decide), if_neg c1.symm, if_neg c2.symm, if_pos rfl]
    · rw [duplicate_eq h c6, if_neg c3.symm, if_neg c5.symm, if_pos rfl]
    · intro fd f1 f2
      rw [duplicate_eq h c6]
      by_cases g1 : fd = e.outRead
      · rw [if_pos g1]; simp
      rw [if_neg g1]
      by_cases g2 : fd = e.outWrite
      · rw [if_pos g2]; simp
      rw [if_neg g2, if_neg f1]
      by_cases g3 : fd = e.errRead
      · rw [if_pos g3]; simp
      rw [if_neg g3]
      by_cases g4 : fd = e.errWrite
      · rw [if_pos g4]; simp
      rw [if_neg g4, if_neg f2]
      exact ⟨fun x => g3 ((h.er _).mp x), fun x => g4 ((h.ew _).mp x), fun x => g1 ((h.or _).mp x), fun x => g2 ((h.ow _).mp x)⟩

theorem alloc_only (t : Table) (o : Obj) (h : ∀ fd, t.get fd ≠ some o) (fd : Nat) : (t.alloc o).2.get fd = some o ↔ fd = (t.alloc o).1 := by
  constructor
  · intro hg
    by_contra hne
    rw [alloc_other _ _ _ hne] at hg
    exact h fd hg
  · rintro rfl
    exact alloc_get _ _

theorem alloc_same (t : Table) (o x : Obj) (hx : x ≠ o) (fd : Nat) : (t.alloc o).2.get fd = some x ↔ t.get fd = some x := by
  constructor
  · intro hg
    by_cases hne : fd = (t.alloc o).1
    · rw [hne, alloc_get] at hg
      injection hg with hg
      exact absurd hg.symm hx
    · rwa [alloc_other _ _ _ hne] at hg
  · intro hg
    exact alloc_keeps _ _ _ _ hg

/-- The pipes of `create_pipes`, if the table had no others. -/
theorem createPipes_piped (t : Table) (h : ∀ fd, t.get fd ≠ some errR ∧ t.get fd ≠ some errW ∧ t.get fd ≠ some outR ∧ t.get fd ≠ some outW) :
    Piped (createPipes t).2.get (createPipes t).1 := by
  unfold createPipes
  dsimp only
  have n1 : ∀ fd, (t.alloc errR).2.get fd ≠ some errW := fun fd => by rw [Ne, alloc_same _ _ _ (by decide)]; exact (h fd).2.1
  have n2 : ∀ fd, ((t.alloc errR).2.alloc errW).2.get fd ≠ some outR := fun fd => by
    rw [Ne, alloc_same _ _ _ (by decide), alloc_same _ _ _ (by decide)]; exact (h fd).2.2.1
  have n3 : ∀ fd, (((t.alloc errR).2.alloc errW).2.alloc outR).2.get fd ≠ some outW := fun fd => by
    rw [Ne, alloc_same _ _ _ (by decide), alloc_same _ _ _ (by decide), alloc_same _ _ _ (by decide)]; exact (h fd).2.2.2
  refine ⟨fun fd => ?_, fun fd => ?_, fun fd => ?_, fun fd => ?_⟩
  · rw [alloc_same _ _ _ (by decide), alloc_same _ _ _ (by decide), alloc_same _ _ _ (by decide), alloc_only _ _ (fun fd => (h fd).1)]
  · rw [alloc_same _ _ _ (by decide), alloc_same _ _ _ (by decide), alloc_only _ _ n1]
  · rw [alloc_same _ _ _ (by decide), alloc_only _ _ n2]
  · rw [alloc_only _ _ n3]

/-- A descriptor that's taken isn't allocated. -/
theorem ends_free (t : Table) (fd : Nat) (h : t.get fd ≠ none) :
    (createPipes t).1.errRead ≠ fd ∧ (createPipes t).1.errWrite ≠ fd ∧ (createPipes t).1.outRead ≠ fd ∧ (createPipes t).1.outWrite ≠ fd := by
  unfold createPipes
  dsimp only
  obtain ⟨o, ho⟩ := Option.ne_none_iff_exists'.mp h
  have key : ∀ (t : Table) (x : Obj), t.get fd = some o → (t.alloc x).1 ≠ fd := by
    intro t x hx e
    rw [← e, alloc_free] at hx
    cases hx
  exact ⟨key _ _ ho, key _ _ (alloc_keeps _ _ _ _ ho), key _ _ (alloc_keeps _ _ _ _ (alloc_keeps _ _ _ _ ho)),
    key _ _ (alloc_keeps _ _ _ _ (alloc_keeps _ _ _ _ (alloc_keeps _ _ _ _ ho)))⟩

/-- **C157 (partial).** As long as descriptors 1 and 2 are taken, whatever else is open, rsync's output and errors go to the pipes, it holds no other end of them, and all other
descriptors of the program are inherited as they are. -/
theorem C157_partial (t : Table) (hp : ∀ fd, t.get fd ≠ some errR ∧ t.get fd ≠ some errW ∧ t.get fd ≠ some outR ∧ t.get fd ≠ some outW)
    (h1 : t.get 1 ≠ none) (h2 : t.get 2 ≠ none) :
    Redirected (childFds t) ∧ ∀ fd, fd ≠ 1 → fd ≠ 2 → childFds t fd = t.get fd := by
  have hp' := createPipes_piped t hp
  have k1 := ends_free t 1 h1
  have k2 := ends_free t 2 h2
  have hr : Redirected (duplicateFds (createPipes t).2.get (createPipes t).1) :=
    (C157_exact hp').mpr ⟨k2.1, k2.2.1, k1.2.2.1, k2.2.2.1, k1.2.2.2, k2.2.2.2⟩
  refine ⟨hr, ?_⟩
  intro fd f1 f2
  show duplicateFds (createPipes t).2.get (createPipes t).1 fd = _
  rw [duplicate_eq hp' k2.2.2.2]
  have hfree : ∀ fd, fd = (createPipes t).1.errRead ∨ fd = (createPipes t).1.errWrite ∨ fd = (createPipes t).1.outRead ∨ fd = (createPipes t).1.outWrite → t.get fd = none := by
    intro fd hfd
    by_contra hne
    have := ends_free t fd hne
    rcases hfd with e | e | e | e
    · exact this.1 e.symm
    · exact this.2.1 e.symm
    · exact this.2.2.1 e.symm
    · exact this.2.2.2 e.symm
  by_cases g1 : fd = (createPipes t).1.outRead
  · rw [if_pos g1, hfree fd (.inr (.inr (.inl g1)))]
  rw [if_neg g1]
  by_cases g2 : fd = (createPipes t).1.outWrite
  · rw [if_pos g2, hfree fd (.inr (.inr (.inr g2)))]
  rw [if_neg g2, if_neg f1]
  by_cases g3 : fd = (createPipes t).1.errRead
  · rw [if_pos g3, hfree fd (.inl g3)]
  rw [if_neg g3]
  by_cases g4 : fd = (createPipes t).1.errWrite
  · rw [if_pos g4, hfree fd (.inr (.inl g4))]
  rw [if_neg g4, if_neg f2]
  unfold createPipes at g1 g2 g3 g4 ⊢
  dsimp only at g1 g2 g3 g4 ⊢
  rw [alloc_other _ _ _ g2, alloc_other _ _ _ g1, alloc_other _ _ _ g4, alloc_other _ _ _ g3]

/-- The table of a program that was started from a terminal and has a router. -/
example : ∃ t : Table, t.length = 6 ∧ (∀ fd, t.get fd ≠ some errR ∧ t.get fd ≠ some errW ∧ t.get fd ≠ some outR ∧ t.get fd ≠ some outW) ∧ t.get 1 ≠ none ∧ t.get 2 ≠ none ∧
    (createPipes t).1 = ⟨4, 6, 7, 8⟩ := by
  refine ⟨[some (.other 10), some (.other 11), some (.other 12), some .log, none, some (.stream 0)], rfl, ?_, by decide, by decide, by decide⟩
  intro fd
  match fd with
  | 0 => decide
  | 1 => decide
  | 2 => decide
  | 3 => decide
  | 4 => decide
  | 5 => decide
  | n + 6 => simp [Table.get]

/-- **C157 (refuted).** A daemon has closed its standard streams, so the pipes get their numbers: the first rsync of a daemon that only has the connection to the system's log runs without standard error. -/
theorem C157_refuted : childFds [some .log] 2 = none ∧ childFds [some .log] 1 = some outW ∧ (childFds [] 2 = none ∧ childFds [] 1 = some outW) := by
  decide

/-! ### C158 -/

theorem run_snoc (f : Family) (l : List Ev) (e : Ev) : f.run (l ++ [e]) = (f.run l).step e := by
  simp [Family.run]

/-- The children that are alive, and what they have: what the parent had when they were forked. -/
theorem children_iff (l : List Ev) (c : Nat) (held : List Nat) :
    (c, held) ∈ (Family.run ⟨[], []⟩ l).children ↔ ∃ a b, l = a ++ .forks c :: b ∧ held = (Family.run ⟨[], []⟩ a).parent ∧ .ends c ∉ b := by
  induction l using List.reverseRecOn with
  | nil => simp [Family.run]
  | append_singleton l e ih =>
    rw [run_snoc]
    -- histories that end in e
    have key : (∃ a b, l ++ [e] = a ++ .forks c :: b ∧ held = (Family.run ⟨[], []⟩ a).parent ∧ .ends c ∉ b) ↔
        (e = .forks c ∧ held = (Family.run ⟨[], []⟩ l).parent) ∨ (e ≠ .ends c ∧ ∃ a b, l = a ++ .forks c :: b ∧ held = (Family.run ⟨[], []⟩ a).parent ∧ .ends c ∉ b) := by
      constructor
      · rintro ⟨a, b, h1, h2, h3⟩
        rcases List.eq_nil_or_concat b with rfl | ⟨b', x, rfl⟩
        · left
          have := List.append_inj' h1 rfl
          obtain ⟨rfl, h4⟩ := this
          injection h4 with h4 _
          exact ⟨h4, h2⟩
        · right
          rw [show a ++ Ev.forks c :: (b'.concat x) = (a ++ Ev.forks c :: b') ++ [x] by simp] at h1
          obtain ⟨h4, h5⟩ := List.append_inj' h1 rfl
          injection h5 with h5 _
          simp only [List.concat_eq_append, List.mem_append, List.mem_singleton, not_or] at h3
          exact ⟨fun he => h3.2 (by rw [← h5, he]), a, b', h4, h2, h3.1⟩
      · rintro (⟨rfl, h2⟩ | ⟨hne, a, b, rfl, h2, h3⟩)
        · exact ⟨l, [], rfl, h2, by simp⟩
        · refine ⟨a, b ++ [e], by simp, h2, ?_⟩
          simp only [List.mem_append, List.mem_singleton, not_or]
          exact ⟨h3, fun h => hne h.symm⟩
    rw [key, ← ih]
    cases e with
    | opens o => simp [Family.step]
    | closes o => simp [Family.step]
    | forks c' =>
      simp only [Family.step, List.mem_cons, Prod.mk.injEq, Ev.forks.injEq, ne_eq, reduceCtorEq, not_false_eq_true, true_and]
      constructor
      · rintro (⟨rfl, h⟩ | h)
        · exact .inl ⟨rfl, h⟩
        · exact .inr h
      · rintro (⟨rfl, h⟩ | h)
        · exact .inl ⟨rfl, h⟩
        · exact .inr h
    | ends c' =>
      simp only [Family.step, List.mem_filter, reduceCtorEq, false_and, false_or, ne_eq, Ev.ends.injEq, decide_eq_true_eq]
      constructor
      · rintro ⟨h1, h2⟩
        exact ⟨fun e => h2 e.symm, h1⟩
      · rintro ⟨h1, h2⟩
        exact ⟨h2, fun e => h1 e.symm⟩

/-- **C158**, exactly: whatever happens, something is released once the parent closed it and all the children that were forked while the parent had it open have ended. -/
theorem C158_exact (l : List Ev) (o : Nat) :
    (Family.run ⟨[], []⟩ l).released o = true ↔ o ∉ (Family.run ⟨[], []⟩ l).parent ∧
      ∀ a c b, l = a ++ .forks c :: b → o ∈ (Family.run ⟨[], []⟩ a).parent → .ends c ∈ b := by
  unfold Family.released
  rw [Bool.and_eq_true, List.all_eq_true]
  constructor
  · rintro ⟨h1, h2⟩
    refine ⟨by simpa using h1, ?_⟩
    intro a c b hl ho
    by_contra hne
    have := h2 (c, (Family.run ⟨[], []⟩ a).parent) ((children_iff l c _).mpr ⟨a, b, hl, rfl, hne⟩)
    simp [ho] at this
  · rintro ⟨h1, h2⟩
    refine ⟨by simpa using h1, ?_⟩
    rintro ⟨c, held⟩ hm
    obtain ⟨a, b, hl, rfl, hne⟩ := (children_iff l c held).mp hm
    simp only [Bool.not_eq_true']
    rw [← Bool.not_eq_true, List.contains_iff_mem]
    intro ho
    exact hne (h2 a c b hl ho)

/-- **C158 (partial).** If no other child was forked while the parent had the pipe open, its end is seen if and only if that rsync has ended (whatever happens before, meanwhile and after). -/
theorem C158_partial (l a b : List Ev) (o c : Nat) (hl : l = a ++ .forks c :: b) (ho : o ∈ (Family.run ⟨[], []⟩ a).parent) (hclosed : o ∉ (Family.run ⟨[], []⟩ l).parent)
    (halone : ∀ a' c' b', l = a' ++ .forks c' :: b' → o ∈ (Family.run ⟨[], []⟩ a').parent → a' = a) :
    (Family.run ⟨[], []⟩ l).released o = true ↔ .ends c ∈ b := by
  rw [C158_exact]
  constructor
  · rintro ⟨_, h⟩
    exact h a c b hl ho
  · intro h
    refine ⟨hclosed, ?_⟩
    intro a' c' b' hl' ho'
    have := halone a' c' b' hl' ho'
    subst this
    rw [hl] at hl'
    have := List.append_cancel_left hl'
    injection this with h1 h2
    injection h1 with h1
    rw [← h1, ← h2]
    exact h

/-- Something that no child was forked with is released as soon as it's closed. -/
theorem C158_partial_closed (l : List Ev) (o : Nat) (h : ∀ a c b, l = a ++ .forks c :: b → o ∉ (Family.run ⟨[], []⟩ a).parent) :
    (Family.run ⟨[], []⟩ (l ++ [.closes o])).released o = true := by
  rw [C158_exact]
  refine ⟨by rw [run_snoc]; simp [Family.step], ?_⟩
  intro a c b hl ho
  rcases List.eq_nil_or_concat b with rfl | ⟨b', x, rfl⟩
  · obtain ⟨_, h4⟩ := List.append_inj' hl rfl
    injection h4 with h4 _
    cases h4
  · rw [show a ++ Ev.forks c :: (b'.concat x) = (a ++ Ev.forks c :: b') ++ [x] by simp] at hl
    obtain ⟨h4, _⟩ := List.append_inj' hl rfl
    exact absurd ho (h a c b' h4)

/-- An rsync, and then another one. -/
example : (Family.run ⟨[], []⟩ [.opens 0, .forks 0, .closes 0, .ends 0]).released 0 = true ∧
    (Family.run ⟨[], []⟩ [.opens 0, .forks 0, .closes 0, .opens 1, .forks 1, .closes 1, .ends 0]).released 0 = true := by decide

/-- **C158 (refuted).** The first rsync has ended, but that can't be seen until the second one, which another thread forked at the same time, has ended too; and a router whose
connection was closed doesn't notice until the rsyncs that were running have ended. -/
theorem C158_refuted :
    (Family.run ⟨[], []⟩ [.opens 0, .opens 1, .forks 0, .forks 1, .closes 0, .closes 1, .ends 0]).released 0 = false ∧
    (Family.run ⟨[], []⟩ [.opens 7, .opens 0, .forks 0, .closes 0, .closes 7]).released 7 = false := by decide

/-! ### C159 -/

/-- Others (or the group) may write. -/
def othersWrite : Mode := 0o022

theorem created_and (a m : Mode) (h : m &&& othersWrite = othersWrite) : created a m &&& othersWrite = 0 := by
  unfold created
  rw [← h]
  ext i hi
  simp
  intros
  simp_all

/-- **C159 (partial).** Unless the program made itself a daemon, what it creates (files and directories) has the permissions that its user's mask allows; in particular, if the mask says that
others can't write, they can't modify the cache nor the output. -/
theorem C159_partial (daemon : Bool) (parent : Nat) (mask : Mode) (h : daemon = false ∨ parent = 1) :
    maskOf daemon parent mask = mask ∧
    (mask &&& othersWrite = othersWrite → created fileMode (maskOf daemon parent mask) &&& othersWrite = 0 ∧ created dirMode (maskOf daemon parent mask) &&& othersWrite = 0) := by
  have hm : maskOf daemon parent mask = mask := by
    rcases h with h | h <;> simp [maskOf, h]
  rw [hm]
  exact ⟨rfl, fun hw => ⟨created_and _ _ hw, created_and _ _ hw⟩⟩

example : (0o022 : Mode) &&& othersWrite = othersWrite ∧ created fileMode 0o022 = 0o644 ∧ created dirMode 0o027 = 0o750 := by decide

/-- **C159 (refuted).** A daemon's cache and output can be written by anyone, whatever the mask was. -/
theorem C159_refuted (parent : Nat) (mask : Mode) (h : parent ≠ 1) : created fileMode (maskOf true parent mask) = 0o666 ∧ created dirMode (maskOf true parent mask) = 0o777 := by
  simp [maskOf, h, created, fileMode, dirMode]

/-! ### C160 -/

/-- What's initialized, in order. -/
def parts : List Part := [.log, .thvar, .incidence, .config, .nid, .extension, .http, .relaxNg, .vrps]

/-- What has something to be undone. -/
def undoable (p : Part) : Bool := p = .log || p = .config || p = .nid || p = .http || p = .relaxNg || p = .vrps

/-- The parts that were initialized. -/
def started (result : Part → BitVec 32) : List Part := parts.takeWhile fun p => result p = 0

/-- **C160.** Whatever fails: parts are initialized in order until one fails; the work is done if and only if none does; what was initialized is undone, each part once, in
reverse order; and the exit status is that of the failure, or of the work. -/
theorem C160 (result : Part → BitVec 32) (work : BitVec 32) :
    main result work = (
      (started result).map .init ++
        (match parts[(started result).length]? with
          | none => [.work]
          | some p => [.init p]) ++
        ((started result).filter undoable).reverse.map .undo,
      Conf.convertToResult (match parts[(started result).length]? with | none => work | some p => result p)) := by
  by_cases h1 : ¬ result .log = 0#32
  · simp [main, initAll, inits, started, parts, h1, ending, Label.skips]
  have h1 := Decidable.not_not.mp h1
  by_cases h2 : ¬ result .thvar = 0#32
  · simp [main, initAll, inits, started, parts, h1, h2, ending, Label.skips, undoable]
  have h2 := Decidable.not_not.mp h2
  by_cases h3 : ¬ result .incidence = 0#32
  · simp [main, initAll, inits, started, parts, h1, h2, h3, ending, Label.skips, undoable]
  have h3 := Decidable.not_not.mp h3
  by_cases h4 : ¬ result .config = 0#32
  · simp [main, initAll, inits, started, parts, h1, h2, h3, h4, ending, Label.skips, undoable]
  have h4 := Decidable.not_not.mp h4
  by_cases h5 : ¬ result .nid = 0#32
  · simp [main, initAll, inits, started, parts, h1, h2, h3, h4, h5, ending, Label.skips, undoable]
  have h5 := Decidable.not_not.mp h5
  by_cases h6 : ¬ result .extension = 0#32
  · simp [main, initAll, inits, started, parts, h1, h2, h3, h4, h5, h6, ending, Label.skips, undoable]
  have h6 := Decidable.not_not.mp h6
  by_cases h7 : ¬ result .http = 0#32
  · simp [main, initAll, inits, started, parts, h1, h2, h3, h4, h5, h6, h7, ending, Label.skips, undoable]
  have h7 := Decidable.not_not.mp h7
  by_cases h8 : ¬ result .relaxNg = 0#32
  · simp [main, initAll, inits, started, parts, h1, h2, h3, h4, h5, h6, h7, h8, ending, Label.skips, undoable]
  have h8 := Decidable.not_not.mp h8
  by_cases h9 : ¬ result .vrps = 0#32
  · simp [main, initAll, inits, started, parts, h1, h2, h3, h4, h5, h6, h7, h8, h9, ending, Label.skips, undoable]
  have h9 := Decidable.not_not.mp h9
  simp [main, initAll, inits, started, parts, h1, h2, h3, h4, h5, h6, h7, h8, h9, ending, Label.skips, undoable]

/-- `http_init` fails. -/
example : main (fun p => if p = .http then -22 else 0) 0 =
    ([.init .log, .init .thvar, .init .incidence, .init .config, .init .nid, .init .extension, .init .http, .undo .nid, .undo .config, .undo .log], 22) := by decide

/-! ### C161 -/

/-- Whether there are threads that serve routers after this. -/
def running (l : List Life) : Bool :=
  l.foldl (fun r e => match e with | .startThreads => true | .stopThreads => false | .destroyDb => r) false

/-- The database is only destroyed when nobody uses it. -/
def Safe (l : List Life) : Prop := ∀ a b, l = a ++ .destroyDb :: b → running a = false

theorem serverLoop_stops (es : List (BitVec 32)) (l : List Life) (e : BitVec 32) (h : serverLoop es = some (l, e)) : l = [.stopThreads] ∧ e = -4 := by
  induction es with
  | nil => cases h
  | cons x es ih =>
    simp only [serverLoop] at h
    by_cases hx : x = -4
    · rw [if_pos hx] at h; injection h with h; injection h with h1 h2; exact ⟨h1.symm, by rw [← h2, hx]⟩
    · rw [if_neg hx] at h; exact ih h

/-- **C161 (partial).** If the first validation succeeds, or the server can't be started, then whatever happens afterwards, the database is destroyed only once the threads that serve routers
have been stopped. -/
theorem C161_partial (start : BitVec 32) (first : BitVec 32) (updates : List (BitVec 32)) (h : start ≠ 0 ∨ first = 0) (l : List Life)
    (hl : serverMain start (first :: updates) = some l) : Safe l ∧ .destroyDb ∈ l := by
  unfold serverMain fortServer at hl
  have safe1 : Safe [.destroyDb] := by
    intro a b hab
    match a, hab with
    | [], _ => rfl
    | x :: a, hab => simp at hab
  have safe3 : Safe [.startThreads, .stopThreads, .destroyDb] := by
    intro a b hab
    match a, hab with
    | [], hab => simp at hab
    | [_], hab => simp at hab
    | [x, y], hab =>
      simp only [List.cons_append, List.nil_append, List.cons.injEq] at hab
      rw [← hab.1, ← hab.2.1]
      rfl
    | x :: y :: z :: a, hab => simp at hab
  by_cases hs : start ≠ 0
  · rw [if_pos hs] at hl
    injection hl with hl
    rw [← hl]
    exact ⟨safe1, by simp⟩
  · rw [if_neg hs] at hl
    have hf : first = 0 := by
      rcases h with h | h
      · exact absurd h hs
      · exact h
    simp only [hf, ne_eq, not_true_eq_false, if_false] at hl
    cases hx : serverLoop updates with
    | none => rw [hx] at hl; cases hl
    | some r =>
      obtain ⟨l', e⟩ := r
      rw [hx] at hl
      obtain ⟨rfl, _⟩ := serverLoop_stops _ _ _ hx
      injection hl with hl
      rw [← hl]
      exact ⟨safe3, by simp⟩

/-- A server that's interrupted after two validations. -/
example : serverMain 0 [0, 5, -4] = some [.startThreads, .stopThreads, .destroyDb] := by decide

/-- **C161 (refuted).** If the first validation fails, the database is destroyed (its lock, its tables) while threads are serving routers. -/
theorem C161_refuted : ∃ e l, e ≠ 0 ∧ serverMain 0 [e] = some l ∧ ¬ Safe l :=
  ⟨-22, [.startThreads, .destroyDb], by decide, by decide, fun h => absurd (h [.startThreads] [] rfl) (by decide)⟩

/-! ### C162 -/

/-- **C162 (partial).** If libcrypto knows all the identifiers, or lets them be registered, each variable is the number of its identifier. -/
theorem C162_partial (txt2nid create : Nat → BitVec 32) (h : ∀ o ∈ oids, txt2nid o ≠ 0 ∨ create o ≠ 0) :
    nidInit txt2nid create oids = (oids.map fun o => if txt2nid o = 0 then create o else txt2nid o, 0) := by
  have key : ∀ l : List Nat, (∀ o ∈ l, txt2nid o ≠ 0 ∨ create o ≠ 0) → nidInit txt2nid create l = (l.map fun o => if txt2nid o = 0 then create o else txt2nid o, 0) := by
    intro l
    induction l with
    | nil => intro _; rfl
    | cons o l ih =>
      intro h
      have ho := h o (by simp)
      have hr : registerOid (txt2nid o) (create o) = if txt2nid o = 0 then create o else txt2nid o := by
        unfold registerOid
        by_cases h1 : txt2nid o = 0
        · rw [if_pos h1, if_pos h1, if_neg]
          rcases ho with ho | ho
          · exact absurd h1 ho
          · exact ho
        · rw [if_neg h1, if_neg h1]
      have hn : ¬ registerOid (txt2nid o) (create o) = 0 := by
        rw [hr]
        by_cases h1 : txt2nid o = 0
        · rw [if_pos h1]
          rcases ho with ho | ho
          · exact absurd h1 ho
          · exact ho
        · rw [if_neg h1]; exact h1
      simp only [nidInit]
      rw [if_neg hn, ih (fun x hx => h x (by simp [hx])), hr]
      rfl
  exact key oids h

example : nidInit (fun o => if o < 5 then 100 + BitVec.ofNat 32 o else 0) (fun o => 1000 + BitVec.ofNat 32 o) oids =
    ([100, 101, 102, 103, 104, 1005, 1006, 1007, 1008, 1009, 1010], 0) := by decide

/-- **C162 (refuted).** It's never noticed that an identifier couldn't be registered: whatever libcrypto answers, the initialization succeeds, and its variable is -22, as are those of all others that couldn't. -/
theorem C162_refuted (txt2nid create : Nat → BitVec 32) : (nidInit txt2nid create oids).2 = 0 ∧
    ∀ o, txt2nid o = 0 → create o = 0 → registerOid (txt2nid o) (create o) = -22 := by
  have key : ∀ l : List Nat, (nidInit txt2nid create l).2 = 0 := by
    intro l
    induction l with
    | nil => rfl
    | cons o l ih =>
      have hn : ¬ registerOid (txt2nid o) (create o) = 0 := by
        unfold registerOid
        by_cases h1 : txt2nid o = 0
        · rw [if_pos h1]
          by_cases h2 : create o = 0
          · rw [if_pos h2]; decide
          · rw [if_neg h2]; exact h2
        · rw [if_neg h1]; exact h1
      simp only [nidInit]
      rw [if_neg hn]
      exact ih
  exact ⟨key oids, fun o h1 h2 => by simp [registerOid, h1, h2]⟩

/-! ### C163 -/

open Verif.Net in
/-- The errors of an attempt. -/
theorem attempt_range (max : Nat) (a : Answer) : attemptError max a = 0 ∨ attemptError max a = -22 ∨ attemptError max a = -27 ∨ attemptError max a = 11 := by
  have hr : ∀ c, responseCode c = 11 ∨ responseCode c = -22 := by
    intro c
    unfold responseCode
    by_cases h1 : c = 408 ∨ c = 429
    · rw [if_pos h1]; exact .inl rfl
    · rw [if_neg h1]
      by_cases h2 : 500 ≤ c ∧ c < 600
      · rw [if_pos h2]; exact .inl rfl
      · rw [if_neg h2]; exact .inr rfl
  have hf : (fetchResult max a).1 = 0 ∨ (fetchResult max a).1 = -22 ∨ (fetchResult max a).1 = -27 ∨ (fetchResult max a).1 = 11 := by
    unfold fetchResult
    dsimp only
    by_cases h1 : (transfer max a.chunks ⟨0, 0, none⟩).1.error = -eFBIG
    · rw [if_pos h1]; exact .inr (.inr (.inl rfl))
    · rw [if_neg h1]
      by_cases h2 : a.infoOk = false
      · rw [if_pos h2]; exact .inr (.inl rfl)
      · rw [if_neg h2]
        generalize (if (transfer max a.chunks ⟨0, 0, none⟩).2 = true then a.res else Curl.other) = res
        cases res with
        | ok =>
          dsimp only
          by_cases h3 : a.code ≥ 400 ∨ a.code = 204
          · rw [if_pos h3]; rcases hr a.code with h | h <;> simp [h]
          · rw [if_neg h3]
            by_cases h4 : a.code = 304
            · rw [if_pos h4]; exact .inl rfl
            · rw [if_neg h4]; exact .inl rfl
        | filesizeExceeded => exact .inr (.inr (.inl rfl))
        | timedOut => exact .inr (.inr (.inr rfl))
        | resolveHost => exact .inr (.inr (.inr rfl))
        | resolveProxy => exact .inr (.inr (.inr rfl))
        | ftpAcceptTimeout => exact .inr (.inr (.inr rfl))
        | tooManyRedirects => exact .inr (.inl rfl)
        | other => rcases hr a.code with h | h <;> simp [h]
  unfold attemptError httpFetch
  by_cases h0 : a.initOk = false
  · rw [if_pos h0]; exact .inr (.inl rfl)
  · rw [if_neg h0]
    dsimp only
    by_cases h1 : (fetchResult max a).1 ≠ 0
    · rw [if_pos h1]; exact hf
    · rw [if_neg h1]; exact .inl rfl

open Verif.Net in
theorem fetched {max : Nat} {a : Answer} (h : attemptError max a = 0) (hne : ∀ c ∈ a.chunks, c.data ≠ []) (old : Option (List (BitVec 8))) :
    (httpFetch max a old false).dst = if a.chunks = [] then old else some (a.body.take a.flushed) := by
  have h' : (httpFetch max a old false).error = 0 := by rw [fetch_error max a old none false false]; exact h
  obtain ⟨_, _, _, _, _, g6, g7⟩ := fetch_ok h'
  rw [g7]
  unfold afterTransfer
  rw [transfer_written_first max _ g6 hne]
  by_cases hc : a.chunks = []
  · rw [if_pos hc, if_pos hc]
  · rw [if_neg hc, if_neg hc]; rfl

/-- **C163 (partial).** When TALs are downloaded, they are in order until one fails. Those before it are what the servers sent (as much of it as was flushed), those after it are as they were.
The exit status is 0 if and only if none failed. What's missing: the one that fails is removed. -/
theorem C163_partial (max : Nat) (answer : Nat → Net.Answer) (files : List (Nat × Option (List (BitVec 8)))) (hne : ∀ n, ∀ c ∈ (answer n).chunks, c.data ≠ []) :
    let r := fetchAll max answer files
    ∃ k ≤ files.length,
      (∀ i n old, i < k → files[i]? = some (n, old) → Net.attemptError max (answer n) = 0 ∧
        r.2[i]? = some (n, if (answer n).chunks = [] then old else some ((answer n).body.take (answer n).flushed))) ∧
      (∀ n old, files[k]? = some (n, old) → Net.attemptError max (answer n) ≠ 0 ∧ r.1 = Net.attemptError max (answer n) ∧
        (r.2[k]? = some (n, none) ∨ ((answer n).initOk = false ∧ r.2[k]? = some (n, old)))) ∧
      (∀ i, k < i → r.2[i]? = files[i]?) ∧
      (exitStatus r.1 = 0 ↔ k = files.length) := by
  intro r
  induction files with
  | nil => exact ⟨0, Nat.le_refl _, (fun i n old h => by omega), (fun n old h => by cases h), (fun i _ => rfl), (by simp [r, fetchAll, exitStatus])⟩
  | cons x files ih =>
    obtain ⟨n, old⟩ := x
    have herr : (Net.httpFetch max (answer n) old false).error = Net.attemptError max (answer n) := Net.fetch_error _ _ _ _ _ _
    by_cases he : Net.attemptError max (answer n) ≠ 0
    · have hr : r = (Net.attemptError max (answer n), (n, (Net.httpFetch max (answer n) old false).dst) :: files) := by
        simp only [r, fetchAll]
        rw [if_pos (by rw [herr]; exact he), herr]
      rw [hr]
      refine ⟨0, by simp, (fun i n old h => by omega), ?_, ?_, ?_⟩
      · intro n' old' h'
        simp only [List.getElem?_cons_zero, Option.some.injEq, Prod.mk.injEq] at h'
        obtain ⟨rfl, rfl⟩ := h'
        refine ⟨he, rfl, ?_⟩
        rcases (Net.fetch_fail (max := max) (a := answer n) (dst := old) (changed := false) (by rw [herr]; exact he)).2 with h | ⟨h1, h⟩
        · left; simp [h]
        · right; exact ⟨h1, by simp [h]⟩
      · intro i hi
        match i, hi with
        | i + 1, _ => simp
      · simp only [List.length_cons]
        constructor
        · intro h
          exfalso
          rcases attempt_range max (answer n) with e | e | e | e
          · exact he e
          · rw [e] at h; revert h; decide
          · rw [e] at h; revert h; decide
          · rw [e] at h; revert h; decide
        · intro h; omega
    · have he : Net.attemptError max (answer n) = 0 := Decidable.not_not.mp he
      have hr : r = ((fetchAll max answer files).1, (n, (Net.httpFetch max (answer n) old false).dst) :: (fetchAll max answer files).2) := by
        simp only [r, fetchAll]
        rw [if_neg (by rw [herr, he]; simp)]
      obtain ⟨k, h0, h1, h2, h3, h4⟩ := ih
      rw [hr]
      refine ⟨k + 1, by simp; omega, ?_, ?_, ?_, ?_⟩
      · intro i n' old' hi hf
        cases i with
        | zero =>
          simp only [List.getElem?_cons_zero, Option.some.injEq, Prod.mk.injEq] at hf
          obtain ⟨rfl, rfl⟩ := hf
          exact ⟨he, by simp [fetched he (hne n)]⟩
        | succ i => exact h1 i n' old' (by omega) (by simpa using hf)
      · intro n' old' hf
        exact h2 n' old' (by simpa using hf)
      · intro i hi
        match i, hi with
        | i + 1, hi => exact h3 i (by omega)
      · rw [h4]; simp

/-- Two TALs are downloaded. -/
example : fetchAll 100 (fun n => ⟨true, [⟨[BitVec.ofNat 8 n], 0, 10⟩], .ok, true, 200, 10⟩) [(1, none), (2, some [7#8])] = (0, [(1, some [1#8]), (2, some [2#8])]) := by decide

/-- **C163 (refuted).** If a server doesn't answer, the TAL that was there is removed. -/
theorem C163_refuted : ∃ a : Net.Answer, a.chunks = [] ∧ a.res = .timedOut ∧ fetchAll 100 (fun _ => a) [(1, some [7#8])] = (11, [(1, none)]) :=
  ⟨⟨true, [], .timedOut, true, 0, 0⟩, rfl, rfl, by decide⟩

end Verif.Boot
