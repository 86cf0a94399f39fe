import Verif.Boot.Model
import Verif.Log.Props
/-
C155: what's logged reaches the system's log, and nothing else. C156: the configuration of the logs is in force.
-/
namespace Verif.Boot
open Verif.Log (Text LOG_WARNING LOG_INFO LOG_DEBUG LOG_DAEMON)

theorem get_nil (fd : Nat) : Table.get [] fd = none := by simp [Table.get]

theorem alloc_get (t : Table) (o : Obj) : (t.alloc o).2.get (t.alloc o).1 = some o := by
  induction t with
  | nil => simp [Table.alloc, Table.get]
  | cons x t ih =>
    cases x with
    | none => simp [Table.alloc, Table.get]
    | some x => simpa [Table.alloc, Table.get] using ih

theorem alloc_free (t : Table) (o : Obj) : t.get (t.alloc o).1 = none := by
  induction t with
  | nil => simp [Table.alloc, Table.get]
  | cons x t ih =>
    cases x with
    | none => simp [Table.alloc, Table.get]
    | some x => simpa [Table.alloc, Table.get] using ih

theorem alloc_other (t : Table) (o : Obj) (fd : Nat) (h : fd ≠ (t.alloc o).1) : (t.alloc o).2.get fd = t.get fd := by
  induction t generalizing fd with
  | nil =>
    cases fd with
    | zero => simp [Table.alloc] at h
    | succ n => simp [Table.alloc, Table.get]
  | cons x t ih =>
    cases x with
    | none =>
      cases fd with
      | zero => simp [Table.alloc] at h
      | succ n => simp [Table.alloc, Table.get]
    | some x =>
      cases fd with
      | zero => simp [Table.alloc, Table.get]
      | succ n =>
        have := ih n (by simp [Table.alloc] at h; exact h)
        simpa [Table.alloc, Table.get] using this

theorem alloc_keeps (t : Table) (o x : Obj) (fd : Nat) (h : t.get fd = some x) : (t.alloc o).2.get fd = some x := by
  rw [alloc_other, h]
  intro e
  rw [e, alloc_free] at h
  cases h

theorem close_get (t : Table) (a b : Nat) : (t.close a).get b = if a = b then none else t.get b := by
  simp only [Table.close, Table.get, List.getElem?_set]
  by_cases h : a = b
  · subst h
    by_cases hl : a < t.length <;> simp [hl]
  · simp [h]

theorem closeUpTo_get (t : Table) (max : Option Nat) (fd : Nat) : (closeUpTo t max).get fd = none ∨ (closeUpTo t max).get fd = t.get fd := by
  cases max with
  | none => exact .inr rfl
  | some m =>
    unfold closeUpTo Table.get
    by_cases hf : fd < min (m + 1) t.length
    · left
      rw [List.getElem?_append_left (by simpa using hf)]
      simp [hf]
    · by_cases hm : m + 1 ≤ t.length
      · right
        have hle : m + 1 ≤ fd := by omega
        rw [List.getElem?_append_right (by simp; omega)]
        simp [List.getElem?_drop]
        congr 1
        congr 1
        omega
      · left
        have hnil : t.drop (m + 1) = [] := List.drop_eq_nil_of_le (by omega)
        show ((List.replicate (min (m + 1) t.length) none ++ t.drop (m + 1) : Table)[fd]?).join = none
        rw [hnil, List.append_nil, List.getElem?_eq_none (by simp; omega)]
        rfl

/-! ### The connection -/

/-- `syslog` either has no descriptor or has its own. -/
def Sound (p : Proc) : Prop := ∀ fd, p.logFd = some fd → p.table.get fd = some .log

/-- What reaches the outputs because of one message or none. -/
def Adds (p q : Proc) (l : List Text) : Prop := q.logged = p.logged ++ l ∧ q.sent = p.sent ∧ q.robbed = p.robbed

theorem syslog_sound {p : Proc} (h : Sound p) (m : Text) : Sound (p.syslog m) ∧ Adds p (p.syslog m) [m] := by
  unfold Proc.syslog
  cases hf : p.logFd with
  | none =>
    refine ⟨?_, rfl, rfl, rfl⟩
    intro fd hfd
    simp only [Proc.reconnect, Option.some.injEq] at hfd
    subst hfd
    exact alloc_get _ _
  | some fd =>
    have := h fd hf
    dsimp only
    rw [this]
    refine ⟨?_, rfl, rfl, rfl⟩
    intro fd' hfd'
    cases hfd'
    exact this

/-- If the descriptor is closed, the next message repairs it. -/
theorem syslog_repairs {p : Proc} (h : ∀ fd, p.logFd = some fd → p.table.get fd = some .log ∨ p.table.get fd = none) (m : Text) :
    Sound (p.syslog m) ∧ Adds p (p.syslog m) [m] := by
  by_cases hs : Sound p
  · exact syslog_sound hs m
  · unfold Proc.syslog
    cases hf : p.logFd with
    | none => exact absurd (fun fd h' => by rw [hf] at h'; cases h') hs
    | some fd =>
      rcases h fd hf with h1 | h1
      · exact absurd (fun fd' h' => by rw [hf] at h'; cases h'; exact h1) hs
      · dsimp only
        rw [h1]
        refine ⟨?_, rfl, rfl, rfl⟩
        intro fd' hfd'
        simp only [Proc.reconnect, Option.some.injEq] at hfd'
        subst hfd'
        exact alloc_get _ _

/-- The messages that are for the system's log. -/
def wanted (s : Log.State) (ops : List Op) : List Text :=
  ops.filterMap fun o => match o with
    | .logs v level m => if toSyslog s v level then some m else none
    | _ => none

theorem step_sound {p : Proc} (h : Sound p) (s : Log.State) (o : Op) : Sound (p.step s o) ∧ Adds p (p.step s o) (wanted s [o]) := by
  cases o with
  | opens o =>
    refine ⟨?_, by simp [Proc.step, wanted], rfl, rfl⟩
    intro fd hfd
    exact alloc_keeps _ _ _ _ (h fd hfd)
  | closes fd =>
    simp only [Proc.step]
    by_cases hl : p.table.get fd = some .log
    · rw [if_pos hl]; exact ⟨h, by simp [wanted], rfl, rfl⟩
    · rw [if_neg hl]
      refine ⟨?_, by simp [wanted], rfl, rfl⟩
      intro fd' hfd'
      have := h fd' hfd'
      show (p.table.close fd).get fd' = _
      rw [close_get, if_neg (by rintro rfl; exact hl this), this]
  | logs v level m =>
    simp only [Proc.step]
    cases ht : toSyslog s v level with
    | false => simp [wanted, ht]; exact ⟨h, by simp, rfl, rfl⟩
    | true => simp [wanted, ht]; exact syslog_sound h m

theorem wanted_cons (s : Log.State) (o : Op) (ops : List Op) : wanted s (o :: ops) = wanted s [o] ++ wanted s ops := by
  rw [show o :: ops = [o] ++ ops from rfl]
  simp only [wanted, List.filterMap_append]

theorem run_sound {p : Proc} (h : Sound p) (s : Log.State) (ops : List Op) : Sound (p.run s ops) ∧ Adds p (p.run s ops) (wanted s ops) := by
  induction ops generalizing p with
  | nil => exact ⟨h, by simp [Proc.run, wanted], rfl, rfl⟩
  | cons o ops ih =>
    obtain ⟨h1, a1, a2, a3⟩ := step_sound h s o
    obtain ⟨h2, b1, b2, b3⟩ := ih h1
    refine ⟨h2, ?_, by rw [← a2]; exact b2, by rw [← a3]; exact b3⟩
    rw [wanted_cons, ← List.append_assoc, ← a1]
    exact b1

theorem closelog_sound {p : Proc} : Sound p.closelog ∧ Adds p p.closelog [] := by
  unfold Proc.closelog
  cases hf : p.logFd with
  | none => exact ⟨(fun fd h => by rw [hf] at h; cases h), (by simp), rfl, rfl⟩
  | some fd => exact ⟨(fun fd h => by cases h), by simp, rfl, rfl⟩

/-- **C155 (partial).** Unless it's a daemon that logs nothing before it opens other descriptors (it always does if its log is enabled and of a level of INFO or more: it
prints its configuration), every message that's for the system's log arrives there, once and in order, nothing of it is sent anywhere else, and the log never closes what isn't its,
whatever is opened, closed and logged, in whichever order. -/
theorem C155_partial (daemon : Bool) (parent : Nat) (max : Option Nat) (op val : Log.Conf) (info : List Text) (t : Table) (ops : List Op)
    (h : daemon = false ∨ parent = 1 ∨ (op.enabled = true ∧ LOG_INFO ≤ op.level ∧ op.level < 256 ∧ info ≠ [])) :
    let r := startUp daemon parent max op val info ⟨t, none, [], [], []⟩
    let q := r.2.run r.1 ops
    q.logged = (if daemon then [daemonWarning] else []) ++ wanted r.1 (info.map (Op.logs false LOG_INFO)) ++ wanted r.1 ops ∧ q.sent = [] ∧ q.robbed = [] := by
  have h0 : Sound ⟨t, none, [], [], []⟩ := fun fd h => by cases h
  have fin : ∀ (s : Log.State) (p : Proc), Sound p → p.sent = [] → p.robbed = [] →
      ((p.run s (info.map (Op.logs false LOG_INFO))).run s ops).logged = p.logged ++ wanted s (info.map (Op.logs false LOG_INFO)) ++ wanted s ops ∧
      ((p.run s (info.map (Op.logs false LOG_INFO))).run s ops).sent = [] ∧ ((p.run s (info.map (Op.logs false LOG_INFO))).run s ops).robbed = [] := by
    intro s p hp hs hr
    obtain ⟨h1, a1, a2, a3⟩ := run_sound hp s (info.map (Op.logs false LOG_INFO))
    obtain ⟨_, b1, b2, b3⟩ := run_sound h1 s ops
    exact ⟨by rw [b1, a1], by rw [b2, a2, hs], by rw [b3, a3, hr]⟩
  intro r q
  cases daemon with
  | false =>
    show ((Proc.run _ _ _).run _ ops).logged = _ ∧ _
    have hcl : ∀ c : Prop, ∀ _ : Decidable c, Sound (if c then Proc.closelog ⟨t, none, [], [], []⟩ else ⟨t, none, [], [], []⟩) := by
      intro c _
      by_cases hc : c
      · rw [if_pos hc]; exact closelog_sound.1
      · rw [if_neg hc]; exact h0
    have hid : ∀ c : Prop, ∀ _ : Decidable c, (if c then Proc.closelog ⟨t, none, [], [], []⟩ else ⟨t, none, [], [], []⟩) = (⟨t, none, [], [], []⟩ : Proc) := by
      intro c _
      by_cases hc : c
      · rw [if_pos hc]; rfl
      · rw [if_neg hc]
    have := fin (Log.logStart op val (Log.logSetup false)) ⟨t, none, [], [], []⟩ h0 rfl rfl
    simpa [q, r, startUp, hid] using this
  | true =>
    -- the warning
    have hw : toSyslog (Log.logSetup false) false LOG_WARNING = true := by decide
    obtain ⟨w1, w2, w3, w4⟩ := syslog_sound h0 daemonWarning
    have hstep : Proc.step (Log.logSetup false) ⟨t, none, [], [], []⟩ (.logs false LOG_WARNING daemonWarning) = Proc.syslog ⟨t, none, [], [], []⟩ daemonWarning := by
      simp [Proc.step, hw]
    generalize Proc.syslog ⟨t, none, [], [], []⟩ daemonWarning = p at w1 w2 w3 w4 hstep
    dsimp only at w2 w3 w4
    by_cases hp : parent = 1
    · have := fin (Log.logSetup false) p w1 w3 w4
      rw [w2] at this
      simpa [q, r, startUp, daemonize, hp, hstep] using this
    · obtain ⟨he, hl, hl2, hi⟩ : op.enabled = true ∧ LOG_INFO ≤ op.level ∧ op.level < 256 ∧ info ≠ [] := by
        rcases h with h | h | h
        · cases h
        · exact absurd h hp
        · exact h
      generalize hs : Log.logStart { op with output := .syslog } { val with output := .syslog } (Log.logSetup false) = s
      have hwant : toSyslog s false LOG_INFO = true := by
        have h1 := (Log.start_flags { op with output := .syslog } { val with output := .syslog }).1
        have h2 := (Log.start_rest { op with output := .syslog } { val with output := .syslog }).1
        rw [hs] at h1 h2
        have hlv : s.op.level = op.level := by
          rw [h2]
          show op.level % 256 = op.level
          exact Nat.mod_eq_of_lt hl2
        unfold toSyslog
        simp only [Bool.false_eq_true, if_false]
        rw [hlv, h1]
        simp [he, hl]
      have hnc : s.closes = 0 := by
        have h3 : s.closes = (Log.startOp { op with output := .syslog } (Log.startVal { val with output := .syslog } (Log.logSetup false))).closes := by rw [← hs]; rfl
        rw [h3]
        cases hv : val.enabled <;> simp [Log.startOp, Log.startVal, he, hv, Log.logSetup]
      have hr : r = (s, ({ p with table := closeUpTo p.table max } : Proc).run s (info.map (Op.logs false LOG_INFO))) := by
        show startUp true parent max op val info _ = _
        simp only [startUp, if_true, hstep, daemonize, if_neg hp, hs]
        have : ¬ (s.closes > (Log.logSetup false).closes) := by rw [hnc]; decide
        rw [if_neg this]
      cases hinfo : info with
      | nil => exact absurd hinfo hi
      | cons m ms =>
        have hrep := @syslog_repairs { p with table := closeUpTo p.table max } (by
          intro fd hfd
          rcases closeUpTo_get p.table max fd with h5 | h5
          · exact .inr h5
          · left
            show (closeUpTo p.table max).get fd = _
            rw [h5]
            exact w1 fd hfd) m
        obtain ⟨k1, k2, k3, k4⟩ := hrep
        have hrun : ({ p with table := closeUpTo p.table max } : Proc).run s (info.map (Op.logs false LOG_INFO)) =
            (({ p with table := closeUpTo p.table max } : Proc).syslog m).run s (ms.map (Op.logs false LOG_INFO)) := by
          rw [hinfo]
          simp [Proc.run, Proc.step, hwant]
        obtain ⟨l1, l2, l3, l4⟩ := run_sound k1 s (ms.map (Op.logs false LOG_INFO))
        obtain ⟨_, n2, n3, n4⟩ := run_sound l1 s ops
        have hq : q = ((({ p with table := closeUpTo p.table max } : Proc).syslog m).run s (ms.map (Op.logs false LOG_INFO))).run s ops := by
          show r.2.run r.1 ops = _
          rw [hr, hrun]
        have hr1 : r.1 = s := by rw [hr]
        rw [hq, hr1]
        refine ⟨?_, by rw [n3, l3, k3]; exact w3, by rw [n4, l4, k4]; exact w4⟩
        rw [n2, l2, k2]
        show p.logged ++ [m] ++ _ ++ _ = _
        rw [w2, List.map_cons, wanted_cons]
        have : wanted s [Op.logs false LOG_INFO m] = [m] := by simp [wanted, hwant]
        rw [this]
        simp

/-- A daemon in an ordinary configuration. -/
example : ∃ (op val : Log.Conf) (ops : List Op), op.enabled = true ∧ LOG_INFO ≤ op.level ∧ op.level < 256 ∧
    let r := startUp true 100 (some 1023) op val [Log.lit "FORT"] ⟨[some (.other 0), some (.other 1), some (.other 2)], none, [], [], []⟩
    (r.2.run r.1 ops).logged = [daemonWarning, Log.lit "FORT", Log.lit "x"] ∧ (r.2.run r.1 ops).table = [some .log, some (.other 5), some (.stream 0), none] :=
  ⟨⟨true, .console, LOG_INFO, none, false, LOG_DAEMON⟩, ⟨false, .console, LOG_WARNING, none, false, LOG_DAEMON⟩,
    [.opens (.other 4), .opens (.stream 0), .closes 1, .opens (.other 5), .logs false LOG_WARNING (Log.lit "x"), .logs true LOG_WARNING (Log.lit "y")],
    rfl, by decide, by decide, by decide +kernel, by decide +kernel⟩

/-- **C155 (refuted).** A daemon whose log has a level below INFO has closed the log's descriptor behind its back, so once that number is used again, the next message is sent to a router, in the
middle of its session; or, if it's something else, that is closed. -/
theorem C155_refuted :
    (∃ (op val : Log.Conf) (ops : List Op), op.enabled = true ∧ op.level = LOG_WARNING ∧
      let r := startUp true 100 (some 1023) op val [Log.lit "FORT"] ⟨[some (.other 0), some (.other 1), some (.other 2)], none, [], [], []⟩
      wanted r.1 ops = [Log.lit "First validation cycle successfully ended"] ∧ (r.2.run r.1 ops).sent = [(3, Log.lit "First validation cycle successfully ended")] ∧
      (r.2.run r.1 ops).logged = [daemonWarning]) ∧
    (∃ (op val : Log.Conf) (ops : List Op), op.enabled = true ∧ op.level = LOG_WARNING ∧
      let r := startUp true 100 (some 1023) op val [Log.lit "FORT"] ⟨[some (.other 0), some (.other 1), some (.other 2)], none, [], [], []⟩
      (r.2.run r.1 ops).robbed = [.other 13] ∧ (r.2.run r.1 ops).table.get 3 = some .log) :=
  ⟨⟨⟨true, .syslog, LOG_WARNING, none, false, LOG_DAEMON⟩, ⟨false, .console, LOG_WARNING, none, false, LOG_DAEMON⟩,
    [.opens (.other 0), .opens (.stream 1), .opens (.stream 2), .opens (.stream 3), .logs false LOG_WARNING (Log.lit "First validation cycle successfully ended")], rfl, rfl,
    by decide +kernel, by decide +kernel, by decide +kernel⟩,
   ⟨⟨true, .syslog, LOG_WARNING, none, false, LOG_DAEMON⟩, ⟨false, .console, LOG_WARNING, none, false, LOG_DAEMON⟩,
    [.opens (.other 10), .opens (.other 11), .opens (.other 12), .opens (.other 13), .logs false LOG_WARNING (Log.lit "x")], rfl, rfl, by decide +kernel, by decide +kernel⟩⟩

/-! ### C156 -/

/-- What the user asked for: daemons log to the system's log. -/
def asked (daemon : Bool) (c : Log.Conf) : Log.Conf := if daemon then { c with output := .syslog } else c

/-- **C156 (partial).** Once the program has started, both logs do what was configured, unless it was to become a daemon and its parent is process 1. -/
theorem C156_partial (daemon : Bool) (parent : Nat) (max : Option Nat) (op val : Log.Conf) (info : List Text) (p : Proc) (h : daemon = false ∨ parent ≠ 1)
    (hop : op.level < 256) (hval : val.level < 256) {level : Nat} {label color : String} {err : Bool} (hl : (level, label, color, err) ∈ Log.levels) (date file : Option Text) (msg : Text) :
    Log.Delivered (asked daemon op) (startUp daemon parent max op val info p).1.op level label color err date file msg ∧
    Log.Delivered (asked daemon val) (startUp daemon parent max op val info p).1.val level label color err date file msg := by
  cases daemon with
  | false => exact Log.C151 op val hop hval hl date file msg
  | true =>
    have hp : parent ≠ 1 := by
      rcases h with h | h
      · cases h
      · exact h
    have hs : (startUp true parent max op val info p).1 = Log.logStart { op with output := .syslog } { val with output := .syslog } (Log.logSetup false) := by
      simp [startUp, daemonize, hp]
    rw [hs]
    exact Log.C151 { op with output := .syslog } { val with output := .syslog } hop hval hl date file msg

/-- **C156 (refuted).** If its parent is process 1 (as that of a service is), a program that's told to be a daemon keeps logging everything, of both logs, to both outputs: here, a debug
message of a log that was disabled. -/
theorem C156_refuted : ∃ (op val : Log.Conf) (p : Proc), val.enabled = false ∧
    (Log.observe (Log.prSimple LOG_DEBUG (startUp true 1 (some 1023) op val [] p).1.val none none (Log.lit "x"))).stdout = Log.lit "DBG: x\n" ∧
    ¬ Log.Delivered (asked true val) (startUp true 1 (some 1023) op val [] p).1.val LOG_DEBUG "DBG" "36" false none none (Log.lit "x") := by
  refine ⟨⟨true, .syslog, LOG_WARNING, none, false, LOG_DAEMON⟩, ⟨false, .syslog, LOG_WARNING, none, false, LOG_DAEMON⟩, ⟨[], none, [], [], []⟩, rfl, by decide +kernel, ?_⟩
  rintro ⟨_, _, h3⟩
  revert h3
  decide +kernel

end Verif.Boot
