import Verif.Log.Props
/-
C154: messages of different threads aren't mixed.
-/
namespace Verif.Log

/-- The system's log after these calls, given what the buffer had. -/
def sysFrom : Text → List Act → List (Nat × Text)
  | _, [] => []
  | b, .write _ _ :: m => sysFrom b m
  | _, .fill t :: m => sysFrom t m
  | b, .syslog p t :: m => (p, t ++ b) :: sysFrom b m

/-- What the buffer has after these calls. -/
def bufFrom : Text → List Act → Text
  | b, [] => b
  | b, .write _ _ :: m => bufFrom b m
  | _, .fill t :: m => bufFrom t m
  | b, .syslog _ _ :: m => bufFrom b m

/-- The buffer isn't printed before it's filled. -/
def fillsFirst : List Act → Bool
  | [] => true
  | .write _ _ :: m => fillsFirst m
  | .fill _ :: _ => true
  | .syslog _ _ :: _ => false

theorem foldl_sys (m : List Act) (w : World) : (m.foldl World.act w).sys = w.sys ++ sysFrom w.buf m := by
  induction m generalizing w with
  | nil => simp [sysFrom]
  | cons a m ih =>
    rw [List.foldl_cons, ih]
    cases a with
    | write s t => cases s <;> simp [World.act, sysFrom]
    | fill t => simp [World.act, sysFrom]
    | syslog p t => simp [World.act, sysFrom]

theorem onSys_eq (m : List Act) : onSys m = sysFrom [] m := by
  simp [onSys, observe, foldl_sys, World.start]

theorem sysFrom_fills {m : List Act} (h : fillsFirst m = true) (b b' : Text) : sysFrom b m = sysFrom b' m := by
  induction m with
  | nil => rfl
  | cons a m ih =>
    cases a with
    | write s t => exact ih h
    | fill t => rfl
    | syslog p t => simp [fillsFirst] at h

theorem fillsFirst_prefix {l r : List Act} (h : fillsFirst (l ++ r) = true) : fillsFirst l = true := by
  induction l with
  | nil => rfl
  | cons a m ih =>
    cases a with
    | write s t => exact ih h
    | fill t => rfl
    | syslog p t => simp [fillsFirst] at h

theorem sysFrom_snoc (m : List Act) (a : Act) (b : Text) : sysFrom b (m ++ [a]) = sysFrom b m ++ sysFrom (bufFrom b m) [a] := by
  induction m generalizing b with
  | nil => simp [sysFrom, bufFrom]
  | cons x m ih => cases x <;> simp [sysFrom, bufFrom, ih]

theorem bufFrom_snoc (m : List Act) (a : Act) (b : Text) : bufFrom b (m ++ [a]) = bufFrom (bufFrom b m) [a] := by
  induction m generalizing b with
  | nil => rfl
  | cons x m ih => cases x <;> simp [bufFrom, ih]

theorem onStream_snoc (s : Stream) (m : List Act) (a : Act) : onStream s (m ++ [a]) = onStream s m ++ onStream s [a] := by
  simp [onStream]

/-- What the outputs and the threads have to do with each other: `order` are the finished critical sections, `past` is what was done of the current one. -/
structure Inv (prog : Nat → List (List Act)) (w : World) (order : List (Nat × List Act)) (past : List Act) : Prop where
  out : w.stdout = order.flatMap (fun x => onStream .stdout x.2) ++ onStream .stdout past
  err : w.stderr = order.flatMap (fun x => onStream .stderr x.2) ++ onStream .stderr past
  sys : ∃ b, w.sys = order.flatMap (fun x => onSys x.2) ++ sysFrom b past ∧ w.buf = bufFrom b past
  idle : w.owner = none → past = []
  mine : ∀ t, (order.filter (fun x => x.1 = t)).map (·.2) ++ (if w.owner = some t then [past ++ (w.threads t).cur] else []) ++ (w.threads t).next = prog t

theorem inv_start (prog : Nat → List (List Act)) : Inv prog (World.start prog) [] [] :=
  ⟨rfl, rfl, ⟨[], rfl, rfl⟩, fun _ => rfl, fun t => by simp [World.start]⟩

theorem act_threads (w : World) (a : Act) : (w.act a).threads = w.threads ∧ (w.act a).owner = w.owner := by
  cases a with
  | write s t => cases s <;> exact ⟨rfl, rfl⟩
  | fill t => exact ⟨rfl, rfl⟩
  | syslog p t => exact ⟨rfl, rfl⟩

theorem inv_act {prog : Nat → List (List Act)} {w : World} {order : List (Nat × List Act)} {past : List Act} (h : Inv prog w order past) (a : Act) :
    (w.act a).stdout = order.flatMap (fun x => onStream .stdout x.2) ++ onStream .stdout (past ++ [a]) ∧
    (w.act a).stderr = order.flatMap (fun x => onStream .stderr x.2) ++ onStream .stderr (past ++ [a]) ∧
    ∃ b, (w.act a).sys = order.flatMap (fun x => onSys x.2) ++ sysFrom b (past ++ [a]) ∧ (w.act a).buf = bufFrom b (past ++ [a]) := by
  obtain ⟨b, h1, h2⟩ := h.sys
  have ho := h.out
  have he := h.err
  rw [onStream_snoc, onStream_snoc]
  refine ⟨?_, ?_, b, ?_, ?_⟩
  · cases a with
    | write s t => cases s <;> simp [World.act, ho, onStream]
    | fill t => simp [World.act, ho, onStream]
    | syslog p t => simp [World.act, ho, onStream]
  · cases a with
    | write s t => cases s <;> simp [World.act, he, onStream]
    | fill t => simp [World.act, he, onStream]
    | syslog p t => simp [World.act, he, onStream]
  · rw [sysFrom_snoc]
    cases a with
    | write s t => cases s <;> simp [World.act, h1, sysFrom]
    | fill t => simp [World.act, h1, sysFrom]
    | syslog p t => simp [World.act, h1, sysFrom, h2]
  · rw [bufFrom_snoc]
    cases a with
    | write s t => cases s <;> simp [World.act, h2, bufFrom]
    | fill t => simp [World.act, bufFrom]
    | syslog p t => simp [World.act, h2, bufFrom]

theorem inv_step {prog : Nat → List (List Act)} (hp : ∀ t, ∀ m ∈ prog t, fillsFirst m = true) {w : World} {order : List (Nat × List Act)} {past : List Act}
    (h : Inv prog w order past) (t : Nat) : ∃ order' past', Inv prog (w.step t) order' past' := by
  unfold World.step
  by_cases ho : w.owner = some t
  · rw [if_pos ho]
    cases hc : (w.threads t).cur with
    | nil =>
      have hm := h.mine t
      rw [if_pos ho, hc, List.append_nil] at hm
      have hin : past ∈ prog t := by rw [← hm]; simp
      refine ⟨order ++ [(t, past)], [], ?_⟩
      obtain ⟨b, h1, h2⟩ := h.sys
      refine ⟨?_, ?_, ⟨bufFrom b past, ?_, ?_⟩, fun _ => rfl, ?_⟩
      · simp [h.out, onStream]
      · simp [h.err, onStream]
      · simp [h1, onSys_eq, sysFrom, sysFrom_fills (hp t past hin) b []]
      · simp [h2, bufFrom]
      · intro u
        by_cases hu : u = t
        · subst hu
          simp [← hm]
        · have := h.mine u
          rw [ho] at this
          have hne : ¬ (some t = some u) := by simp; omega
          rw [if_neg hne] at this
          have hne2 : ¬ t = u := fun e => hu e.symm
          simp [hne2, ← this]
    | cons a as =>
      obtain ⟨i1, i2, i3⟩ := inv_act h a
      refine ⟨order, past ++ [a], i1, i2, i3, ?_, ?_⟩
      · intro hn
        simp [(act_threads w a).2, ho] at hn
      · intro u
        have hm := h.mine u
        simp only [(act_threads w a).2, (act_threads w a).1]
        by_cases hu : u = t
        · subst hu
          rw [if_pos ho, hc] at hm
          simp [ho, ← hm]
        · have hne : ¬ (w.owner = some u) := by rw [ho]; simp; omega
          rw [if_neg hne] at hm ⊢
          simp [hu, ← hm]
  · rw [if_neg ho]
    by_cases hn : w.owner = none
    · rw [if_pos hn]
      cases hx : (w.threads t).next with
      | nil => exact ⟨order, past, h⟩
      | cons m ms =>
        have hpast := h.idle hn
        subst hpast
        obtain ⟨b, h1, h2⟩ := h.sys
        refine ⟨order, [], h.out, h.err, ⟨b, h1, h2⟩, ?_, ?_⟩
        · intro hc; simp at hc
        · intro u
          have hm := h.mine u
          rw [hn] at hm
          by_cases hu : u = t
          · subst hu
            rw [hx] at hm
            simp at hm
            simp [← hm]
          · have hne : ¬ (some t = some u) := by simp; omega
            simp only [hne, hu, if_false]
            simpa using hm
    · rw [if_neg hn]
      exact ⟨order, past, h⟩

theorem inv_run {prog : Nat → List (List Act)} (hp : ∀ t, ∀ m ∈ prog t, fillsFirst m = true) (ts : List Nat) {w : World} {order : List (Nat × List Act)} {past : List Act}
    (h : Inv prog w order past) : ∃ order' past', Inv prog (w.run ts) order' past' := by
  induction ts generalizing w order past with
  | nil => exact ⟨order, past, h⟩
  | cons t ts ih =>
    obtain ⟨o, p, h'⟩ := inv_step hp h t
    exact ih h'

/-- The critical sections are those of messages. -/
def Logs (prog : Nat → List (List Act)) : Prop :=
  ∀ t, ∀ m ∈ prog t, ∃ level cfg date file msg, m ∈ prSimple level cfg date file msg

theorem fillsFirst_writes {l r : List Act} (h : ∀ a ∈ l, ∃ s t, a = .write s t) (hr : fillsFirst r = true) : fillsFirst (l ++ r) = true := by
  induction l with
  | nil => exact hr
  | cons a l ih =>
    obtain ⟨s, t, rfl⟩ := h a (by simp)
    exact ih (fun x hx => h x (by simp [hx]))

theorem logs_fill {prog : Nat → List (List Act)} (h : Logs prog) : ∀ t, ∀ m ∈ prog t, fillsFirst m = true := by
  intro t m hm
  obtain ⟨level, cfg, date, file, msg, hx⟩ := h t m hm
  unfold prSimple at hx
  by_cases hl : level > cfg.level
  · simp [hl] at hx
  · rw [if_neg hl, List.mem_append] at hx
    rcases hx with hx | hx
    · cases hs : cfg.syslog with
      | false => simp [hs] at hx
      | true => simp [hs] at hx; subst hx; rfl
    · cases hs : cfg.fprintf with
      | false => simp [hs] at hx
      | true =>
        simp [hs] at hx
        subst hx
        cases hc : cfg.color <;> cases hd : date <;> cases ht : cfg.tag <;> cases hf : file <;> simp [vfprintfActs, hc, ht, fillsFirst]

/-- **C154.** Whatever the threads log and however they're scheduled, messages aren't mixed: whenever nobody is printing, each output has the texts of a number of messages, whole, one after
the other, and the messages of each thread are in the order in which it logged them; the rest of them are still to come. -/
theorem C154 (prog : Nat → List (List Act)) (hp : Logs prog) (sched : List Nat) :
    let w := (World.start prog).run sched
    w.owner = none → ∃ order : List (Nat × List Act),
      w.stdout = order.flatMap (fun x => onStream .stdout x.2) ∧ w.stderr = order.flatMap (fun x => onStream .stderr x.2) ∧
      w.sys = order.flatMap (fun x => onSys x.2) ∧
      ∀ t, (order.filter (fun x => x.1 = t)).map (·.2) ++ (w.threads t).next = prog t := by
  intro w hn
  obtain ⟨order, past, h⟩ := inv_run (logs_fill hp) sched (inv_start prog)
  have hpast := h.idle hn
  subst hpast
  obtain ⟨b, h1, _⟩ := h.sys
  refine ⟨order, by simpa [onStream] using h.out, by simpa [onStream] using h.err, by simpa [sysFrom] using h1, ?_⟩
  intro t
  have := h.mine t
  rw [if_neg (by rw [show ((World.start prog).run sched).owner = none from hn]; simp), List.append_nil] at this
  exact this

/-- **C154**, at any other time: the last message is incomplete, and it's of the thread that has the lock. -/
theorem C154_during (prog : Nat → List (List Act)) (hp : Logs prog) (sched : List Nat) (t : Nat) :
    let w := (World.start prog).run sched
    w.owner = some t → ∃ (order : List (Nat × List Act)) (past : List Act),
      w.stdout = order.flatMap (fun x => onStream .stdout x.2) ++ onStream .stdout past ∧ w.stderr = order.flatMap (fun x => onStream .stderr x.2) ++ onStream .stderr past ∧
      w.sys = order.flatMap (fun x => onSys x.2) ++ onSys past ∧
      (order.filter (fun x => x.1 = t)).map (·.2) ++ [past ++ (w.threads t).cur] ++ (w.threads t).next = prog t := by
  intro w hn
  obtain ⟨order, past, h⟩ := inv_run (logs_fill hp) sched (inv_start prog)
  obtain ⟨b, h1, _⟩ := h.sys
  have hm := h.mine t
  rw [if_pos hn] at hm
  refine ⟨order, past, h.out, h.err, ?_, hm⟩
  have hf : fillsFirst past = true := fillsFirst_prefix (logs_fill hp t (past ++ (((World.start prog).run sched).threads t).cur) (by rw [← hm]; simp))
  rw [onSys_eq, sysFrom_fills hf [] b]
  exact h1

theorem run_append (w : World) (a b : List Nat) : w.run (a ++ b) = (w.run a).run b := by
  induction a generalizing w with
  | nil => rfl
  | cons t a ih => exact ih _

theorem finish (n : Nat) (w : World) (t : Nat) (ho : w.owner = some t) (hc : (w.threads t).cur.length = n) :
    (w.run (List.replicate (n + 1) t)).owner = none ∧ ((w.run (List.replicate (n + 1) t)).threads t).next = (w.threads t).next := by
  induction n generalizing w with
  | zero =>
    have : (w.threads t).cur = [] := List.eq_nil_of_length_eq_zero hc
    simp [World.run, World.step, ho, this]
  | succ n ih =>
    cases hcur : (w.threads t).cur with
    | nil => rw [hcur] at hc; simp at hc
    | cons a as =>
      have hs : w.step t = { w.act a with threads := fun u => if u = t then { (w.act a).threads t with cur := as } else (w.act a).threads u } := by
        unfold World.step
        rw [if_pos ho, hcur]
      have h1 := ih (w.step t) (by rw [hs]; exact (act_threads w a).2.trans ho) (by rw [hs]; simp; rw [hcur] at hc; simpa using hc)
      rw [List.replicate_succ]
      refine ⟨h1.1, ?_⟩
      show (((w.step t).run (List.replicate (n + 1) t)).threads t).next = _
      rw [h1.2, hs]
      simp [(act_threads w a).1]

/-- **C154**, nobody waits forever: as long as a thread has something to log, letting the thread that has the lock run, and then this one, makes it log its next message. -/
theorem C154_progress (w : World) (t : Nat) (m : List Act) (ms : List (List Act)) (h : (w.threads t).next = m :: ms) (ho : w.owner ≠ some t) :
    ∃ sched, (w.run sched).owner = none ∧ ((w.run sched).threads t).next = ms := by
  have key : ∀ w : World, w.owner = none → (w.threads t).next = m :: ms → ∃ sched, (w.run sched).owner = none ∧ ((w.run sched).threads t).next = ms := by
    intro w hn hx
    have hs : w.step t = { w with owner := some t, threads := fun u => if u = t then ⟨m, ms⟩ else w.threads u } := by
      unfold World.step
      rw [if_neg (by rw [hn]; simp), if_pos hn, hx]
    have := finish m.length (w.step t) t (by rw [hs]) (by rw [hs]; simp)
    refine ⟨t :: List.replicate (m.length + 1) t, this.1, ?_⟩
    show (((w.step t).run (List.replicate (m.length + 1) t)).threads t).next = ms
    rw [this.2, hs]
    simp
  cases hw : w.owner with
  | none => exact key w hw h
  | some u =>
    have hut : u ≠ t := by intro e; subst e; exact ho hw
    have hf := finish (w.threads u).cur.length w u hw rfl
    have hoth : ∀ n (w : World), ((w.run (List.replicate n u)).threads t).next = (w.threads t).next := by
      intro n
      induction n with
      | zero => intro w; rfl
      | succ n ih =>
        intro w
        rw [List.replicate_succ]
        show (((w.step u).run _).threads t).next = _
        rw [ih]
        unfold World.step
        split
        · cases (w.threads u).cur with
          | nil => rfl
          | cons a as => simp [hut.symm, (act_threads w a).1]
        · split
          · cases (w.threads u).next with
            | nil => rfl
            | cons x xs => simp [hut.symm]
          · rfl
    obtain ⟨s, h1, h2⟩ := key _ hf.1 ((hoth _ w).trans h)
    exact ⟨List.replicate ((w.threads u).cur.length + 1) u ++ s, by rw [run_append]; exact h1, by rw [run_append]; exact h2⟩

/-- Two threads that log the same way at the same time. -/
example : let s := (logSetup false)
    let prog : Nat → List (List Act) := fun t => if t < 2 then prSimple LOG_INFO s.op none none (if t = 0 then "a".toList else "b".toList) else []
    Logs prog ∧ ((World.start prog).run (List.replicate 14 [0, 1, 1]).flatten).stdout = "INF: a\nINF: b\n".toList := by
  refine ⟨?_, by decide +kernel⟩
  intro t m hm
  by_cases ht : t < 2
  · simp only [ht, if_true] at hm
    exact ⟨_, _, _, _, _, hm⟩
  · simp [ht] at hm

end Verif.Log
