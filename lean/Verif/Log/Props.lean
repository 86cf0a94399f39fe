import Verif.Log.Lemmas
/-
C151: each message goes to the output configured for its log and nowhere else. C152: lines. C153: file names.
-/
namespace Verif.Log

/-- C151, what `log_start` leaves behind: each log prints where it was told to. -/
theorem start_flags (op val : Conf) :
    (logStart op val (logSetup false)).op.syslog = decide (op.enabled = true ∧ op.output = .syslog) ∧
    (logStart op val (logSetup false)).op.fprintf = decide (op.enabled = true ∧ op.output = .console) ∧
    (logStart op val (logSetup false)).val.syslog = decide (val.enabled = true ∧ val.output = .syslog) ∧
    (logStart op val (logSetup false)).val.fprintf = decide (val.enabled = true ∧ val.output = .console) := by
  obtain ⟨oe, oo, _, _, _, _⟩ := op
  obtain ⟨ve, vo, _, _, _, _⟩ := val
  cases oe <;> cases oo <;> cases ve <;> cases vo <;> simp [logStart, startOp, startVal, logSetup, initConfig, logDisableSyslog]

theorem start_rest (op val : Conf) :
    (logStart op val (logSetup false)).op = ⟨(logStart op val (logSetup false)).op.fprintf, (logStart op val (logSetup false)).op.syslog, op.level % 256, op.tag, op.color, op.facility⟩ ∧
    (logStart op val (logSetup false)).val = ⟨(logStart op val (logSetup false)).val.fprintf, (logStart op val (logSetup false)).val.syslog, val.level % 256, val.tag, val.color, val.facility⟩ :=
  ⟨rfl, rfl⟩

/-- What a message of a log that was configured like this leaves in the outputs. -/
def Delivered (c : Conf) (cfg : Cfg) (level : Nat) (label color : String) (err : Bool) (date file : Option Text) (msg : Text) : Prop :=
  let w := observe (prSimple level cfg date file msg)
  w.sys = (if Wanted c level .syslog then [(level ||| c.facility, opt "[" c.tag "] " ++ opt "" file ": " ++ msg.take 1023)] else []) ∧
  w.stderr = (if Wanted c level .console ∧ err then line label color c date file msg ++ ['\n'] else []) ∧
  w.stdout = (if Wanted c level .console ∧ ¬err then line label color c date file msg ++ ['\n'] else [])

theorem delivered_of (c : Conf) (hc : c.level < 256) {level : Nat} {label color : String} {err : Bool} (hl : (level, label, color, err) ∈ levels)
    (date file : Option Text) (msg : Text) :
    Delivered c ⟨decide (c.enabled = true ∧ c.output = .console), decide (c.enabled = true ∧ c.output = .syslog), c.level % 256, c.tag, c.color, c.facility⟩
      level label color err date file msg := by
  obtain ⟨e, o, lv, tag, col, fac⟩ := c
  rw [Nat.mod_eq_of_lt hc]
  simp only [levels, List.mem_cons, Prod.mk.injEq, List.not_mem_nil, or_false] at hl
  simp only [Delivered, Wanted, prSimple]
  by_cases hlt : level > lv
  · have : ¬ level ≤ lv := by omega
    simp [hlt, this, observe, World.start]
  · have hle : level ≤ lv := by omega
    rw [if_neg hlt]
    cases e
    · simp [observe, World.start]
    · cases o
      · simp only [hle]
        cases tag <;> cases file <;> simp [observe, World.start, syslogActs, World.act, opt, lit]
      · simp only [hle]
        rcases hl with ⟨rfl, rfl, rfl, rfl⟩ | ⟨rfl, rfl, rfl, rfl⟩ | ⟨rfl, rfl, rfl, rfl⟩ | ⟨rfl, rfl, rfl, rfl⟩ <;>
          cases tag <;> cases file <;> cases date <;> cases col <;>
          simp [observe, World.start, vfprintfActs, World.act, opt, lit, level2struct, line, plainLine, esc, LOG_ERR, LOG_WARNING, LOG_INFO, LOG_DEBUG]

/-- **C151.** Once the configuration is in force, each message of each log appears exactly once in the output configured for its log if that log is enabled and the message's level
is among those wanted, and nowhere otherwise: in the system's log with the facility that was configured, or on a line of standard error (errors, warnings) or output (the rest).
What one log prints doesn't depend on how the other one is configured. -/
theorem C151 (op val : Conf) (hop : op.level < 256) (hval : val.level < 256)
    {level : Nat} {label color : String} {err : Bool} (hl : (level, label, color, err) ∈ levels) (date file : Option Text) (msg : Text) :
    Delivered op (logStart op val (logSetup false)).op level label color err date file msg ∧
    Delivered val (logStart op val (logSetup false)).val level label color err date file msg := by
  obtain ⟨h1, h2, h3, h4⟩ := start_flags op val
  obtain ⟨e1, e2⟩ := start_rest op val
  rw [e1, e2, h1, h2, h3, h4]
  exact ⟨delivered_of op hop hl date file msg, delivered_of val hval hl date file msg⟩

/-- **C151**, before the configuration was read: everything is printed, on both outputs. -/
theorem C151_before {level : Nat} (hl : level ≤ LOG_DEBUG) (date file : Option Text) (msg : Text) :
    prSimple level (logSetup false).op date file msg =
      [syslogActs level (logSetup false).op file msg, vfprintfActs level (logSetup false).op date file msg] := by
  simp [prSimple, logSetup, initConfig, show ¬ level > LOG_DEBUG by omega]

/-- **C151**, the checks that let callers avoid the work: if they say no, nothing would have been printed. -/
theorem C151_checks (op val : Conf) (level : Nat) (date file : Option Text) (msg : Text) :
    (logOpEnabled (logStart op val (logSetup false)) level = false → prSimple level (logStart op val (logSetup false)).op date file msg = []) ∧
    (logValEnabled (logStart op val (logSetup false)) level = false → prSimple level (logStart op val (logSetup false)).val date file msg = []) := by
  simp only [logOpEnabled, logValEnabled, decide_eq_false_iff_not, ge_iff_le, Nat.not_le]
  exact ⟨fun h => by simp [prSimple, h], fun h => by simp [prSimple, h]⟩

/-- The validation log on the console, the operation log in syslog: a warning of each. -/
example : let op : Conf := ⟨true, .syslog, LOG_INFO, none, false, LOG_DAEMON⟩
    let val : Conf := ⟨true, .console, LOG_WARNING, some "V".toList, false, LOG_DAEMON⟩
    let s := logStart op val (logSetup false)
    (observe (prSimple LOG_WARNING s.op none none "x".toList)).sys = [(28, "x".toList)] ∧
    (observe (prSimple LOG_WARNING s.val none (some "f".toList) "x".toList)).stderr = "WRN [V]: f: x\n".toList ∧
    observe (prSimple LOG_INFO s.val none none "x".toList) = observe [] ∧
    s.closes = 0 := by
  refine ⟨by decide, by decide, rfl, by decide⟩

/-! ### C152 -/

/-- A message: its level (and the level's label, colour and whether it's for standard error), date, file and text. -/
structure Msg where
  level : Nat
  label : String
  color : String
  err : Bool
  date : Option Text
  file : Option Text
  text : Text

/-- The level is one of those that exist. -/
def Msg.Ok (m : Msg) : Prop := (m.level, m.label, m.color, m.err) ∈ levels

/-- The outputs after a thread logs these messages, in this order, in the operation log. -/
def logged (op val : Conf) (l : List Msg) : World :=
  observe (l.flatMap fun m => prSimple m.level (logStart op val (logSetup false)).op m.date m.file m.text)

/-- The line of a message. -/
def Msg.line (c : Conf) (m : Msg) : Text := Log.line m.label m.color c m.date m.file m.text

/-- Texts without line feeds. -/
def NoLf (t : Option Text) : Prop := ∀ x, t = some x → '\n' ∉ x

theorem noLf_opt {t : Option Text} {a b : String} (h : NoLf t) (ha : '\n' ∉ a.toList) (hb : '\n' ∉ b.toList) : '\n' ∉ opt a t b := by
  cases t with
  | none => simp [opt]
  | some x => simp [opt, ha, hb, h x rfl]

theorem noLf_line {label color : String} {c : Conf} {date file : Option Text} {msg : Text} (hl : '\n' ∉ label.toList) (hcol : '\n' ∉ color.toList)
    (ht : NoLf c.tag) (hd : NoLf date) (hf : NoLf file) (hm : '\n' ∉ msg) : '\n' ∉ line label color c date file msg := by
  have hp : '\n' ∉ plainLine label c date file msg := by
    simp only [plainLine, List.mem_append, not_or]
    exact ⟨⟨⟨⟨⟨noLf_opt hd (by decide) (by decide), hl⟩, noLf_opt ht (by decide) (by decide)⟩, by decide⟩, noLf_opt hf (by decide) (by decide)⟩, hm⟩
  unfold line
  split
  · simp only [List.mem_append, List.mem_cons, not_or, List.cons_append]
    exact ⟨by decide, by decide, ⟨⟨hcol, by simp⟩, hp⟩, by decide, by decide⟩
  · exact hp

theorem acts_streams (l : List Act) (w : World) :
    (l.foldl World.act w).stdout = w.stdout ++ onStream .stdout l ∧ (l.foldl World.act w).stderr = w.stderr ++ onStream .stderr l := by
  induction l generalizing w with
  | nil => simp [onStream]
  | cons a l ih =>
    obtain ⟨h1, h2⟩ := ih (w.act a)
    rw [List.foldl_cons, h1, h2]
    cases a with
    | write s t => cases s <;> simp [World.act, onStream]
    | fill t => simp [World.act, onStream]
    | syslog p t => simp [World.act, onStream]

theorem observe_streams (l : List (List Act)) : (observe l).stdout = onStream .stdout l.flatten ∧ (observe l).stderr = onStream .stderr l.flatten := by
  have := acts_streams l.flatten (World.start fun _ => [])
  simpa [observe, World.start] using this

theorem onStream_append (s : Stream) (a b : List Act) : onStream s (a ++ b) = onStream s a ++ onStream s b := by
  simp [onStream]

theorem logged_streams (op val : Conf) (l : List Msg) (h : op.level < 256) (hl : ∀ m ∈ l, m.Ok) (he : op.enabled = true) (ho : op.output = .console) :
    (logged op val l).stderr = ((l.filter fun m => m.err && decide (m.level ≤ op.level)).map (Msg.line op)).flatMap (· ++ ['\n']) ∧
    (logged op val l).stdout = ((l.filter fun m => !m.err && decide (m.level ≤ op.level)).map (Msg.line op)).flatMap (· ++ ['\n']) := by
  unfold logged
  induction l with
  | nil => exact ⟨rfl, rfl⟩
  | cons m l ih =>
    obtain ⟨i1, i2⟩ := ih (fun x hx => hl x (by simp [hx]))
    obtain ⟨d, -⟩ := C151 op { op with enabled := false } h h (hl m (by simp)) m.date m.file m.text
    obtain ⟨f1, f2, _, _⟩ := start_flags op { op with enabled := false }
    obtain ⟨g1, g2, _, _⟩ := start_flags op val
    have hcfg : (logStart op { op with enabled := false } (logSetup false)).op = (logStart op val (logSetup false)).op := by
      rw [(start_rest op { op with enabled := false }).1, (start_rest op val).1, f1, f2, g1, g2]
    rw [hcfg] at d
    obtain ⟨-, d2, d3⟩ := d
    rw [(observe_streams _).1] at i2 d3
    rw [(observe_streams _).2] at i1 d2
    rw [(observe_streams _).1, (observe_streams _).2, List.flatMap_cons, List.flatten_append, onStream_append, onStream_append, d2, d3, i1, i2]
    have hw : Wanted op m.level .console ↔ m.level ≤ op.level := by simp [Wanted, he, ho]
    by_cases hle : m.level ≤ op.level
    · cases hm : m.err <;> simp [hw, hle, hm, Msg.line]
    · cases hm : m.err <;> simp [hw, hle, hm]

/-- **C152 (partial).** If the operation log goes to the console and no text has line feeds, each stream has exactly one line for each message that belongs there, in their order. (By C151, the same holds of the validation log.) -/
theorem C152_partial (op val : Conf) (l : List Msg) (h : op.level < 256) (he : op.enabled = true) (ho : op.output = .console) (hl : ∀ m ∈ l, m.Ok)
    (hc : NoLf op.tag) (hm : ∀ m ∈ l, NoLf m.date ∧ NoLf m.file ∧ '\n' ∉ m.text) :
    linesOf (logged op val l).stderr = (l.filter fun m => m.err && decide (m.level ≤ op.level)).map (Msg.line op) ∧
    linesOf (logged op val l).stdout = (l.filter fun m => !m.err && decide (m.level ≤ op.level)).map (Msg.line op) := by
  obtain ⟨h1, h2⟩ := logged_streams op val l h hl he ho
  have key : ∀ m ∈ l, '\n' ∉ Msg.line op m := by
    intro m hx
    obtain ⟨n1, n2, n3⟩ := hm m hx
    have hk := hl m hx
    have : '\n' ∉ m.label.toList ∧ '\n' ∉ m.color.toList := by
      unfold Msg.Ok at hk
      simp only [levels, List.mem_cons, Prod.mk.injEq, List.not_mem_nil, or_false] at hk
      rcases hk with ⟨_, e1, e2, _⟩ | ⟨_, e1, e2, _⟩ | ⟨_, e1, e2, _⟩ | ⟨_, e1, e2, _⟩ <;> rw [e1, e2] <;> decide
    exact noLf_line this.1 this.2 hc n1 n2 n3
  rw [h1, h2]
  constructor <;>
  · apply linesOf_flat
    intro x hx
    obtain ⟨m, hy, rfl⟩ := List.mem_map.mp hx
    exact key m (List.mem_filter.mp hy).1

/-- The hypotheses of C152, met. -/
example : ∃ l : List Msg, (∀ m ∈ l, m.Ok) ∧ (∀ m ∈ l, NoLf m.date ∧ NoLf m.file ∧ '\n' ∉ m.text) ∧
    (logged ⟨true, .console, LOG_WARNING, none, false, LOG_DAEMON⟩ ⟨false, .console, 0, none, false, LOG_DAEMON⟩ l).stderr = "ERR: a.roa: bad\nWRN: x\n".toList := by
  refine ⟨[⟨LOG_ERR, "ERR", "31", true, none, some "a.roa".toList, "bad".toList⟩, ⟨LOG_WARNING, "WRN", "33", true, none, none, "x".toList⟩], ?_, ?_, by decide⟩
  · simp [Msg.Ok, levels]
  · simp [NoLf]

/-- **C152 (refuted).** One message can leave on the console what two messages would have left: texts that come from the repositories (names of attributes, elements, URLs) are
printed as they are, line feeds included. -/
theorem C152_refuted :
    ∃ (op val : Conf) (one : Msg) (two : List Msg), two.length = 2 ∧ one.Ok ∧ (∀ m ∈ two, m.Ok) ∧
      (logged op val [one]).stderr = (logged op val two).stderr ∧ (logged op val [one]).stdout = (logged op val two).stdout ∧ (linesOf (logged op val [one]).stderr).length = 2 :=
  ⟨⟨true, .console, LOG_DEBUG, none, false, LOG_DAEMON⟩, ⟨false, .console, 0, none, false, LOG_DAEMON⟩,
    ⟨LOG_ERR, "ERR", "31", true, none, some "a.cer".toList, "Unknown: 'x\nWRN: b.cer: expires soon".toList⟩,
    [⟨LOG_ERR, "ERR", "31", true, none, some "a.cer".toList, "Unknown: 'x".toList⟩, ⟨LOG_WARNING, "WRN", "33", true, none, some "b.cer".toList, "expires soon".toList⟩], rfl,
    by simp [Msg.Ok, levels], by simp [Msg.Ok, levels], by decide, by decide, by decide⟩

/-! ### C153 -/

mutual
theorem run_named (w : Work) (names : List Text) (f : FnStack) (h : Holds f names) (hd : names.length + depth w ≤ 2 ^ 31) :
    ∃ f', runWork f w = some ((named names.head? w).map fun x => (peekOf x.1, x.2), f') ∧ Holds f' names := by
  cases w with
  | msg m => exact ⟨f, by simp [runWork, named, holds_peek h], h⟩
  | file name body =>
    simp only [depth] at hd
    obtain ⟨f1, h1, hf1⟩ := holds_push h (by omega) name
    obtain ⟨f2, h2, hf2⟩ := runs_named body (name :: names) f1 hf1 (by simp; omega)
    exact ⟨fnstackPop f2, by simp [runWork, named, h1, h2], holds_pop hf2⟩
theorem runs_named (ws : List Work) (names : List Text) (f : FnStack) (h : Holds f names) (hd : names.length + depths ws ≤ 2 ^ 31) :
    ∃ f', runWorks f ws = some ((nameds names.head? ws).map fun x => (peekOf x.1, x.2), f') ∧ Holds f' names := by
  cases ws with
  | nil => exact ⟨f, by simp [runWorks, nameds], h⟩
  | cons w ws =>
    simp only [depths] at hd
    obtain ⟨f1, h1, hf1⟩ := run_named w names f h (by omega)
    obtain ⟨f2, h2, hf2⟩ := runs_named ws names f1 hf1 (by omega)
    exact ⟨f2, by simp [runWorks, nameds, h1, h2], hf2⟩
end

/-- **C153.** Each message a thread logs is printed with the name of the file that it's processing then: the innermost one, or none; at any depth (of up to 2^31 files), whatever was
processed before, and no memory is accessed out of bounds. At the end the thread is not processing any file. -/
theorem C153 (ws : List Work) (hd : depths ws ≤ 2 ^ 31) :
    ∃ f, runWorks fnstackInit ws = some ((nameds none ws).map fun x => (peekOf x.1, x.2), f) ∧ fnstackPeek f = .null := by
  obtain ⟨f, h1, h2⟩ := runs_named ws [] fnstackInit holds_init (by simpa using hd)
  exact ⟨f, h1, by rw [holds_peek h2]; rfl⟩

/-- Nesting deeper than the first array. -/
def nest : Nat → Work
  | 0 => .msg "bottom".toList
  | n + 1 => .file [Char.ofNat n] [nest n, .msg "x".toList]

example : ∃ ws : List Work, 40 ≤ depths ws ∧ depths ws ≤ 2 ^ 31 ∧ (nameds none ws).length = 41 := by
  have h1 : ∀ n, depth (nest n) = n := by
    intro n; induction n with
    | zero => rfl
    | succ n ih => simp [nest, depth, depths, ih]; omega
  have h2 : ∀ n cur, (named cur (nest n)).length = n + 1 := by
    intro n; induction n with
    | zero => intro cur; rfl
    | succ n ih => intro cur; simp [nest, named, nameds, ih]
  exact ⟨[nest 40], by simp [depths, h1], by simp [depths, h1], by simp [nameds, h2]⟩

end Verif.Log
