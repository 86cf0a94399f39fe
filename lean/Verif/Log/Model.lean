/-
The logs: src/log.c, and the stack of file names of src/thread_var.c.

Standard output and error, and the system's log, are outputs of the model. Formatting (`vfprintf`) is done before: a message is its text. The date is a parameter
(`none`: `time` failed). The stack trace some functions add (with `BACKTRACE_ENABLED`) is left out; `pthread_mutex_lock` and `_unlock` succeed.
-/
namespace Verif.Log

/-- Text. -/
abbrev Text := List Char

/-- A literal. -/
def lit (s : String) : Text := s.toList

/-! ### Configuration -/

/-- `enum log_output` (src/config/log_conf.h:6-9). -/
inductive Output where
  | syslog
  | console
  deriving DecidableEq, Repr

/-- What the user configures for a log: options `log.*`, or `validation-log.*`. -/
structure Conf where
  enabled : Bool
  output : Output
  level : Nat
  tag : Option Text
  color : Bool
  facility : Nat
  deriving DecidableEq, Repr

/-- `struct log_config` (src/log.c:32-40). -/
structure Cfg where
  fprintf : Bool
  syslog : Bool
  level : Nat
  tag : Option Text
  color : Bool
  facility : Nat
  deriving DecidableEq, Repr

/-- The module's variables `op_config` and `val_config`; and how many times `closelog` was called. -/
structure State where
  op : Cfg
  val : Cfg
  closes : Nat
  deriving DecidableEq, Repr

/-- `LOG_ERR` -/
def LOG_ERR : Nat := 3
/-- `LOG_WARNING` -/
def LOG_WARNING : Nat := 4
/-- `LOG_INFO` -/
def LOG_INFO : Nat := 6
/-- `LOG_DEBUG` -/
def LOG_DEBUG : Nat := 7
/-- `LOG_DAEMON` -/
def LOG_DAEMON : Nat := 24

/-- src/log.c:107-115 `init_config` -/
def initConfig (unitTests : Bool) : Cfg := ⟨true, !unitTests, LOG_DEBUG, none, false, LOG_DAEMON⟩

/-- src/log.c:210-248 `log_setup`; the mutex can be created. -/
def logSetup (unitTests : Bool) : State := ⟨initConfig unitTests, initConfig unitTests, 0⟩

/-- src/log.c:250-258 `log_disable_syslog` -/
def logDisableSyslog (s : State) : State :=
  if s.op.syslog || s.val.syslog then
    ⟨{ s.op with syslog := false }, { s.val with syslog := false }, s.closes + 1⟩
  else s

/-- The first part of src/log.c:260-305 `log_start`. -/
def startVal (val : Conf) (s : State) : State :=
  if val.enabled then
    match val.output with
    | .syslog => { s with val := { s.val with fprintf := false } }
    | .console => { s with val := { s.val with syslog := false } }
  else { s with val := { s.val with fprintf := false, syslog := false } }

/-- The second part of src/log.c:260-305 `log_start`. -/
def startOp (op : Conf) (s : State) : State :=
  if op.enabled then
    match op.output with
    | .syslog => { s with op := { s.op with fprintf := false } }
    | .console =>
      if s.val.syslog then { s with op := { s.op with syslog := false } } else logDisableSyslog s
  else
    let s := { s with op := { s.op with fprintf := false } }
    if s.val.syslog then { s with op := { s.op with syslog := false } } else logDisableSyslog s

/-- src/log.c:260-305 `log_start`; levels are stored in 8 bits. -/
def logStart (op val : Conf) (s : State) : State :=
  let s := startOp op (startVal val s)
  { s with
    op := { s.op with level := op.level % 256, tag := op.tag, color := op.color, facility := op.facility }
    val := { s.val with level := val.level % 256, tag := val.tag, color := val.color, facility := val.facility } }

/-- src/log.c:323-327 `log_val_enabled` -/
def logValEnabled (s : State) (level : Nat) : Bool := decide (s.val.level ≥ level)

/-- src/log.c:329-333 `log_op_enabled` -/
def logOpEnabled (s : State) (level : Nat) : Bool := decide (s.op.level ≥ level)

/-! ### Messages -/

/-- The standard streams. -/
inductive Stream where
  | stdout
  | stderr
  deriving DecidableEq, Repr

/-- What a function does, one call at a time: `fprintf`, `vsnprintf` on the shared buffer, `syslog` of a text followed by what the buffer has. -/
inductive Act where
  | write (s : Stream) (t : Text)
  | fill (t : Text)
  | syslog (priority : Nat) (before : Text)
  deriving DecidableEq, Repr

/-- `struct level` (src/log.c:18-22). -/
structure Level where
  label : Text
  color : Text
  stream : Stream
  deriving DecidableEq, Repr

/-- Codes that terminals take for colours. -/
def esc (n : String) : Text := Char.ofNat 27 :: lit n

/-- src/log.c:335-352 `level2struct` -/
def level2struct (level : Nat) : Level :=
  if level = 2 then ⟨lit "CRT", esc "[35m", .stderr⟩
  else if level = LOG_ERR then ⟨lit "ERR", esc "[31m", .stderr⟩
  else if level = LOG_WARNING then ⟨lit "WRN", esc "[33m", .stderr⟩
  else if level = LOG_INFO then ⟨lit "INF", esc "[37m", .stdout⟩
  else if level = LOG_DEBUG then ⟨lit "DBG", esc "[36m", .stdout⟩
  else ⟨lit "UNK", [], .stdout⟩

/-- src/log.c:384-427 `__vfprintf`, between the lock and the unlock. `file`: what `fnstack_peek` returns. -/
def vfprintfActs (level : Nat) (cfg : Cfg) (date : Option Text) (file : Option Text) (msg : Text) : List Act :=
  let lvl := level2struct level
  (if cfg.color then [.write lvl.stream lvl.color] else []) ++
  (match date with | some d => [.write lvl.stream (d ++ lit " ")] | none => []) ++
  [.write lvl.stream lvl.label] ++
  (match cfg.tag with | some p => [.write lvl.stream (lit " [" ++ p ++ lit "]")] | none => []) ++
  [.write lvl.stream (lit ": ")] ++
  (match file with | some f => [.write lvl.stream (f ++ lit ": ")] | none => []) ++
  [.write lvl.stream msg] ++
  (if cfg.color then [.write lvl.stream (esc "[0m")] else []) ++
  [.write lvl.stream (lit "\n")]

/-- src/log.c:431-458 `__syslog`, between the lock and the unlock; `MSG_LEN` is 1024. -/
def syslogActs (level : Nat) (cfg : Cfg) (file : Option Text) (msg : Text) : List Act :=
  let tag := match cfg.tag with | some p => lit "[" ++ p ++ lit "] " | none => []
  let file := match file with | some f => f ++ lit ": " | none => []
  [.fill (msg.take 1023), .syslog (level ||| cfg.facility) (tag ++ file)]

/-- src/log.c:460-478 (`PR_SIMPLE`): the critical sections, in order. -/
def prSimple (level : Nat) (cfg : Cfg) (date : Option Text) (file : Option Text) (msg : Text) : List (List Act) :=
  if level > cfg.level then []
  else
    (if cfg.syslog then [syslogActs level cfg file msg] else []) ++
    (if cfg.fprintf then [vfprintfActs level cfg date file msg] else [])

/-! ### File names -/

/-- `struct filename_stack` (src/thread_var.c:10-15): the array (`none`: not written yet), `len` and `size`. -/
structure FnStack where
  filenames : List (Option Text)
  len : Nat
  size : Nat
  deriving DecidableEq, Repr

/-- src/thread_var.c:80-95 `fnstack_init` -/
def fnstackInit : FnStack := ⟨List.replicate 32 none, 0, 32⟩

/-- src/thread_var.c:140-156 `fnstack_push`; `none`: a write outside of the array. `unsigned int` has 32 bits. (The thread's stack was initialized.) -/
def fnstackPush (f : FnStack) (file : Text) : Option FnStack :=
  let f :=
    if f.len ≥ f.size then
      let size := 2 * f.size % 2 ^ 32
      { f with filenames := f.filenames.take size ++ List.replicate (size - f.filenames.length) none, size := size }
    else f
  if f.len < f.filenames.length then some { f with filenames := f.filenames.set f.len (some file), len := (f.len + 1) % 2 ^ 32 } else none

/-- What `fnstack_peek` finds. -/
inductive Peek where
  | null
  | name (t : Text)
  | garbage
  deriving DecidableEq, Repr

/-- src/thread_var.c:171-181 `fnstack_peek` -/
def fnstackPeek (f : FnStack) : Peek :=
  if f.len = 0 then .null
  else
    match f.filenames[f.len - 1]? with
    | some (some t) => .name t
    | _ => .garbage

/-- src/thread_var.c:184-194 `fnstack_pop` -/
def fnstackPop (f : FnStack) : FnStack := if f.len = 0 then f else { f with len := f.len - 1 }

/-- What a thread does, as far as the logs are concerned: it logs, and it processes files, which involves logging and processing other files. All the functions that
call `fnstack_push` call `fnstack_pop` once before they return, whichever way they return: src/object/certificate.c:235-262 `decode_spki`,
src/object/certificate.c:1910-2018 `certificate_traverse`, src/object/manifest.c:276-341 `handle_manifest`, src/object/ghostbusters.c:16-58 `ghostbusters_traverse`,
src/object/roa.c:247-295 `roa_traverse`, src/rpp.c:125-148 `add_crl_to_stack`, src/rrdp.c:850-881 `handle_snapshot`, src/rrdp.c:931-951 `handle_delta`,
src/rrdp.c:1030-1091 `rrdp_update`. -/
inductive Work where
  | msg (m : Text)
  | file (name : Text) (body : List Work)

mutual
/-- The messages logged, each one with what `fnstack_peek` returned then; and the stack at the end. `none`: a write outside of the array. -/
def runWork (f : FnStack) : Work → Option (List (Peek × Text) × FnStack)
  | .msg m => some ([(fnstackPeek f, m)], f)
  | .file name body =>
    match fnstackPush f name with
    | none => none
    | some f =>
      match runWorks f body with
      | none => none
      | some (l, f) => some (l, fnstackPop f)
def runWorks (f : FnStack) : List Work → Option (List (Peek × Text) × FnStack)
  | [] => some ([], f)
  | w :: ws =>
    match runWork f w with
    | none => none
    | some (l, f) =>
      match runWorks f ws with
      | none => none
      | some (l', f) => some (l ++ l', f)
end

/-! ### Threads -/

/-- A thread: what's left of the critical section it's in, and the critical sections that come next. -/
structure Thread where
  cur : List Act
  next : List (List Act)

/-- Everything: who has the lock, the threads, the shared buffer, the streams and the system's log. -/
structure World where
  owner : Option Nat
  threads : Nat → Thread
  buf : Text
  stdout : Text
  stderr : Text
  sys : List (Nat × Text)

/-- One call. -/
def World.act (w : World) : Act → World
  | .write .stdout t => { w with stdout := w.stdout ++ t }
  | .write .stderr t => { w with stderr := w.stderr ++ t }
  | .fill t => { w with buf := t }
  | .syslog p t => { w with sys := w.sys ++ [(p, t ++ w.buf)] }

/-- One step of a thread (src/log.c:354-372 `lock_mutex`, src/log.c:374-382 `unlock_mutex`, and what's between them). Nothing happens if the thread has to wait. -/
def World.step (w : World) (t : Nat) : World :=
  if w.owner = some t then
    match (w.threads t).cur with
    | [] => { w with owner := none }
    | a :: as =>
      let w := w.act a
      { w with threads := fun u => if u = t then { w.threads t with cur := as } else w.threads u }
  else if w.owner = none then
    match (w.threads t).next with
    | [] => w
    | m :: ms => { w with owner := some t, threads := fun u => if u = t then ⟨m, ms⟩ else w.threads u }
  else w

/-- A schedule. -/
def World.run (w : World) : List Nat → World
  | [] => w
  | t :: ts => (w.step t).run ts

/-- The beginning: these are the critical sections of each thread. -/
def World.start (prog : Nat → List (List Act)) : World := ⟨none, fun t => ⟨[], prog t⟩, [], [], [], []⟩

end Verif.Log
