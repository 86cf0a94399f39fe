import Verif.Slurm.ModelParser
import Verif.Misc.ModelStrtoul
/-
Model of the configuration: src/config.c, src/json_handler.c, the option types of src/config/, src/str_token.c (tokenizer), src/incidence/incidence.c, and
the exit status of src/main.c. getopt, jansson, stat(2) and the daemonization are parameters.
-/
namespace Verif.Conf
open Verif.Res (Byte)
open Verif.Slurm (Json)
open Verif.Misc (strtoul)

/-- Result of a function that returns an error code and changes some state. `exit`: the program ended; `ub`: undefined behaviour (here always a NULL
that's dereferenced, or an access out of bounds). -/
inductive Out (S : Type) where
  | ok (s : S)
  | fail (error : Int)
  | exit (status : Int)
  | ub
  deriving DecidableEq, Repr

abbrev eNOENT : Int := 2
abbrev eSRCH : Int := 3
abbrev eINVAL : Int := 22

/-- Names of options, split at the dots. -/
abbrev Key := List String

/-- Bytes of a literal. -/
def lit (s : String) : List Byte := s.toList.map (fun c => BitVec.ofNat 8 c.toNat)

/-- `struct global_type`. The seven types whose values are words (mode, log output, ...) are `words`, with the value stored for each of them. -/
inductive OptType where
  | uint
  | bool
  | offline
  | string
  | strings
  | words (l : List (List Byte × Nat))
  | incidences
  | callback
  deriving DecidableEq, Repr

/-- `handler` -/
inductive HandlerFn where
  | none
  | help
  | usage
  | version
  | json
  deriving DecidableEq, Repr

/-- `struct option_field` (src/config/types.h:37-86), without the texts. The `offset` is identified with the name: no two options have the same.
`getopt`, `json`: `availability` (0 is both). -/
structure Opt where
  id : Nat
  name : Key
  type : OptType
  handler : HandlerFn := .none
  getopt : Bool := true
  json : Bool := true
  nullOk : Bool := false
  min : Nat := 0
  max : Nat := 0
  deriving DecidableEq, Repr

/-- Values of the fields of `struct rpki_config`. -/
inductive Val where
  | uint (n : Nat)
  | bool (b : Bool)
  | str (s : Option (List Byte))
  | strs (l : List (List Byte))
  | word (n : Nat)
  deriving DecidableEq, Repr

/-- `enum incidence_action` -/
inductive Action where
  | ignore
  | warn
  | error
  deriving DecidableEq, Repr

/-- `struct rpki_config`, and the `action` of each incidence. -/
structure Conf where
  field : Key → Val
  incid : Nat → Action

/-- A write to a field. -/
def Conf.set (c : Conf) (k : Key) (v : Val) : Conf := { c with field := fun k' => if k' = k then v else c.field k' }

/-- A write to the action of an incidence. -/
def Conf.setIncid (c : Conf) (i : Nat) (a : Action) : Conf := { c with incid := fun i' => if i' = i then a else c.incid i' }

/-! ## Types -/

/-- `has_arg != no_argument` is always so for the types that have a parser for the command line, but only these require the argument. -/
def OptType.requiresArg : OptType → Bool
  | .uint => true
  | .bool => false
  | .offline => false
  | .string => true
  | .strings => true
  | .words _ => true
  | .incidences => false
  | .callback => false

/-- `has_arg == no_argument`, which is zero. -/
def OptType.noArg : OptType → Bool
  | .incidences => true
  | .callback => true
  | _ => false

/-- src/config/uint.c:14-46 `parse_argv_uint`. `unsigned int` has 32 bits. -/
def parseArgvUint (o : Opt) (str : Option (List Byte)) (c : Conf) : Out Conf :=
  match str with
  | none => .fail (-eINVAL)
  | some [] => .fail (-eINVAL)
  | some str =>
    let r := strtoul str
    if r.erange then .fail 34
    else if r.rest ≠ [] then .fail (-eINVAL)
    else if r.value < o.min ∨ o.max < r.value then .fail (-eINVAL)
    else .ok (c.set o.name (.uint (r.value % 2 ^ 32)))

/-- src/config/uint.c:48-67 `parse_json_uint` -/
def parseJsonUint (o : Opt) (json : Json) (c : Conf) : Out Conf :=
  match json with
  | .int value =>
    if value < o.min ∨ (o.max : Int) < value then .fail (-eINVAL)
    else .ok (c.set o.name (.uint (value % 2 ^ 32).toNat))
  | _ => .fail (-eINVAL)

/-- src/config/boolean.c:15-35 `parse_argv_bool`: the value it writes. -/
def argvBool (str : Option (List Byte)) : Option Bool :=
  match str with
  | none => some true
  | some [] => some true
  | some s => if s = lit "true" then some true else if s = lit "false" then some false else none

/-- src/config/boolean.c:15-35 `parse_argv_bool` -/
def parseArgvBool (o : Opt) (str : Option (List Byte)) (c : Conf) : Out Conf :=
  match argvBool str with
  | some b => .ok (c.set o.name (.bool b))
  | none => .fail (-eINVAL)

/-- src/config/boolean.c:37-48 `parse_json_bool` -/
def parseJsonBool (o : Opt) (json : Json) (c : Conf) : Out Conf :=
  match json with
  | .bool b => .ok (c.set o.name (.bool b))
  | _ => .fail (-eINVAL)

/-- `config_set_rsync_enabled` and `config_set_http_enabled` (src/config.c:1498-1508) -/
def Conf.setEnabled (c : Conf) (b : Bool) : Conf := (c.set ["rsync", "enabled"] (.bool b)).set ["http", "enabled"] (.bool b)

/-- src/config/work_offline.c:10-23 `parse_argv_offline` -/
def parseArgvOffline (o : Opt) (str : Option (List Byte)) (c : Conf) : Out Conf :=
  match argvBool str with
  | some b => .ok ((c.set o.name (.bool b)).setEnabled (!b))
  | none => .fail (-eINVAL)

/-- src/config/work_offline.c:25-39 `parse_json_offline` -/
def parseJsonOffline (o : Opt) (json : Json) (c : Conf) : Out Conf :=
  match json with
  | .bool b => .ok ((c.set o.name (.bool b)).setEnabled (!b))
  | _ => .fail (-eINVAL)

/-- src/config/str.c:23-38 `string_parse_argv` -/
def parseArgvString (o : Opt) (str : Option (List Byte)) (c : Conf) : Out Conf :=
  match str with
  | none => .fail (-eINVAL)
  | some [] => .fail (-eINVAL)
  | some s => .ok (c.set o.name (.str (some s)))

/-- src/config/str.c:86-99 `parse_json_string`; `none` is an error. -/
def parseJsonStr (json : Json) : Option (Option (List Byte)) :=
  match json with
  | .null => some none
  | .str s => some (some s)
  | _ => none

/-- src/config/str.c:40-65 `string_parse_json` -/
def parseJsonString (o : Opt) (json : Json) (c : Conf) : Out Conf :=
  match parseJsonStr json with
  | none => .fail (-eINVAL)
  | some none => if o.nullOk then .ok (c.set o.name (.str none)) else .fail (-eINVAL)
  | some (some s) => parseArgvString o (some s) c

/-- `parse_argv_mode`, `parse_argv_log_level`, `parse_argv_log_output`, `parse_argv_log_facility`, `parse_argv_filename_format`, `parse_argv_output_format` and the one of file types
(src/config/mode.c:34-48, src/config/log_conf.c:151-231, src/config/filename_format.c:34-49, src/config/output_format.c:30-43, src/config/file_type.c:44-62): they compare the text with each of the words,
by strcmp(3). -/
def parseArgvWord (o : Opt) (words : List (List Byte × Nat)) (str : Option (List Byte)) (c : Conf) : Out Conf :=
  match str with
  | none => .ub
  | some s =>
    match words.find? (fun w => w.1 = s) with
    | some w => .ok (c.set o.name (.word w.2))
    | none => .fail (-eINVAL)

/-- `parse_json_mode`, etc. (src/config/mode.c:50-59, src/config/log_conf.c:233-264, src/config/filename_format.c:51-60, src/config/output_format.c:45-54, src/config/file_type.c:64-73) -/
def parseJsonWord (o : Opt) (words : List (List Byte × Nat)) (json : Json) (c : Conf) : Out Conf :=
  match parseJsonStr json with
  | none => .fail (-eINVAL)
  | some s => parseArgvWord o words s c

/-! ### Lists of strings -/

/-- `struct string_tokenizer` (src/str_token.h) with the text and the separator apart. -/
structure Tok where
  start : Nat
  stop : Nat
  deriving DecidableEq, Repr

/-- The first loop of src/str_token.c:79-105 `string_tokenizer_next`. `none`: read out of bounds; `some none`: it reached the end. -/
def skipSep (s : List Byte) (sep : Byte) (i : Nat) : Option (Option Nat) :=
  match h : s[i]? with
  | none => none
  | some b =>
    if b = sep then (if i + 1 = s.length then some none else skipSep s sep (i + 1))
    else some (some i)
termination_by s.length - i
decreasing_by
  have := (List.getElem?_eq_some_iff.1 h).1
  omega

/-- The second loop of src/str_token.c:79-105 `string_tokenizer_next`. -/
def findSep (s : List Byte) (sep : Byte) (i : Nat) : Nat :=
  if h : i < s.length then (if s[i] = sep then i else findSep s sep (i + 1)) else i
termination_by s.length - i

/-- src/str_token.c:79-105 `string_tokenizer_next` (`str_len` is the length of the text). `none`: read out of bounds. -/
def tokNext (s : List Byte) (sep : Byte) (t : Tok) : Option (Tok × Bool) :=
  if t.stop = s.length then some (t, false)
  else
    match skipSep s sep t.stop with
    | none => none
    | some none => some (⟨s.length, s.length⟩, false)
    | some (some i) => some (⟨i, findSep s sep i⟩, true)

/-- The tokens a loop on `string_tokenizer_next` visits, each being `token_read` (src/str_token.c:121-126). `fuel` bounds the iterations; running out of it
is `none`, like reading out of bounds. -/
def tokLoop (s : List Byte) (sep : Byte) : Nat → Tok → Option (List (List Byte))
  | 0, _ => none
  | fuel + 1, t =>
    match tokNext s sep t with
    | none => none
    | some (_, false) => some []
    | some (t, true) =>
      match tokLoop s sep fuel t with
      | none => none
      | some l => some ((s.drop t.start).take (t.stop - t.start) :: l)

/-- Writes the tokens to an array of `len` pointers, from index `i`. `none`: out of bounds. -/
def writeTokens : List (List Byte) → Nat → List (Option (List Byte)) → Option (List (Option (List Byte)))
  | [], _, a => some a
  | t :: ts, i, a => if i < a.length then writeTokens ts (i + 1) (a.set i (some t)) else none

/-- src/config/string_array.c:112-139 `string_array_parse_argv`. (A NULL left in the array would be dereferenced later, so it's `ub` already.) -/
def parseArgvStrings (o : Opt) (str : Option (List Byte)) (c : Conf) : Out Conf :=
  match str with
  | none => .ub
  | some s =>
    match tokLoop s 0x2C#8 (s.length + 1) ⟨0, 0⟩ with
    | none => .ub
    | some counted =>
      if o.max > 0 ∧ counted.length > o.max then .fail (-eINVAL)
      else
        match tokLoop s 0x2C#8 (s.length + 1) ⟨0, 0⟩ with
        | none => .ub
        | some toks =>
          match writeTokens toks 0 (List.replicate counted.length none) with
          | none => .ub
          | some a => if none ∈ a then .ub else .ok (c.set o.name (.strs (a.filterMap id)))

/-- The elements of an array of strings; `none`: some isn't one. -/
def jsonStrs : List Json → Option (List (List Byte))
  | [] => some []
  | .str s :: l => (jsonStrs l).map (s :: ·)
  | _ :: _ => none

/-- src/config/string_array.c:55-110 `string_array_parse_json` -/
def parseJsonStrings (o : Opt) (json : Json) (c : Conf) : Out Conf :=
  match json with
  | .arr l =>
    if l.length = 0 then .ok (c.set o.name (.strs []))
    else if o.max > 0 ∧ l.length > o.max then .fail (-eINVAL)
    else
      match jsonStrs l with
      | none => .fail (-eINVAL)
      | some strs => .ok (c.set o.name (.strs strs))
  | _ => .fail (-eINVAL)

/-! ### Incidences -/

/-- Name and default action of each incidence: src/incidence/incidence.c:18-55. -/
def incidenceTable : List (List Byte × Action) :=
  [(lit "incid-hashalg-has-params", .ignore),
   (lit "incid-obj-not-der-encoded", .ignore),
   (lit "incid-file-at-mft-not-found", .error),
   (lit "incid-file-at-mft-hash-not-match", .error),
   (lit "incid-mft-stale", .error),
   (lit "incid-crl-stale", .error)]

/-- `json_object_get`: NULL if it's not an object. -/
def objGet (json : Json) (key : String) : Option Json :=
  match json with
  | .obj m => m.lookup key
  | _ => none

/-- src/json_util.c:16-32 `json_get_str`: `none` is a failure, `some none` means that it isn't there. -/
def jsonGetStr (json : Json) (key : String) : Option (Option (List Byte)) :=
  match objGet json key with
  | none => some none
  | some (.str s) => some (some s)
  | some _ => none

/-- Actions by name, in src/incidence/incidence.c:87-123 `init_action`. -/
def actionOf (s : List Byte) : Option Action :=
  if s = lit "ignore" then some .ignore
  else if s = lit "warn" then some .warn
  else if s = lit "error" then some .error
  else none

/-- src/incidence/incidence.c:87-123 `init_action` with src/incidence/incidence.c:57-70 `name2id`. -/
def initAction (json : Json) (c : Conf) : Out Conf :=
  match jsonGetStr json "name" with
  | none => .fail (-eINVAL)
  | some none => .fail (-eINVAL)
  | some (some name) =>
    match incidenceTable.findIdx? (fun i => i.1 = name) with
    | none => .fail (-eINVAL)
    | some id =>
      match jsonGetStr json "action" with
      | none => .fail (-eINVAL)
      | some none => .fail (-eINVAL)
      | some (some s) =>
        match actionOf s with
        | none => .fail (-eINVAL)
        | some a => .ok (c.setIncid id a)

/-- The loop of src/incidence/incidence.c:147-164 `incidence_update`. -/
def initActions : List Json → Conf → Out Conf
  | [], c => .ok c
  | j :: js, c =>
    match initAction j c with
    | .ok c => initActions js c
    | r => r

/-- src/incidence/incidence.c:147-164 `incidence_update` -/
def incidenceUpdate (json : Json) (c : Conf) : Out Conf :=
  match json with
  | .arr l => initActions l c
  | _ => .fail (-eINVAL)

/-! ## Options -/

/-- `opt->type->parse.json(opt, child, get_rpki_config_field(opt))`. A type without that function: NULL is called. -/
def parseJson (o : Opt) (json : Json) (c : Conf) : Out Conf :=
  match o.type with
  | .uint => parseJsonUint o json c
  | .bool => parseJsonBool o json c
  | .offline => parseJsonOffline o json c
  | .string => parseJsonString o json c
  | .strings => parseJsonStrings o json c
  | .words l => parseJsonWord o l json c
  | .incidences => incidenceUpdate json c
  | .callback => .ub

/-- `option->type->parse.argv(option, optarg, get_rpki_config_field(option))`. A type without that function: NULL is called. -/
def parseArgv (o : Opt) (str : Option (List Byte)) (c : Conf) : Out Conf :=
  match o.type with
  | .uint => parseArgvUint o str c
  | .bool => parseArgvBool o str c
  | .offline => parseArgvOffline o str c
  | .string => parseArgvString o str c
  | .strings => parseArgvStrings o str c
  | .words l => parseArgvWord o l str c
  | .incidences => .ub
  | .callback => .ub

/-- src/json_handler.c:9-32 `find_json` -/
def findJson (root : Json) : Key → Option Json
  | [] => some root
  | k :: ks =>
    match objGet root k with
    | none => none
    | some j => findJson j ks

/-- src/json_handler.c:34-53 `json_to_config` -/
def jsonToConfig (root : Json) : List Opt → Conf → Out Conf
  | [], c => .ok c
  | o :: os, c =>
    if o.json = false then jsonToConfig root os c
    else
      match findJson root o.name with
      | none => jsonToConfig root os c
      | some child =>
        match parseJson o child c with
        | .ok c => jsonToConfig root os c
        | r => r

/-- What `stat(2)` says. -/
inductive FileKind where
  | file
  | dir
  | other
  deriving DecidableEq, Repr

/-- The libraries and the system: `json_load_file`; `stat`; the result of `download_tals`, of `download_tal0s`, and of `daemonize`. -/
structure Env where
  load : List Byte → Option Json
  stat : List Byte → Option FileKind
  tals : Int
  tal0s : Int
  daemonize : Int

/-- src/json_handler.c:55-73 `set_config_from_file` -/
def setConfigFromFile (env : Env) (table : List Opt) (file : List Byte) (c : Conf) : Out Conf :=
  match env.load file with
  | none => .fail (-eNOENT)
  | some root => jsonToConfig root table c

/-- `option->handler(option, optarg)`; `json_load_file` accepts NULL and fails. -/
def runHandler (env : Env) (table : List Opt) (o : Opt) (arg : Option (List Byte)) (c : Conf) : Out Conf :=
  match o.handler with
  | .none => .ub
  | .help => .exit 0
  | .usage => .exit 0
  | .version => .exit 0
  | .json =>
    match arg with
    | none => .fail (-eNOENT)
    | some file => setConfigFromFile env table file c

/-- src/config.c:1087-1107 `handle_opt` -/
def handleOpt (env : Env) (table : List Opt) (id : Nat) (arg : Option (List Byte)) (c : Conf) : Out Conf :=
  match table.find? (fun o => o.getopt && o.id == id) with
  | none => .fail (-eSRCH)
  | some o => if o.handler = .none then parseArgv o arg c else runHandler env table o arg c

/-- The loop of src/config.c:1109-1171 `handle_flags_config`: `args` is what `getopt_long` returns, each with its `optarg`. -/
def handleOpts (env : Env) (table : List Opt) : List (Nat × Option (List Byte)) → Conf → Out Conf
  | [], c => .ok c
  | (id, arg) :: args, c =>
    match handleOpt env table id arg c with
    | .ok c => handleOpts env table args c
    | r => r

/-! ## This program's table -/

abbrev uintMax : Nat := 4294967295

/-- src/config/mode.c:8-10, src/config/mode.h -/
def modeWords : List (List Byte × Nat) := [(lit "server", 0), (lit "standalone", 1), (lit "print", 2)]

/-- src/config/log_conf.c:169-181 `parse_argv_log_output`, src/config/log_conf.h -/
def outputWords : List (List Byte × Nat) := [(lit "syslog", 0), (lit "console", 1)]

/-- src/config/log_conf.c:151-167 `parse_argv_log_level`; numbers of syslog.h. -/
def levelWords : List (List Byte × Nat) := [(lit "error", 3), (lit "warning", 4), (lit "info", 6), (lit "debug", 7)]

/-- src/config/log_conf.c:183-231 `parse_argv_log_facility`; numbers of syslog.h. -/
def facilityWords : List (List Byte × Nat) :=
  [(lit "auth", 4 * 8), (lit "authpriv", 10 * 8), (lit "cron", 9 * 8), (lit "daemon", 3 * 8), (lit "ftp", 11 * 8), (lit "lpr", 6 * 8),
   (lit "mail", 2 * 8), (lit "news", 7 * 8), (lit "user", 1 * 8), (lit "uucp", 8 * 8),
   (lit "local0", 16 * 8), (lit "local1", 17 * 8), (lit "local2", 18 * 8), (lit "local3", 19 * 8), (lit "local4", 20 * 8),
   (lit "local5", 21 * 8), (lit "local6", 22 * 8), (lit "local7", 23 * 8)]

/-- src/config/filename_format.c:8-10 -/
def formatWords : List (List Byte × Nat) := [(lit "global-url", 0), (lit "local-path", 1), (lit "file-name", 2)]

/-- src/config/output_format.c:8-9 -/
def ofmWords : List (List Byte × Nat) := [(lit "csv", 0), (lit "json", 1)]

/-- src/config/file_type.c:8-12, src/config/file_type.h -/
def ftWords : List (List Byte × Nat) := [(lit "roa", 1), (lit "mft", 2), (lit "gbr", 3), (lit "cer", 4), (lit "crl", 5)]

/-- `options` (src/config.c:226-790). SOMAXCONN is 4096 (Linux). -/
def options : List Opt := [
  { id := 104, name := ["help"], type := .callback, handler := .help, json := false },
  { id := 1000, name := ["usage"], type := .callback, handler := .usage, json := false },
  { id := 86, name := ["version"], type := .callback, handler := .version, json := false },
  { id := 102, name := ["configuration-file"], type := .string, handler := .json, json := false },
  { id := 116, name := ["tal"], type := .string },
  { id := 114, name := ["local-repository"], type := .string },
  { id := 2001, name := ["shuffle-uris"], type := .bool },
  { id := 1002, name := ["maximum-certificate-depth"], type := .uint, min := 5, max := uintMax - 1 },
  { id := 1003, name := ["slurm"], type := .string, nullOk := true },
  { id := 1004, name := ["mode"], type := .words modeWords },
  { id := 1005, name := ["work-offline"], type := .offline },
  { id := 1006, name := ["daemon"], type := .bool },
  { id := 5000, name := ["server", "address"], type := .strings, min := 0, max := 50 },
  { id := 5001, name := ["server", "port"], type := .string },
  { id := 5002, name := ["server", "backlog"], type := .uint, min := 1, max := 4096 },
  { id := 5003, name := ["server", "interval", "validation"], type := .uint, min := 60, max := uintMax },
  { id := 5004, name := ["server", "interval", "refresh"], type := .uint, min := 1, max := 86400 },
  { id := 5005, name := ["server", "interval", "retry"], type := .uint, min := 1, max := 7200 },
  { id := 5006, name := ["server", "interval", "expire"], type := .uint, min := 600, max := 172800 },
  { id := 5007, name := ["server", "deltas", "lifetime"], type := .uint, min := 0, max := uintMax },
  { id := 3000, name := ["rsync", "enabled"], type := .bool },
  { id := 3001, name := ["rsync", "priority"], type := .uint, min := 0, max := 100 },
  { id := 3002, name := ["rsync", "strategy"], type := .string, nullOk := true },
  { id := 3003, name := ["rsync", "retry", "count"], type := .uint, min := 0, max := uintMax },
  { id := 3004, name := ["rsync", "retry", "interval"], type := .uint, min := 0, max := uintMax },
  { id := 3005, name := ["rsync", "program"], type := .string, getopt := false },
  { id := 3006, name := ["rsync", "arguments-recursive"], type := .strings, getopt := false },
  { id := 3007, name := ["rsync", "arguments-flat"], type := .strings, getopt := false },
  { id := 3008, name := ["rsync", "transfer-timeout"], type := .uint, min := 0, max := uintMax },
  { id := 9000, name := ["http", "enabled"], type := .bool },
  { id := 9001, name := ["http", "priority"], type := .uint, min := 0, max := 100 },
  { id := 9002, name := ["http", "retry", "count"], type := .uint, min := 0, max := uintMax },
  { id := 9003, name := ["http", "retry", "interval"], type := .uint, min := 0, max := uintMax },
  { id := 9004, name := ["http", "user-agent"], type := .string },
  { id := 9012, name := ["http", "max-redirs"], type := .uint, min := 0, max := uintMax },
  { id := 9005, name := ["http", "connect-timeout"], type := .uint, min := 1, max := uintMax },
  { id := 9006, name := ["http", "transfer-timeout"], type := .uint, min := 0, max := uintMax },
  { id := 9009, name := ["http", "low-speed-limit"], type := .uint, min := 0, max := uintMax },
  { id := 9010, name := ["http", "low-speed-time"], type := .uint, min := 0, max := uintMax },
  { id := 9011, name := ["http", "max-file-size"], type := .uint, min := 0, max := 2000000000 },
  { id := 9008, name := ["http", "ca-path"], type := .string },
  { id := 4000, name := ["log", "enabled"], type := .bool },
  { id := 4001, name := ["log", "output"], type := .words outputWords },
  { id := 4002, name := ["log", "level"], type := .words levelWords },
  { id := 4003, name := ["log", "tag"], type := .string, nullOk := true },
  { id := 4004, name := ["log", "facility"], type := .words facilityWords },
  { id := 4005, name := ["log", "file-name-format"], type := .words formatWords },
  { id := 99, name := ["log", "color-output"], type := .bool },
  { id := 4010, name := ["validation-log", "enabled"], type := .bool },
  { id := 4011, name := ["validation-log", "output"], type := .words outputWords },
  { id := 4012, name := ["validation-log", "level"], type := .words levelWords },
  { id := 4013, name := ["validation-log", "tag"], type := .string, nullOk := true },
  { id := 4014, name := ["validation-log", "facility"], type := .words facilityWords },
  { id := 4015, name := ["validation-log", "file-name-format"], type := .words formatWords },
  { id := 4016, name := ["validation-log", "color-output"], type := .bool },
  { id := 7001, name := ["incidences"], type := .incidences, getopt := false },
  { id := 6000, name := ["output", "roa"], type := .string, nullOk := true },
  { id := 6001, name := ["output", "bgpsec"], type := .string, nullOk := true },
  { id := 6002, name := ["output", "format"], type := .words ofmWords },
  { id := 8000, name := ["asn1-decode-max-stack"], type := .uint, min := 1, max := uintMax },
  { id := 8001, name := ["stale-repository-period"], type := .uint, min := 0, max := uintMax },
  { id := 11000, name := ["init-tals"], type := .bool, json := false },
  { id := 11002, name := ["init-as0-tals"], type := .bool, json := false },
  { id := 12000, name := ["thread-pool", "server", "max"], type := .uint, min := 1, max := uintMax },
  { id := 12001, name := ["thread-pool", "validation", "max"], type := .uint, min := 0, max := 100 },
  { id := 13000, name := ["file-type"], type := .words ftWords }]

/-- src/config.c:915-1014 `set_default_values`, on Linux; `ft` is zero because `rpki_config` is static. The user agent is the package's name and version. -/
def defaults : List (Key × Val) := [
  (["tal"], .str none),
  (["local-repository"], .str (some (lit "/tmp/fort/repository"))),
  (["shuffle-uris"], .bool false),
  (["maximum-certificate-depth"], .uint 32),
  (["slurm"], .str none),
  (["mode"], .word 0),
  (["work-offline"], .bool false),
  (["daemon"], .bool false),
  (["server", "address"], .strs [lit "::"]),
  (["server", "port"], .str (some (lit "323"))),
  (["server", "backlog"], .uint 4096),
  (["server", "interval", "validation"], .uint 3600),
  (["server", "interval", "refresh"], .uint 3600),
  (["server", "interval", "retry"], .uint 600),
  (["server", "interval", "expire"], .uint 7200),
  (["server", "deltas", "lifetime"], .uint 2),
  (["rsync", "enabled"], .bool true),
  (["rsync", "priority"], .uint 50),
  (["rsync", "strategy"], .str (some (lit "<deprecated>"))),
  (["rsync", "retry", "count"], .uint 1),
  (["rsync", "retry", "interval"], .uint 4),
  (["rsync", "transfer-timeout"], .uint 900),
  (["rsync", "program"], .str (some (lit "rsync"))),
  (["rsync", "arguments-flat"], .strs [lit "<deprecated>"]),
  (["rsync", "arguments-recursive"], .strs [lit "-rtz", lit "--delete", lit "--omit-dir-times", lit "--contimeout=20", lit "--max-size=20MB",
    lit "--timeout=15", lit "--include=*/", lit "--include=*.cer", lit "--include=*.crl", lit "--include=*.gbr", lit "--include=*.mft",
    lit "--include=*.roa", lit "--exclude=*", lit "$REMOTE", lit "$LOCAL"]),
  (["http", "enabled"], .bool true),
  (["http", "priority"], .uint 60),
  (["http", "retry", "count"], .uint 1),
  (["http", "retry", "interval"], .uint 4),
  (["http", "user-agent"], .str (some (lit "fort/1.6.4"))),
  (["http", "max-redirs"], .uint 10),
  (["http", "connect-timeout"], .uint 30),
  (["http", "transfer-timeout"], .uint 900),
  (["http", "low-speed-limit"], .uint 100000),
  (["http", "low-speed-time"], .uint 10),
  (["http", "max-file-size"], .uint 1000000000),
  (["http", "ca-path"], .str none),
  (["log", "enabled"], .bool true),
  (["log", "tag"], .str none),
  (["log", "color-output"], .bool false),
  (["log", "file-name-format"], .word 0),
  (["log", "level"], .word 4),
  (["log", "output"], .word 1),
  (["log", "facility"], .word (3 * 8)),
  (["validation-log", "enabled"], .bool false),
  (["validation-log", "tag"], .str (some (lit "Validation"))),
  (["validation-log", "color-output"], .bool false),
  (["validation-log", "file-name-format"], .word 0),
  (["validation-log", "level"], .word 4),
  (["validation-log", "output"], .word 1),
  (["validation-log", "facility"], .word (3 * 8)),
  (["output", "roa"], .str none),
  (["output", "bgpsec"], .str none),
  (["output", "format"], .word 0),
  (["asn1-decode-max-stack"], .uint 4096),
  (["stale-repository-period"], .uint 43200),
  (["init-tals"], .bool false),
  (["init-as0-tals"], .bool false),
  (["thread-pool", "server", "max"], .uint 20),
  (["thread-pool", "validation", "max"], .uint 5),
  (["file-type"], .word 0)]

/-- src/config.c:915-1014 `set_default_values` and src/incidence/incidence.c:128-142 `incidence_init`. -/
def initial : Conf where
  field k := (defaults.lookup k).getD (.uint 0)
  incid i := ((incidenceTable[i]?).map (·.2)).getD .ignore

/-! ## Start-up -/

/-- The field, as the type it's used with (in C it's just memory of that type). -/
def Conf.nat (c : Conf) (k : Key) : Nat := match c.field k with | .uint n => n | .word n => n | _ => 0

/-- The field, as a boolean. -/
def Conf.flag (c : Conf) (k : Key) : Bool := match c.field k with | .bool b => b | _ => false

/-- The field, as a string. -/
def Conf.text (c : Conf) (k : Key) : Option (List Byte) := match c.field k with | .str s => s | _ => none

/-- src/common.c:218-239 `valid_file_or_dir` -/
def validFileOrDir (env : Env) (path : List Byte) (checkFile : Bool) : Bool :=
  match env.stat path with
  | none => false
  | some kind => (checkFile && decide (kind = .file)) || decide (kind = .dir)

/-- src/config.c:1016-1047 `validate_config`; `payload`: whether there's an argument that isn't an option. -/
def validateConfig (env : Env) (payload : Bool) (c : Conf) : Out Conf :=
  if c.nat ["mode"] = 2 then .ok c
  else if payload then .fail (-eINVAL)
  else
    match c.text ["tal"] with
    | none => .fail (-eINVAL)
    | some tal =>
      if validFileOrDir env tal (!c.flag ["init-tals"]) = false then .fail (-eINVAL)
      else if c.flag ["init-tals"] then .ok c
      else if c.nat ["server", "interval", "expire"] < c.nat ["server", "interval", "refresh"]
          ∨ c.nat ["server", "interval", "expire"] < c.nat ["server", "interval", "retry"] then .fail (-eINVAL)
      else
        match c.text ["slurm"] with
        | none => .ok c
        | some slurm => if validFileOrDir env slurm true = false then .fail (-eINVAL) else .ok c

/-- What src/config.c:1109-1171 `handle_flags_config` does once the options were handled. -/
def finish (env : Env) (payload : Bool) (c : Conf) : Out Conf :=
  match validateConfig env payload c with
  | .ok c =>
    if c.flag ["init-tals"] ∨ c.flag ["init-as0-tals"] then
      let error := if c.flag ["init-tals"] then env.tals else 0
      let error := if error = 0 ∧ c.flag ["init-as0-tals"] then env.tal0s else error
      .exit error
    else if c.flag ["daemon"] then
      let c := (c.set ["log", "output"] (.word 0)).set ["validation-log", "output"] (.word 0)
      if env.daemonize = 0 then .ok c else .fail env.daemonize
    else .ok c
  | r => r

/-- src/config.c:1109-1171 `handle_flags_config` -/
def handleFlagsConfig (env : Env) (args : List (Nat × Option (List Byte))) (payload : Bool) : Out Conf :=
  match handleOpts env options args initial with
  | .ok c => finish env payload c
  | r => r

/-! ## What getopt is given -/

/-- src/config.c:836-842 `is_alphanumeric` -/
def isAlphanumeric (c : Nat) : Bool := (97 ≤ c && c ≤ 122) || (65 ≤ c && c ≤ 90) || (48 ≤ c && c ≤ 57)

/-- The number of long and short options: the first loop of src/config.c:848-893 `construct_getopt_options`. -/
def countOpts : List Opt → Nat × Nat
  | [] => (0, 0)
  | o :: os =>
    let (l, s) := countOpts os
    if o.getopt = false then (l, s)
    else (l + 1, if isAlphanumeric o.id then (if o.type.noArg then s + 1 else s + 2) else s)

/-- A write to a buffer; `none`: out of bounds. -/
def put {α : Type} (buf : List (Option α)) (i : Nat) (v : α) : Option (List (Option α)) :=
  if i < buf.length then some (buf.set i (some v)) else none

/-- The second loop of src/config.c:848-893 `construct_getopt_options`: positions, buffers. `none`: out of bounds. A long option is its name, whether it takes an
argument, and its number. -/
def fillOpts : List Opt → Nat → List (Option (Key × OptType × Nat)) → Nat → List (Option Nat) → Option (List (Option (Key × OptType × Nat)) × Nat × List (Option Nat))
  | [], _, long, j, short => some (long, j, short)
  | o :: os, i, long, j, short =>
    if o.getopt = false then fillOpts os i long j short
    else
      match put long i (o.name, o.type, o.id) with
      | none => none
      | some long =>
        if isAlphanumeric o.id then
          match put short j o.id with
          | none => none
          | some short =>
            if o.type.noArg then fillOpts os (i + 1) long (j + 1) short
            else
              match put short (j + 1) 58 with
              | none => none
              | some short => fillOpts os (i + 1) long (j + 2) short
        else fillOpts os (i + 1) long j short

/-- src/config.c:848-893 `construct_getopt_options`. A `none` in the long options is a row of zeros, of `pcalloc`; in the short ones, uninitialised. -/
def constructGetopt (table : List Opt) : Option (List (Option (Key × OptType × Nat)) × List (Option Nat)) :=
  let (l, s) := countOpts table
  match fillOpts table 0 (List.replicate (l + 1) none) 0 (List.replicate (s + 1) none) with
  | none => none
  | some (long, j, short) =>
    match put short j 0 with
    | none => none
    | some short => some (long, short)

/-! ## Exit status -/

/-- src/main.c:84-108 `convert_to_result`; `int` has 32 bits. -/
def convertToResult (error : BitVec 32) : BitVec 32 :=
  if error = 0 then 0
  else if error = BitVec.intMin 32 then 125
  else
    let error := if error.slt 0 then -error else error
    let error := error &&& 0x7F
    if error = 126 then 122
    else if error = 127 then 123
    else if error = 0 then 124
    else error

end Verif.Conf
