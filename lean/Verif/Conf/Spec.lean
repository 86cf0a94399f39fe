import Verif.Conf.Model
/-
Words the theorems on the configuration are stated with.
-/
namespace Verif.Conf
open Verif.Res (Byte)

/-- A decimal numeral and the number it stands for. -/
inductive Numeral : List Byte → Nat → Prop where
  | one (d : Nat) (h : d < 10) : Numeral [BitVec.ofNat 8 (48 + d)] d
  | snoc (s : List Byte) (n d : Nat) (hs : Numeral s n) (h : d < 10) : Numeral (s ++ [BitVec.ofNat 8 (48 + d)]) (10 * n + d)

/-- White space. -/
def Blank (s : List Byte) : Prop := ∀ b ∈ s, b = 0x20#8 ∨ b = 0x09#8 ∨ b = 0x0A#8 ∨ b = 0x0B#8 ∨ b = 0x0C#8 ∨ b = 0x0D#8

/-- Text accepted for a numeric option, and the number stored: a sign might precede the digits; if it's "-" the number is the complement of two. -/
def Accepted (str : List Byte) (n : Nat) : Prop :=
  ∃ ws sign ds v, str = ws ++ sign ++ ds ∧ Blank ws ∧ Numeral ds v ∧ v < 2 ^ 64 ∧
    (((sign = [] ∨ sign = [0x2B#8]) ∧ n = v) ∨ (sign = [0x2D#8] ∧ n = (2 ^ 64 - v) % 2 ^ 64))

/-- Ranges of the numeric options, from the documentation (docs/usage.md). -/
def documented : List (Key × Nat × Nat) := [
  (["maximum-certificate-depth"], 5, 4294967294),
  (["server", "backlog"], 1, 4096),
  (["server", "interval", "validation"], 60, 4294967295),
  (["server", "interval", "refresh"], 1, 86400),
  (["server", "interval", "retry"], 1, 7200),
  (["server", "interval", "expire"], 600, 172800),
  (["server", "deltas", "lifetime"], 0, 4294967295),
  (["http", "priority"], 0, 100),
  (["http", "retry", "count"], 0, 4294967295),
  (["http", "retry", "interval"], 0, 4294967295),
  (["http", "max-redirs"], 0, 4294967295),
  (["http", "connect-timeout"], 1, 4294967295),
  (["http", "transfer-timeout"], 0, 4294967295),
  (["http", "low-speed-limit"], 0, 4294967295),
  (["http", "low-speed-time"], 0, 4294967295),
  (["http", "max-file-size"], 0, 2000000000),
  (["asn1-decode-max-stack"], 1, 4294967295),
  (["thread-pool", "server", "max"], 1, 4294967295),
  (["rsync", "priority"], 0, 100),
  (["rsync", "retry", "count"], 0, 4294967295),
  (["rsync", "retry", "interval"], 0, 4294967295),
  (["rsync", "transfer-timeout"], 0, 4294967295),
  (["stale-repository-period"], 0, 4294967295)]

/-- Default values, as the documentation (docs/usage.md) writes them: words by their names. -/
inductive Doc where
  | num (n : Nat)
  | flag (b : Bool)
  | text (s : String)
  | null
  | list (l : List String)
  | word (w : String)

/-- docs/usage.md, "Default". (`server.backlog`: Linux's SOMAXCONN. `http.user-agent` isn't here because it's the version.) -/
def documentedDefaults : List (Key × Doc) := [
  (["local-repository"], .text "/tmp/fort/repository"),
  (["work-offline"], .flag false),
  (["daemon"], .flag false),
  (["maximum-certificate-depth"], .num 32),
  (["mode"], .word "server"),
  (["server", "address"], .list ["::"]),
  (["server", "port"], .text "323"),
  (["server", "backlog"], .num 4096),
  (["server", "interval", "validation"], .num 3600),
  (["server", "interval", "refresh"], .num 3600),
  (["server", "interval", "retry"], .num 600),
  (["server", "interval", "expire"], .num 7200),
  (["server", "deltas", "lifetime"], .num 2),
  (["slurm"], .null),
  (["log", "enabled"], .flag true),
  (["log", "level"], .word "warning"),
  (["log", "output"], .word "console"),
  (["log", "color-output"], .flag false),
  (["log", "file-name-format"], .word "global-url"),
  (["log", "facility"], .word "daemon"),
  (["log", "tag"], .null),
  (["validation-log", "enabled"], .flag false),
  (["validation-log", "level"], .word "warning"),
  (["validation-log", "output"], .word "console"),
  (["validation-log", "color-output"], .flag false),
  (["validation-log", "file-name-format"], .word "global-url"),
  (["validation-log", "facility"], .word "daemon"),
  (["validation-log", "tag"], .text "Validation"),
  (["http", "enabled"], .flag true),
  (["http", "priority"], .num 60),
  (["http", "retry", "count"], .num 1),
  (["http", "retry", "interval"], .num 4),
  (["http", "max-redirs"], .num 10),
  (["http", "connect-timeout"], .num 30),
  (["http", "transfer-timeout"], .num 900),
  (["http", "low-speed-limit"], .num 100000),
  (["http", "low-speed-time"], .num 10),
  (["http", "max-file-size"], .num 1000000000),
  (["http", "ca-path"], .null),
  (["output", "roa"], .null),
  (["output", "bgpsec"], .null),
  (["output", "format"], .word "csv"),
  (["asn1-decode-max-stack"], .num 4096),
  (["thread-pool", "server", "max"], .num 20),
  (["rsync", "enabled"], .flag true),
  (["rsync", "priority"], .num 50),
  (["rsync", "retry", "count"], .num 1),
  (["rsync", "retry", "interval"], .num 4),
  (["rsync", "transfer-timeout"], .num 900),
  (["rsync", "program"], .text "rsync"),
  (["rsync", "arguments-recursive"], .list ["-rtz", "--delete", "--omit-dir-times", "--contimeout=20", "--max-size=20MB", "--timeout=15", "--include=*/",
    "--include=*.cer", "--include=*.crl", "--include=*.gbr", "--include=*.mft", "--include=*.roa", "--exclude=*", "$REMOTE", "$LOCAL"])]

/-- The value a documented default is, for the option `o`. -/
def Doc.value (o : Opt) : Doc → Option Val
  | .num n => some (.uint n)
  | .flag b => some (.bool b)
  | .text s => some (.str (some (lit s)))
  | .null => some (.str none)
  | .list l => some (.strs (l.map lit))
  | .word w =>
    match o.type with
    | .words ws => (ws.lookup (lit w)).map .word
    | _ => none

/-- docs/incidence.md: names and default actions. -/
def documentedIncidences : List (String × Action) := [
  ("incid-hashalg-has-params", .ignore),
  ("incid-obj-not-der-encoded", .ignore),
  ("incid-file-at-mft-not-found", .error),
  ("incid-file-at-mft-hash-not-match", .error),
  ("incid-mft-stale", .error),
  ("incid-crl-stale", .error)]

/-- Where an option's setting comes from: an argument of the command line, or a value of a configuration file. -/
inductive Setting where
  | argv (arg : Option (List Byte))
  | json (value : Slurm.Json)

/-- What `getopt_long` promises: the options it returns are those it was given (or `?`, 63), and those that require an argument have it. -/
def FromGetopt (args : List (Nat × Option (List Byte))) : Prop :=
  ∀ a ∈ args, (a.1 = 63 ∨ ∃ o ∈ options, o.getopt = true ∧ o.id = a.1) ∧
    ∀ o ∈ options, o.getopt = true → o.id = a.1 → o.type.requiresArg = true → a.2 ≠ none

/-- The settings a command line is, in order, files included: name of the option, and setting. -/
def settings (env : Env) : List (Nat × Option (List Byte)) → List (Opt × Setting)
  | [] => []
  | (id, arg) :: args =>
    (match options.find? (fun o => o.getopt && o.id == id) with
      | none => []
      | some o =>
        if o.handler = .none then [(o, .argv arg)]
        else
          match arg.bind env.load with
          | none => []
          | some root => options.filterMap (fun o => if o.json then (findJson root o.name).map (fun j => (o, .json j)) else none)) ++
    settings env args

/-- The text between separators, without the empty ones. -/
def fieldsOf (sep : Byte) (s : List Byte) : List (List Byte) := (s.splitOnP (· == sep)).filter (· ≠ [])

/-- The setting is the boolean `b`: an option without argument, or with an empty one, is true. -/
def MeansBool (s : Setting) (b : Bool) : Prop :=
  match s with
  | .argv none => b = true
  | .argv (some t) => (b = true ∧ (t = [] ∨ t = lit "true")) ∨ (b = false ∧ t = lit "false")
  | .json j => j = .bool b

/-- The setting is the text `t`. -/
def MeansText (s : Setting) (t : List Byte) : Prop :=
  match s with
  | .argv a => a = some t
  | .json j => j = .str t

/-- The setting is the value `v` for the option `o`. -/
def Means (o : Opt) (s : Setting) (v : Val) : Prop :=
  match o.type with
  | .uint => ∃ n, v = .uint n ∧ o.min ≤ n ∧ n ≤ o.max ∧
      match s with
      | .argv a => ∃ t, a = some t ∧ Accepted t n
      | .json j => j = .int n
  | .bool => ∃ b, v = .bool b ∧ MeansBool s b
  | .offline => ∃ b, v = .bool b ∧ MeansBool s b
  | .string => (∃ t, v = .str (some t) ∧ t ≠ [] ∧ MeansText s t) ∨ (v = .str none ∧ o.nullOk = true ∧ s = .json .null)
  | .strings => ∃ l, v = .strs l ∧ (o.max = 0 ∨ l.length ≤ o.max) ∧
      match s with
      | .argv a => ∃ t, a = some t ∧ l = fieldsOf 0x2C#8 t
      | .json j => j = .arr (l.map .str)
  | .words ws => ∃ t n, v = .word n ∧ (t, n) ∈ ws ∧ MeansText s t
  | .incidences => False
  | .callback => False

/-- Fields an option writes: its own; `work-offline` also enables or disables the protocols. -/
def Writes (o : Opt) (k : Key) : Prop := o.name = k ∨ (o.type = .offline ∧ (k = ["rsync", "enabled"] ∨ k = ["http", "enabled"]))

end Verif.Conf
