import Verif.Conf.Model
/-
What the program says about its configuration: src/config.c, `print_config`, and the `print` functions of src/config/ and src/incidence/incidence.c.
-/
namespace Verif.Conf
open Verif.Res (Byte)

/-- A message. -/
abbrev Text := List Byte

/-- What a `%s` whose argument is NULL writes: `none` if that's undefined behaviour (C11, 7.21.6.1), `some "(null)"` in glibc. -/
abbrev Null := Option Text

/-- `%s` -/
def str (null : Null) : Option Text → Option Text
  | some s => some s
  | none => null

/-- `%u` -/
def decDigits : Nat → Nat → Text
  | 0, n => [BitVec.ofNat 8 (48 + n % 10)]
  | f + 1, n => if n < 10 then [BitVec.ofNat 8 (48 + n)] else decDigits f (n / 10) ++ [BitVec.ofNat 8 (48 + n % 10)]

/-- `field->name`: the options' names have dots. -/
def nameOf : Key → Text
  | [] => []
  | [s] => lit s
  | s :: k => lit s ++ lit "." ++ nameOf k

/-- src/config/mode.c:14-32 `print_mode` -/
def printMode : Nat → Option Text
  | 0 => some (lit "server")
  | 1 => some (lit "standalone")
  | 2 => some (lit "print")
  | _ => some (lit "<unknown>")

/-- src/config/log_conf.c:69-84 `print_log_output` -/
def printOutput : Nat → Option Text
  | 0 => some (lit "syslog")
  | 1 => some (lit "console")
  | _ => some (lit "<unknown>")

/-- src/config/log_conf.c:46-67 `print_log_level` -/
def printLevel : Nat → Option Text
  | 3 => some (lit "error")
  | 4 => some (lit "warning")
  | 6 => some (lit "info")
  | 7 => some (lit "debug")
  | _ => some (lit "<unknown>")

/-- src/config/log_conf.c:86-149 `print_log_facility`; numbers of syslog.h. -/
def printFacility (n : Nat) : Option Text :=
  some <| if n = 1 * 8 then lit "user" else if n = 2 * 8 then lit "mail" else if n = 3 * 8 then lit "daemon" else if n = 4 * 8 then lit "auth"
    else if n = 6 * 8 then lit "lpr" else if n = 7 * 8 then lit "news" else if n = 8 * 8 then lit "uucp" else if n = 9 * 8 then lit "cron"
    else if n = 10 * 8 then lit "authpriv" else if n = 11 * 8 then lit "ftp" else if n = 16 * 8 then lit "local0" else if n = 17 * 8 then lit "local1"
    else if n = 18 * 8 then lit "local2" else if n = 19 * 8 then lit "local3" else if n = 20 * 8 then lit "local4" else if n = 21 * 8 then lit "local5"
    else if n = 22 * 8 then lit "local6" else if n = 23 * 8 then lit "local7" else lit "<unknown>"

/-- src/config/filename_format.c:14-32 `print_filename_format` -/
def printFilenameFormat : Nat → Option Text
  | 0 => some (lit "global-url")
  | 1 => some (lit "local-path")
  | 2 => some (lit "file-name")
  | _ => some (lit "<unknown>")

/-- src/config/output_format.c:13-28 `print_output_format` -/
def printOutputFormat : Nat → Option Text
  | 0 => some (lit "csv")
  | 1 => some (lit "json")
  | _ => some (lit "<unknown>")

/-- src/config/file_type.c:16-42 `print_file_type`: NULL for `FT_UNK`. -/
def printFileType : Nat → Option Text
  | 1 => some (lit "roa")
  | 2 => some (lit "mft")
  | 3 => some (lit "gbr")
  | 4 => some (lit "cer")
  | 5 => some (lit "crl")
  | _ => none

/-- The `print` of the seven types whose values are words; the types are told apart by their words. -/
def printWord (ws : List (List Byte × Nat)) : Nat → Option Text :=
  if ws = modeWords then printMode else if ws = outputWords then printOutput else if ws = levelWords then printLevel else if ws = facilityWords then printFacility
  else if ws = formatWords then printFilenameFormat else if ws = ofmWords then printOutputFormat else printFileType

/-- src/incidence/incidence.c:72-85 `action2str` -/
def action2str : Action → Text
  | .ignore => lit "ignore"
  | .warn => lit "warn"
  | .error => lit "error"

/-- The `description` of each incidence: src/incidence/incidence.c:18-55. -/
def descriptions : List Text :=
  [lit "Signed Object's hash algorithm has NULL object as parameters",
   lit "Object isn't DER encoded",
   lit "File listed at manifest doesn't exist",
   lit "File hash listed at manifest doesn't match the actual file hash",
   lit "The current time is after the nextUpdate field at the manifest",
   lit "The current time is after the nextUpdate field at the CRL"]

/-- src/incidence/incidence.c:166-178 `incidence_print` -/
def incidencePrint (c : Conf) : List Text :=
  lit "Custom incidences:" ::
    (List.range 6).map fun i => lit "  " ++ ((incidenceTable[i]?).map (·.1)).getD [] ++ lit " (" ++ (descriptions[i]?).getD [] ++ lit "): " ++ action2str (c.incid i)

/-- `pr_op_info("%s: %s", …)`, of one message. -/
def line (null : Null) (o : Opt) (v : Option Text) : Option (List Text) := (str null v).map fun v => [nameOf o.name ++ lit ": " ++ v]

/-- `opt->type->print(opt, get_rpki_config_field(opt))`: the messages; `none`: undefined behaviour. src/config/uint.c:8-12 `print_uint`, src/config/boolean.c:9-13
`print_bool`, src/config/str.c:17-21 `string_print`, src/config/string_array.c:41-53 `string_array_print`, src/config/incidences.c:5-9 `incidences_print`. The callbacks have no `print`. -/
def printField (null : Null) (c : Conf) (o : Opt) : Option (List Text) :=
  match o.type with
  | .uint => line null o (some (decDigits (c.nat o.name) (c.nat o.name)))
  | .bool => line null o (some (if c.flag o.name then lit "true" else lit "false"))
  | .offline => line null o (some (if c.flag o.name then lit "true" else lit "false"))
  | .string => line null o (c.text o.name)
  | .strings =>
    match c.field o.name with
    | .strs l => some ((nameOf o.name ++ lit ":") :: if l.length = 0 then [lit "  <Nothing>"] else l.map (lit "  " ++ ·))
    | _ => none
  | .words ws => line null o (printWord ws (c.nat o.name))
  | .incidences => some (incidencePrint c)
  | .callback => some []

/-- The loop of src/config.c:895-913 `print_config`. -/
def printFields (null : Null) (c : Conf) : List Opt → Option (List Text)
  | [] => some []
  | o :: os =>
    if o.handler = .none then
      match printField null c o with
      | none => none
      | some l => (printFields null c os).map (l ++ ·)
    else printFields null c os

/-- src/config.c:895-913 `print_config`, after the versions: what's in the log. `pr_op_info` does nothing if the operation log is disabled, or its level is lower than
`LOG_INFO` (src/log.c:486-490 `pr_op_info`; where the log goes is in Verif/Log/Model.lean). -/
def printConfig (null : Null) (c : Conf) : Option (List Text) :=
  if c.flag ["log", "enabled"] ∧ 6 ≤ c.nat ["log", "level"] then (printFields null c options).map fun l => lit "Configuration {" :: l ++ [lit "}"] else some []

end Verif.Conf
