import Verif.Heap.Basic
/-
What the configuration does with memory: src/config.c, src/json_handler.c, src/config/str.c and src/config/string_array.c. Of the options only those that have
memory are modelled, strings and lists of strings; of their texts, what matters for it. What they mean is in Verif/Conf.
-/
namespace Verif.Cmem
open Verif.Heap

/-- A pointer; `none` is NULL. -/
abbrev Ptr := Option Id

/-- `free` -/
def freeP : Ptr → HM Unit
  | none => pure ()
  | some i => free i

/-- Nobody has this pointer any more. The program does nothing. -/
def loseP : Ptr → HM Unit
  | none => pure ()
  | some i => lose i

/-- The value of an option: a string, src/config/str.c, or a list of strings (`struct string_array`): the array and its strings, src/config/string_array.c. -/
inductive Val where
  | str (p : Ptr)
  | arr (p : Ptr) (l : List Id)
  deriving DecidableEq, Repr

/-- What the default of an option is: no string, a string, some strings. src/config.c:915-1014 `set_default_values` -/
inductive Dflt where
  | null
  | string
  | strings (n : Nat)
  deriving DecidableEq, Repr

/-- An option with memory, src/config.c:226-790 `options`: the default, whether null is allowed, and the most elements (0: any number). -/
structure Opt where
  dflt : Dflt
  nullAllowed : Bool
  max : Nat
  deriving DecidableEq, Repr

/-- What the command line says of an option: whether it's empty, and how many tokens it has. -/
structure Text where
  empty : Bool
  tokens : Nat
  deriving DecidableEq, Repr

/-- What a file says of an option. -/
inductive Json where
  | null
  | string (empty : Bool)
  | array (n : Nat) (allStrings : Bool)
  | other
  deriving DecidableEq, Repr

/-- What's in the command line. -/
inductive Arg where
  /-- a string, or a list, for the option with this number -/
  | opt (i : Nat) (t : Text)
  /-- some other option, and whether it's accepted -/
  | other (ok : Bool)
  /-- A configuration file: `none` if it can't be read or isn't JSON; otherwise what it says, in the order of the options, of those that have memory
  (`some`), and whether the others are accepted. -/
  | file (f : Option (List (Option (Nat × Json) × Bool)))
  deriving DecidableEq, Repr

/-- The configuration: the options with memory, in order. -/
abbrev Cfg := List Val

/-- `n` times src/alloc.c:52-62 `pstrdup`, or src/str_token.c:120-125 `token_read`. -/
def dups : Nat → HM (List Id)
  | 0 => pure []
  | n + 1 => do
    let x ← new
    let l ← dups n
    return x :: l

/-- src/config/str.c:10-15 `__string_free`, src/config/string_array.c:28-39 `__string_array_free`. The value afterwards. -/
def freeVal : Val → HM Val
  | .str p => do
    freeP p
    return .str none
  | .arr p l => do
    freeAll l
    freeP p
    return .arr none []

/-- src/config/str.c:23-38 `string_parse_argv` -/
def strArgv (v : Val) (empty : Bool) : HM (Bool × Val) := do
  if empty then return (false, v)
  let _ ← freeVal v
  let x ← new
  return (true, .str (some x))

/-- src/config/str.c:40-65 `string_parse_json` -/
def strJson (o : Opt) (v : Val) (j : Json) : HM (Bool × Val) :=
  match j with
  | .null =>
    if o.nullAllowed then do
      match v with
      | .str p => loseP p
      | .arr _ _ => pure ()
      return (true, .str none)
    else return (false, v)
  | .string empty => strArgv v empty
  | .array _ _ => return (false, v)
  | .other => return (false, v)

/-- src/config/string_array.c:112-139 `string_array_parse_argv` -/
def arrArgv (o : Opt) (v : Val) (tokens : Nat) : HM (Bool × Val) := do
  let v ← freeVal v
  if o.max > 0 ∧ tokens > o.max then return (false, v)
  let a ← new
  let l ← dups tokens
  return (true, .arr (some a) l)

/-- src/config/string_array.c:55-110 `string_array_parse_json` -/
def arrJson (o : Opt) (v : Val) (j : Json) : HM (Bool × Val) :=
  match j with
  | .array n allStrings =>
    if n = 0 then do
      let v ← freeVal v
      return (true, v)
    else if o.max > 0 ∧ n > o.max then return (false, v)
    else if allStrings then do
      let _ ← freeVal v
      let a ← new
      let l ← dups n
      return (true, .arr (some a) l)
    else return (false, v)
  | .null => return (false, v)
  | .string _ => return (false, v)
  | .other => return (false, v)

/-- `type->parse.argv` of the option's type: src/config.c:1087-1107 `handle_opt`. -/
def parseArgv (o : Opt) (v : Val) (t : Text) : HM (Bool × Val) :=
  match v with
  | .str p => strArgv (.str p) t.empty
  | .arr p l => arrArgv o (.arr p l) t.tokens

/-- `type->parse.json` of the option's type: src/json_handler.c:34-53 `json_to_config`. -/
def parseJson (o : Opt) (v : Val) (j : Json) : HM (Bool × Val) :=
  match v with
  | .str p => strJson o (.str p) j
  | .arr p l => arrJson o (.arr p l) j

/-- Do something to the option with number `i`. (There are no others: then there's an error, and nothing happens.) -/
def update (os : List Opt) (cfg : Cfg) (i : Nat) (k : Opt → Val → HM (Bool × Val)) : HM (Bool × Cfg) :=
  match os[i]?, cfg[i]? with
  | some o, some v => do
    let r ← k o v
    return (r.1, cfg.set i r.2)
  | _, _ => return (false, cfg)

/-- src/json_handler.c:34-53 `json_to_config`: the options that the file has. Lines 9-32 `find_json` copy an option's name, and release the copy. -/
def jsonToConfig (os : List Opt) : Cfg → List (Option (Nat × Json) × Bool) → HM (Bool × Cfg)
  | cfg, [] => return (true, cfg)
  | cfg, (some (i, j), _) :: l => do
    let name ← new
    use name
    free name
    let r ← update os cfg i fun o v => parseJson o v j
    if r.1 then jsonToConfig os r.2 l else return (false, r.2)
  | cfg, (none, ok) :: l => do
    let name ← new
    use name
    free name
    if ok then jsonToConfig os cfg l else return (false, cfg)

/-- src/json_handler.c:55-73 `set_config_from_file`. The document is one object. -/
def setFromFile (os : List Opt) (cfg : Cfg) : Option (List (Option (Nat × Json) × Bool)) → HM (Bool × Cfg)
  | none => return (false, cfg)
  | some l => do
    let root ← new
    let r ← jsonToConfig os cfg l
    free root
    return r

/-- The loop of src/config.c:1109-1171 `handle_flags_config`, and lines 1087-1107 `handle_opt`. -/
def handleArgs (os : List Opt) : Cfg → List Arg → HM (Bool × Cfg)
  | cfg, [] => return (true, cfg)
  | cfg, .opt i t :: l => do
    let r ← update os cfg i fun o v => parseArgv o v t
    if r.1 then handleArgs os r.2 l else return (false, r.2)
  | cfg, .other ok :: l => if ok then handleArgs os cfg l else return (false, cfg)
  | cfg, .file f :: l => do
    let r ← setFromFile os cfg f
    if r.1 then handleArgs os r.2 l else return (false, r.2)

/-- The default of one option: src/config.c:915-1014 `set_default_values`, src/config/string_array.c:10-26 `string_array_init`. -/
def setDefault : Dflt → HM Val
  | .null => return .str none
  | .string => do
    let x ← new
    return .str (some x)
  | .strings n =>
    if n = 0 then return .arr none [] else do
      let a ← new
      let l ← dups n
      return .arr (some a) l

/-- src/config.c:915-1014 `set_default_values` -/
def setDefaults : List Opt → HM Cfg
  | [] => pure []
  | o :: os => do
    let v ← setDefault o.dflt
    let cfg ← setDefaults os
    return v :: cfg

/-- The payload is copied: src/config.c:1109-1171 `handle_flags_config`, lines 1130-1131. -/
def getPayload (has : Bool) : HM Ptr := do
  if has then
    let x ← new
    return some x
  else return none

/-- The objects of a value. -/
def Val.objs : Val → List Id
  | .str p => p.toList
  | .arr p l => l ++ p.toList

/-- src/config.c:1510-1519 `free_rpki_config` -/
def freeConfig : Cfg → Ptr → HM Unit
  | [], payload => freeP payload
  | v :: cfg, payload => do
    let _ ← freeVal v
    freeConfig cfg payload

/-- What reads all of the configuration: src/config.c:895-913 `print_config`, and the rest of the program. -/
def readConfig (cfg : Cfg) (payload : Ptr) : HM Unit := do
  useAll (cfg.flatMap Val.objs)
  useAll payload.toList

/-- src/config.c:1109-1171 `handle_flags_config`, without --init-tals and --init-as0-tals; whether there is a payload, and whether lines 1017-1043 `validate_config`
and src/daemon.c:25-108 `daemonize` succeed. `none` if there's an error. -/
def handleFlags (os : List Opt) (args : List Arg) (hasPayload valid : Bool) : HM (Option (Cfg × Ptr)) := do
  let cfg ← setDefaults os
  let long ← new
  let short ← new
  useAll [long, short]
  let r ← handleArgs os cfg args
  if r.1 = false then
    freeConfig r.2 none
    freeAll [long, short]
    return none
  else
    let payload ← getPayload hasPayload
    useAll (r.2.flatMap Val.objs)
    if valid then
      readConfig r.2 payload
      freeAll [long, short]
      return some (r.2, payload)
    else
      freeConfig r.2 payload
      freeAll [long, short]
      return none

/-- src/main.c:110-176 `main`: the configuration is read in between, as often as one likes, and released at the end. -/
def program (os : List Opt) (args : List Arg) (hasPayload valid : Bool) (times : Nat) : HM Unit := do
  match ← handleFlags os args hasPayload valid with
  | none => pure ()
  | some c => do
    useAll (List.replicate times (c.1.flatMap Val.objs)).flatten
    freeConfig c.1 c.2

/-- The options, in the order of the table, src/config.c:226-790 `options`: tal, local-repository, slurm, server.address, server.port, rsync.strategy, rsync.program,
rsync.arguments-recursive, rsync.arguments-flat, http.user-agent, http.ca-path, log.tag, validation-log.tag, output.roa, output.bgpsec; on Linux. -/
def options : List Opt :=
  [⟨.null, false, 0⟩, ⟨.string, false, 0⟩, ⟨.null, true, 0⟩, ⟨.strings 1, false, 50⟩, ⟨.string, false, 0⟩, ⟨.string, true, 0⟩, ⟨.string, false, 0⟩,
   ⟨.strings 15, false, 0⟩, ⟨.strings 1, false, 0⟩, ⟨.string, false, 0⟩, ⟨.null, false, 0⟩, ⟨.null, true, 0⟩, ⟨.string, true, 0⟩, ⟨.null, true, 0⟩, ⟨.null, true, 0⟩]

end Verif.Cmem
