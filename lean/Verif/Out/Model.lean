import Verif.Rtr.Model
import Verif.B64.Model
/-
The files with the validated payloads: src/output_printer.c, the file functions of src/file.c that it uses, and where src/rtr/db/vrps.c calls it.

The printer yields the calls to stdio, in order. What they do to the disk is in `Verif.Out.Spec`: streams have buffers, writes can fail, and the program can die at any point.
`inet_ntop` and libcrypto's base64 encoder are parameters. Families other than AF_INET and AF_INET6 (`pr_crit`) cannot be represented (see `Verif.Rtr.Fam`).
-/
namespace Verif.Out
open Verif.Rtr (Fam Vrp RouterKey Table Byte State)
open Verif.Tal (Res Str)

/-- Text. -/
abbrev Text := List Char

/-- A literal. -/
def lit (s : String) : Text := s.toList

/-- `%u` -/
def dec (n : Nat) : Text := Nat.toDigits 10 n

/-- `enum output_format` (src/output_printer.h, src/config/output_format.h). -/
inductive Format where
  | csv
  | json
  deriving DecidableEq, Repr

/-- The streams of stdio that are used. -/
inductive Dst where
  | stdout
  | file (name : Text)
  deriving DecidableEq, Repr

/-- Calls to stdio. `fopen` is one that succeeds, with mode "w". -/
inductive Call where
  | fopen (name : Text)
  | fprintf (dst : Dst) (text : Text)
  | fclose (dst : Dst)
  deriving DecidableEq, Repr

/-- src/output_printer.c:13-25 `load_output_file`, and src/file.c:41-58 `file_write`. `opens`: whether `fopen` succeeds. -/
def loadOutputFile (filename : Option Text) (opens : Bool) : Option Dst × List Call :=
  match filename with
  | none => (none, [])
  | some name =>
    if name = lit "-" then (some .stdout, [])
    else if opens then (some (.file name), [.fopen name])
    else (none, [])

/-- What's asked of the system and of libcrypto: `inet_ntop`, and the encoder of `base64url_encode` for each key: `none` if it can't allocate; else the text and what's after it in memory. -/
structure Env where
  ntop : Fam → BitVec 128 → Text
  skiBio : RouterKey → Option (List Byte × List Byte)
  spkBio : RouterKey → Option (List Byte × List Byte)

/-- src/output_printer.c:27-40 `print_roa_csv` -/
def roaCsv (e : Env) (v : Vrp) : Text :=
  lit "AS" ++ dec v.asn.toNat ++ lit "," ++ e.ntop v.fam v.prefix_ ++ lit "/" ++ dec v.len.toNat ++ lit "," ++ dec v.maxLen.toNat ++ lit "\n"

/-- src/output_printer.c:42-65 `print_roa_json`, after the comma. -/
def roaJson (e : Env) (v : Vrp) : Text :=
  lit "\n  { \"asn\": \"AS" ++ dec v.asn.toNat ++ lit "\", \"prefix\": \"" ++ e.ntop v.fam v.prefix_ ++ lit "/" ++ dec v.len.toNat ++
    lit "\", \"maxLength\": " ++ dec v.maxLen.toNat ++ lit " }"

/-- The characters of base64. -/
def chars (s : Str) : Text := s.map (fun b => Char.ofNat b.toNat)

/-- The calls to `base64url_encode` of src/output_printer.c:68-89 `print_router_key_csv` and src/output_printer.c:92-124 `print_router_key_json`: `none` if the key is skipped. -/
def encodeKey (e : Env) (k : RouterKey) : Res (Option (Text × Text)) :=
  match e.skiBio k with
  | none => .ok none
  | some (t1, a1) =>
    match Verif.B64.toBase64url t1 a1 with
    | .ub => .ub
    | .ok s1 =>
      match e.spkBio k with
      | none => .ok none
      | some (t2, a2) =>
        match Verif.B64.toBase64url t2 a2 with
        | .ub => .ub
        | .ok s2 => .ok (some (chars s1, chars s2))

/-- src/output_printer.c:68-89 `print_router_key_csv`, of a key that's been encoded. -/
def keyCsv (k : RouterKey) (s : Text × Text) : Text := lit "AS" ++ dec k.as.toNat ++ lit "," ++ s.1 ++ lit "," ++ s.2 ++ lit "\n"

/-- src/output_printer.c:92-124 `print_router_key_json`, of a key that's been encoded, after the comma. -/
def keyJson (k : RouterKey) (s : Text × Text) : Text :=
  lit "\n  { \"asn\": \"AS" ++ dec k.as.toNat ++ lit "\", \"ski\": \"" ++ s.1 ++ lit "\", \"spki\": \"" ++ s.2 ++ lit "\" }"

/-- src/rtr/db/db_table.c:123-136 `db_table_foreach_roa`, with src/output_printer.c:27-40 `print_roa_csv`. -/
def roasCsv (e : Env) (out : Dst) : List Vrp → List Call
  | [] => []
  | v :: vs => .fprintf out (roaCsv e v) :: roasCsv e out vs

/-- src/rtr/db/db_table.c:123-136 `db_table_foreach_roa`, with src/output_printer.c:42-65 `print_roa_json`. -/
def roasJson (e : Env) (out : Dst) (first : Bool) : List Vrp → List Call
  | [] => []
  | v :: vs => (if !first then [.fprintf out (lit ",")] else []) ++ .fprintf out (roaJson e v) :: roasJson e out false vs

/-- src/rtr/db/db_table.c:138-152 `db_table_foreach_router_key`, with src/output_printer.c:68-89 `print_router_key_csv`. -/
def keysCsv (e : Env) (out : Dst) : List RouterKey → Res (List Call)
  | [] => .ok []
  | k :: ks =>
    match encodeKey e k with
    | .ub => .ub
    | .ok none => keysCsv e out ks
    | .ok (some s) =>
      match keysCsv e out ks with
      | .ub => .ub
      | .ok cs => .ok (.fprintf out (keyCsv k s) :: cs)

/-- src/rtr/db/db_table.c:138-152 `db_table_foreach_router_key`, with src/output_printer.c:92-124 `print_router_key_json`. -/
def keysJson (e : Env) (out : Dst) (first : Bool) : List RouterKey → Res (List Call)
  | [] => .ok []
  | k :: ks =>
    match encodeKey e k with
    | .ub => .ub
    | .ok none => keysJson e out first ks
    | .ok (some s) =>
      match keysJson e out false ks with
      | .ub => .ub
      | .ok cs => .ok ((if !first then [.fprintf out (lit ",")] else []) ++ .fprintf out (keyJson k s) :: cs)

/-- The end of src/output_printer.c:126-154 `print_roas` and src/output_printer.c:156-184 `print_router_keys`, with src/file.c:60-65 `file_close`. -/
def closeOutput (out : Dst) : List Call := if out ≠ .stdout then [.fclose out] else []

/-- src/output_printer.c:126-154 `print_roas` -/
def printRoas (e : Env) (filename : Option Text) (format : Format) (opens : Bool) (db : Table) : List Call :=
  match loadOutputFile filename opens with
  | (none, cs) => cs
  | (some out, cs) =>
    match format with
    | .csv => cs ++ .fprintf out (lit "ASN,Prefix,Max prefix length\n") :: roasCsv e out db.roas ++ closeOutput out
    | .json => cs ++ .fprintf out (lit "{ \"roas\" : [") :: roasJson e out true db.roas ++ .fprintf out (lit "\n]}\n") :: closeOutput out

/-- src/output_printer.c:156-184 `print_router_keys` -/
def printRouterKeys (e : Env) (filename : Option Text) (format : Format) (opens : Bool) (db : Table) : Res (List Call) :=
  match loadOutputFile filename opens with
  | (none, cs) => .ok cs
  | (some out, cs) =>
    match format with
    | .csv =>
      match keysCsv e out db.keys with
      | .ub => .ub
      | .ok ks => .ok (cs ++ .fprintf out (lit "ASN,Subject Key Identifier,Subject Public Key Info\n") :: ks ++ closeOutput out)
    | .json =>
      match keysJson e out true db.keys with
      | .ub => .ub
      | .ok ks => .ok (cs ++ .fprintf out (lit "{ \"router-keys\" : [") :: ks ++ .fprintf out (lit "\n]}\n") :: closeOutput out)

/-- The configuration (`output.roa`, `output.bgpsec`, `output.format`), and whether the files can be opened. -/
structure Conf where
  roa : Option Text
  bgpsec : Option Text
  format : Format
  opensRoa : Bool
  opensBgpsec : Bool

/-- src/output_printer.c:186-191 `output_print_data` -/
def outputPrintData (e : Env) (c : Conf) (db : Table) : Res (List Call) :=
  match printRouterKeys e c.bgpsec c.format c.opensBgpsec db with
  | .ub => .ub
  | .ok ks => .ok (printRoas e c.roa c.format c.opensRoa db ++ ks)

/-- src/rtr/db/vrps.c:180-238 `__vrps_update`, with what's printed (see `Verif.Rtr.State.update`). -/
def updateAndPrint (e : Env) (c : Conf) (st : State) (result : Option Table) : Res (List Call) × State × Verif.Rtr.UpdateOut :=
  match result with
  | none => (.ok [], st.update none)
  | some new => (outputPrintData e c new, st.update (some new))

end Verif.Out
