import Verif.Slurm.ModelDb
/-
Model of the SLURM file parser and loader.
Files modelled: src/slurm/slurm_parser.c, src/slurm/slurm_loader.c, the getters of src/json_util.c,
`base64url_decode` of src/crypto/base64.c, the text parsers of src/types/address.c.
The JSON reader (jansson), inet_pton, the base64 BIO and the SPKI decoder (libcrypto) are parameters.
-/
namespace Verif.Slurm
open Verif.Res (Byte In6 u32SuffixMask ipv6SuffixMask bitwiseAnd)
open Verif.Rtr (Fam Vrp RouterKey Table)

/-- A JSON value, as jansson represents it. Strings have no NUL (jansson rejects them by default). -/
inductive Json where
  | null
  | bool (b : Bool)
  | int (i : Int)
  | real
  | str (s : List Byte)
  | arr (l : List Json)
  | obj (m : List (String × Json))

/-- The libraries: `inet_pton` for the two families, the base64 decoder, and the check of a
SubjectPublicKeyInfo (src/slurm/slurm_parser.c:261-291 `validate_router_spki`, all libcrypto). -/
structure Env where
  pton4 : List Byte → Option (BitVec 32)
  pton6 : List Byte → Option (BitVec 128)
  b64 : List Byte → Option (List Byte)
  spkiOk : List Byte → Bool

/-- src/json_util.c:16-32 `json_get_str`: `none` is ENOENT. -/
def getStr (o : List (String × Json)) (k : String) : Out (Option (List Byte)) :=
  match o.lookup k with
  | none => .ok none
  | some (.str s) => .ok (some s)
  | some _ => .err false

/-- src/json_util.c:90-108 `json_get_u32`, with src/json_util.c:52-68 `json_get_int_t`. -/
def getU32 (o : List (String × Json)) (k : String) : Out (Option (BitVec 32)) :=
  match o.lookup k with
  | none => .ok none
  | some (.int i) => if i < 0 ∨ 4294967295 < i then .err false else .ok (some (BitVec.ofInt 32 i))
  | some _ => .err false

/-- src/json_util.c:147-163 `json_get_array`. -/
def getArray (o : List (String × Json)) (k : String) : Out (Option (List Json)) :=
  match o.lookup k with
  | none => .ok none
  | some (.arr l) => .ok (some l)
  | some _ => .err false

/-- src/json_util.c:165-181 `json_get_object`. -/
def getObject (o : List (String × Json)) (k : String) : Out (Option (List (String × Json))) :=
  match o.lookup k with
  | none => .ok none
  | some (.obj m) => .ok (some m)
  | some _ => .err false

/-- src/json_util.c:189-193 `json_valid_members_count`. -/
def validMembersCount (o : List (String × Json)) (n : Nat) : Bool := decide (o.length = n)

/-- src/slurm/slurm_parser.c:60-76 `set_asn`: the new values of `*result`, `*flag` and `*members_loaded`. -/
def setAsn (o : List (String × Json)) (isAssertion : Bool) (asn : BitVec 32) (flag : BitVec 8) (n : Nat) :
    Out (BitVec 32 × BitVec 8 × Nat) := do
  match ← getU32 o "asn" with
  | none => if isAssertion then .err false else .ok (asn, flag, n)
  | some a => .ok (a, flag ||| fAsn, n + 1)

/-- src/slurm/slurm_parser.c:79-95 `set_comment`. -/
def setComment (o : List (String × Json)) (flag : BitVec 8) (n : Nat) : Out (BitVec 8 × Nat) := do
  match ← getStr o "comment" with
  | none => .ok (flag, n)
  | some _ => .ok (flag ||| fComment, n + 1)

/-- `strtok` with the delimiter "/": the token and what is left, `none` when there is no token. -/
def strtok (s : List Byte) : Option (List Byte × List Byte) :=
  match s.dropWhile (· = 0x2F) with
  | [] => none
  | s => some (s.takeWhile (· ≠ 0x2F), (s.dropWhile (· ≠ 0x2F)).drop 1)

/-- `isspace` in the C locale. -/
def isSpace (b : Byte) : Bool := decide (b = 0x20) || (decide (9 ≤ b.toNat) && decide (b.toNat ≤ 13))

/-- `isdigit`. -/
def isDigit (b : Byte) : Bool := decide (0x30 ≤ b.toNat) && decide (b.toNat ≤ 0x39)

/-- The value of a string of digits. -/
def digitsVal (l : List Byte) : Nat := l.foldl (fun a b => 10 * a + (b.toNat - 0x30)) 0

/-- `strtoul(text, NULL, 10)` with a 64-bit `unsigned long`; `none` is ERANGE. What follows the digits is ignored,
and no digits at all is 0. -/
def strtoul (text : List Byte) : Option Nat :=
  let s := text.dropWhile isSpace
  let neg := decide (s.head? = some 0x2D)
  let s := if s.head? = some 0x2D ∨ s.head? = some 0x2B then s.drop 1 else s
  let v := digitsVal (s.takeWhile isDigit)
  if 2 ^ 64 ≤ v then none
  else if neg then some ((2 ^ 64 - v) % 2 ^ 64) else some v

/-- src/types/address.c:432-455 `prefix_length_parse`. -/
def prefixLengthParse (text : Option (List Byte)) (max : Nat) : Out (BitVec 8) :=
  match text with
  | none => .err false
  | some t =>
    match strtoul t with
    | none => .err false
    | some len => if max < len then .err false else .ok (BitVec.ofNat 8 len)

/-- src/slurm/slurm_parser.c:97-159 `set_prefix`, with src/types/address.c:402-415 `prefix4_parse`, `prefix6_parse` and
src/types/address.c:457-467 `ipv4_prefix_validate`, `ipv6_prefix_validate`. `strchr(NULL, ':')` is undefined. -/
def setPrefix (env : Env) (o : List (String × Json)) (isAssertion : Bool) (r : SPrefix) (n : Nat) :
    Out (SPrefix × Nat) := do
  match ← getStr o "prefix" with
  | none => if isAssertion then .err false else .ok (r, n)
  | some s =>
    match strtok s with
    | none => .crash
    | some (tok, rest) =>
      if 0x3A ∉ tok then
        match env.pton4 tok with
        | none => .err false
        | some a => do
          let len ← prefixLengthParse ((strtok rest).map Prod.fst) 32
          if a &&& u32SuffixMask len.toNat ≠ 0 then .err false
          else .ok ({ r with fam := some .v4, prefix_ := a.setWidth 128, len, flag := r.flag ||| fPrefix }, n + 1)
      else
        match env.pton6 tok with
        | none => .err false
        | some a => do
          let len ← prefixLengthParse ((strtok rest).map Prod.fst) 128
          if bitwiseAnd (bytes6 a) (ipv6SuffixMask len.toNat Res.In6.zero) then .err false
          else .ok ({ r with fam := some .v6, prefix_ := a, len, flag := r.flag ||| fPrefix }, n + 1)

/-- src/slurm/slurm_parser.c:161-193 `set_max_prefix_length`. -/
def setMaxPrefixLength (o : List (String × Json)) (isAssertion : Bool) (r : SPrefix) (n : Nat) :
    Out (SPrefix × Nat) := do
  let u ← getU32 o "maxPrefixLength"
  if !isAssertion then
    match u with
    | some _ => .err false
    | none => .ok (r, n)
  else
    match u with
    | none => .ok (r, n)
    | some u =>
      let max := if r.fam = some .v4 then 32 else 128
      if max < u.toNat then .err false
      else .ok ({ r with flag := r.flag ||| fMaxLen, maxLen := u.setWidth 8 }, n + 1)

/-- src/slurm/slurm_parser.c:338-347 `init_slurm_prefix`. -/
def initPrefix : SPrefix := ⟨0, 0, none, 0, 0, 0⟩

/-- src/slurm/slurm_parser.c:349-420 `load_single_prefix`, up to the call of `db_slurm_add_prefix_*`. -/
def parsePrefix (env : Env) (j : Json) (isAssertion : Bool) : Out SPrefix :=
  match j with
  | .obj o => do
    let (asn, flag, n) ← setAsn o isAssertion 0 0 0
    let (r, n) ← setPrefix env o isAssertion { initPrefix with asn, flag } n
    let (r, n) ← setMaxPrefixLength o isAssertion r n
    let (flag, n) ← setComment o r.flag n
    let r := { r with flag }
    if r.flag = fComment then .err false
    else if !isAssertion then
      if r.flag &&& (fAsn ||| fPrefix) = 0 then .err false
      else if !validMembersCount o n then .err false
      else .ok r
    else if r.flag &&& fMaxLen > 0 ∧ r.len > r.maxLen then .err false
    else if !validMembersCount o n then .err false
    else .ok r
  | _ => .err false

/-- src/slurm/slurm_parser.c:349-420 `load_single_prefix`. -/
def loadSinglePrefix (env : Env) (db : Db) (isAssertion : Bool) (j : Json) : Out Db := do
  let r ← parsePrefix env j isAssertion
  if isAssertion then addPrefixAssertion db r else addPrefixFilter db r

/-- src/slurm/slurm_parser.c:422-448 `load_prefix_array`. -/
def loadPrefixArray (env : Env) (isAssertion : Bool) : List Json → Db → Out Db
  | [], db => .ok db
  | j :: js, db => do loadPrefixArray env isAssertion js (← loadSinglePrefix env db isAssertion j)

/-- src/crypto/base64.c:119-181 `base64url_decode`: the decoded bytes, and the memory block they are in. The block has
EVP_DECODE_LENGTH(n) + 1 bytes, that is, (n + 3) / 4 * 3 + 80 + 1, and is zeroed. -/
def base64urlDecode (env : Env) (s : List Byte) : Option (List Byte × List Byte) :=
  let pad := if s.length % 4 > 0 then 4 - s.length % 4 else 0
  let copy := s.map (fun b => if b = 0x2D then 0x2B else if b = 0x5F then 0x2F else b) ++ List.replicate pad 0x3D
  match env.b64 copy with
  | none => none
  | some d =>
    if d.length = 0 then none
    else some (d, d ++ List.replicate ((copy.length + 3) / 4 * 3 + 80 + 1 - d.length) 0)

/-- src/slurm/slurm_parser.c:223-255 `set_ski`, with src/slurm/slurm_parser.c:195-221 `validate_base64url_encoded`. -/
def setSki (env : Env) (o : List (String × Json)) (isAssertion : Bool) (r : SBgpsec) (n : Nat) :
    Out (SBgpsec × Nat) := do
  match ← getStr o "SKI" with
  | none => if isAssertion then .err false else .ok (r, n)
  | some s =>
    if 0x3D ∈ s then .err false
    else match base64urlDecode env s with
      | none => .err false
      | some (d, buf) =>
        if d.length ≠ 20 then .err false
        else .ok ({ r with ski := buf, flag := r.flag ||| fSki }, n + 1)

/-- src/slurm/slurm_parser.c:293-336 `set_router_pub_key`. -/
def setRouterPubKey (env : Env) (o : List (String × Json)) (isAssertion : Bool) (r : SBgpsec) (n : Nat) :
    Out (SBgpsec × Nat) := do
  let e ← getStr o "routerPublicKey"
  if !isAssertion then
    match e with
    | some _ => .err false
    | none => .ok (r, n)
  else
    match e with
    | none => .err false
    | some s =>
      if 0x3D ∈ s then .err false
      else match base64urlDecode env s with
        | none => .err false
        | some (d, buf) =>
          if !env.spkiOk d then .err false
          else .ok ({ r with spk := buf, flag := r.flag ||| fKey }, n + 1)

/-- src/slurm/slurm_parser.c:450-457 `init_slurm_bgpsec`. -/
def initBgpsec : SBgpsec := ⟨0, 0, [], []⟩

/-- src/slurm/slurm_parser.c:459-538 `load_single_bgpsec`, up to the call of `db_slurm_add_bgpsec_*`. -/
def parseBgpsec (env : Env) (j : Json) (isAssertion : Bool) : Out SBgpsec :=
  match j with
  | .obj o => do
    let (asn, flag, n) ← setAsn o isAssertion 0 0 0
    let (r, n) ← setSki env o isAssertion { initBgpsec with asn, flag } n
    let (r, n) ← setRouterPubKey env o isAssertion r n
    let (flag, n) ← setComment o r.flag n
    let r := { r with flag }
    if r.flag = fComment then .err false
    else if !isAssertion then
      if r.flag &&& (fAsn ||| fSki) = 0 then .err false
      else if !validMembersCount o n then .err false
      else .ok r
    else if !validMembersCount o n then .err false
    else .ok r
  | _ => .err false

/-- src/slurm/slurm_parser.c:459-538 `load_single_bgpsec`. -/
def loadSingleBgpsec (env : Env) (db : Db) (isAssertion : Bool) (j : Json) : Out Db := do
  let r ← parseBgpsec env j isAssertion
  if isAssertion then addBgpsecAssertion db r else addBgpsecFilter db r

/-- src/slurm/slurm_parser.c:540-566 `load_bgpsec_array`. -/
def loadBgpsecArray (env : Env) (isAssertion : Bool) : List Json → Db → Out Db
  | [], db => .ok db
  | j :: js, db => do loadBgpsecArray env isAssertion js (← loadSingleBgpsec env db isAssertion j)

/-- `if (error > 0) return COMPLAIN_REQUIRED(name);` -/
def required {α} (o : Out (Option α)) : Out α := do
  match ← o with
  | none => .err false
  | some a => .ok a

/-- src/slurm/slurm_parser.c:568-585 `load_version`. -/
def loadVersion (root : List (String × Json)) : Out Unit := do
  let v ← required (getU32 root "slurmVersion")
  if v ≠ 1 then .err false else .ok ()

/-- src/slurm/slurm_parser.c:587-629 `load_filters` and src/slurm/slurm_parser.c:631-672 `load_assertions`, which differ
in the names of the members only. -/
def loadSection (env : Env) (section_ pfx bgps : String) (isAssertion : Bool) (root : List (String × Json)) (db : Db) :
    Out Db := do
  let o ← required (getObject root section_)
  let p ← required (getArray o pfx)
  let b ← required (getArray o bgps)
  if !validMembersCount o 2 then .err false
  else
    let db ← loadPrefixArray env isAssertion p db
    loadBgpsecArray env isAssertion b db

/-- src/slurm/slurm_parser.c:674-708 `handle_json`. -/
def handleJson (env : Env) (j : Json) (db : Db) : Out Db :=
  match j with
  | .obj root => do
    loadVersion root
    let db := db.startCache
    let db ← loadSection env "validationOutputFilters" "prefixFilters" "bgpsecFilters" false root db
    let db ← loadSection env "locallyAddedAssertions" "prefixAssertions" "bgpsecAssertions" true root db
    if !validMembersCount root 3 then .err false else db.flushCache
  | _ => .err false

/-- src/slurm/slurm_parser.c:38-58 `slurm_parse`; `none` is a file jansson cannot load. -/
def slurmParse (env : Env) (f : Option Json) (db : Db) : Out Db :=
  match f with
  | none => .err false
  | some j => handleJson env j db

/-- What `foreach_file` (src/common.c:198-216) does to a callback: the files it is called with, in order, and whether
reading the directory succeeds. -/
structure Dir (α : Type) where
  files : List α
  readOk : Bool

/-- src/common.c:146-188 `process_dir_files` with `slurm_parse` as the callback. -/
def parseFiles (env : Env) : List (Option Json) → Db → Out Db
  | [], db => .ok db
  | f :: fs, db => do parseFiles env fs (← slurmParse env f db)

/-- src/slurm/slurm_loader.c:24-51 `load_slurm_files`: the loaded lists, `none` when there are no rules. The clock is
assumed to work. -/
def loadSlurmFiles (env : Env) (d : Dir (Option Json)) : Out (Option Lists) := do
  let db ← parseFiles env d.files ⟨Lists.empty, none⟩
  if !d.readOk then .err false
  else if !db.lists.hasData then .ok none
  else .ok (some db.lists)

/-- The inner loop of src/slurm/slurm_loader.c:175-206 `are_csum_lists_equals`. -/
def csumFound (c : List Byte) : List (List Byte) → Bool
  | [] => false
  | o :: os => if c.length ≠ o.length then csumFound c os else if c = o then true else csumFound c os

/-- src/slurm/slurm_loader.c:175-206 `are_csum_lists_equals`. -/
def csumListsEqual (new old : List (List Byte)) : Bool :=
  if new.length ≠ old.length then false else new.all (fun c => csumFound c old)

/-- The SLURM that is kept between cycles: its lists, and the checksums of its files, last file first. -/
structure Kept where
  lists : Lists
  csums : List (List Byte)

/-- What one cycle finds in the configured path: first the checksums (`none`, a file that cannot be hashed), then the
contents. The files may change between the two passes. -/
structure CycleIn where
  csums : Dir (Option (List Byte))
  docs : Dir (Option Json)

/-- src/slurm/slurm_loader.c:159-173 `slurm_load_checksums`; SLIST_INSERT_HEAD reverses the order. -/
def loadChecksums (d : Dir (Option (List Byte))) : Option (List (List Byte)) :=
  if d.files.all Option.isSome && d.readOk then some (d.files.reduceOption.reverse) else none

/-- src/slurm/slurm_loader.c:209-266 `update_slurm`: the new kept SLURM. -/
def updateSlurm (env : Env) (i : CycleIn) (slurm : Option Kept) : Out (Option Kept) :=
  match loadChecksums i.csums with
  | none => .err false
  | some new =>
    if new.length = 0 then .ok none
    else
      let same := match slurm with
        | none => false
        | some k => csumListsEqual new k.csums
      if same then .ok slurm
      else
        match loadSlurmFiles env i.docs with
        | .crash => .crash
        | .err _ => .ok slurm
        | .ok none => .ok none
        | .ok (some l) => .ok (some ⟨l, new⟩)

/-- src/slurm/slurm_loader.c:268-304 `slurm_apply`; `none` input: SLURM is not configured. On error the kept SLURM is
the one `update_slurm` left (it only fails before changing it). -/
def slurmApply (env : Env) (i : Option CycleIn) (t : Table) (slurm : Option Kept) : Option Kept × Out Table :=
  match i with
  | none => (slurm, .ok t)
  | some i =>
    match updateSlurm env i slurm with
    | .crash => (slurm, .crash)
    | .err e => (slurm, .err e)
    | .ok none => (none, .ok t)
    | .ok (some k) => (some k, applyLists k.lists t)

end Verif.Slurm
