import Verif.Rrdp.ModelSort
import Verif.Cache.Model
import Verif.Misc.ModelStrtoul
/-
Model of src/rrdp.c: notifications, snapshots and deltas. XML parsing and schema validation (libxml2), SHA-256, base64 decoding,
HTTP and the file system's failures are parameters. Reads, writes, and removals of files are modelled; directories are not
(`mkdir_p` makes them when they are needed, empty ones are removed).
-/
namespace Verif.Rrdp
open Verif.Res (Byte)
open Verif.Uri
open Verif.Misc
open Verif.Cache (Url Cfg Op Cache)

/-- What happened: all right, an error, or undefined behaviour. -/
inductive Out where
  | ok
  | err
  | crash
  deriving DecidableEq, Repr

/-! ### XML -/

/-- Node types. The code distinguishes the first two from the rest: text, and comments and the like. -/
inductive XType where
  | elem
  | endElem
  | text
  | other
  deriving DecidableEq, Repr

/-- A node of libxml2's text reader; `value` is what `xmlTextReaderValue` returns (`none`: NULL), `valid` whether the reader says
the document is valid so far. -/
structure XNode where
  type : XType
  name : String
  ns : String
  attrs : List (String × List Byte)
  value : Option (List Byte)
  valid : Bool
  deriving DecidableEq, Repr

/-- A document, as the reader presents it: whether it can be opened, the nodes, and whether the reader got to the end and
says it is valid. -/
structure Doc where
  opens : Bool
  nodes : List XNode
  endOk : Bool
  deriving DecidableEq, Repr

/-- `xmlTextReaderGetAttribute` -/
def XNode.attr (n : XNode) (k : String) : Option (List Byte) := (n.attrs.find? (fun a => decide (a.1 = k))).map (·.2)

/-- The loop of src/xml/relax_ng.c:85-150 `relax_ng_parse`. The callback gets the node and the nodes that follow it; it says
whether it read one more. -/
def readLoop {S : Type} (cb : S → XNode → List XNode → Out × Bool × S) (endOk : Bool) (nodes : List XNode) (s : S) : Out × S :=
  match nodes with
  | [] => (if endOk then .ok else .err, s)
  | n :: rest =>
    if n.valid = false then (.err, s)
    else
      match cb s n rest with
      | (.ok, more, s) => readLoop cb endOk (if more then rest.tail else rest) s
      | (r, _, s) => (r, s)
termination_by nodes.length
decreasing_by
  simp only [List.length_cons]
  split <;> simp <;> omega

/-- src/xml/relax_ng.c:85-150 `relax_ng_parse` -/
def relaxNgParse {S : Type} (d : Doc) (cb : S → XNode → List XNode → Out × Bool × S) (s : S) : Out × S :=
  if d.opens then readLoop cb d.endOk d.nodes s else (.err, s)

/-! ### The world -/

/-- Files and their contents, by local path. -/
abbrev Disk := List Byte → Option (List Byte)

/-- Write a file. -/
def Disk.set (d : Disk) (p : List Byte) (v : Option (List Byte)) : Disk := fun q => if q = p then v else d q

/-- An HTTP request's outcome: `cache_download`'s result, when it ended, whether there is something newer, and what. -/
structure Http where
  result : Int
  now : Int
  changed : Bool
  body : List Byte

/-- The environment. -/
structure Env where
  cfg : Cfg
  /-- The configured local repository. -/
  repo : List Byte
  /-- SHA-256 -/
  sha : List Byte → List Byte
  /-- `base64_read` (src/rrdp.c) -/
  b64 : List Byte → Option (List Byte)
  /-- libxml2 -/
  xml : List Byte → Doc
  /-- The answer to the n-th request. -/
  http : Nat → Url → Http
  /-- Writing this file fails (in this situation), and leaves this. -/
  writeFails : Disk → List Byte → Option (Option (List Byte))
  /-- Removing this file fails; removing it works but removing the directories it leaves empty fails. -/
  removeFails : Disk → List Byte → Bool
  rmdirFails : Disk → List Byte → Bool
  /-- `stat` fails for another reason than ENOENT. -/
  statFails : Disk → List Byte → Bool

/-- Everything that changes: the cache's table, the files, the number of requests made. -/
structure World where
  cache : Cache
  disk : Disk
  tick : Nat

/-- src/cache/local_cache.c:568-619 `cache_download` for https URLs, with its effects on the disk (src/http/http.c:409-454 `http_download`: the file is replaced
when there is something newer). The result is the code, whether it changed, and the world. In offline mode the file is looked up. -/
def cacheGet (env : Env) (w : World) (u : Url) : Option (Int × Bool × World) :=
  let h := env.http w.tick
  match Verif.Cache.cacheDownload env.cfg env.repo w.cache u (fun op url =>
    match op with
    | .check => ⟨if (w.disk url.uri.loc).isSome then 0 else 2, (h url).now⟩
    | _ => ⟨(h url).result, (h url).now⟩) with
  | none => none
  | some d =>
    match d.tried with
    | some (.http, url) =>
      let ok := decide (d.result = 0) && (h url).changed
      some (d.result, ok, ⟨d.cache, if ok then w.disk.set url.uri.loc (some (h url).body) else w.disk, w.tick + 1⟩)
    | some _ => some (d.result, false, ⟨d.cache, w.disk, w.tick + 1⟩)
    | none => some (d.result, false, ⟨d.cache, w.disk, w.tick⟩)

/-- src/crypto/hash.c:146-164 `hash_validate_file`, src/crypto/hash.c:24-30 `hash_matches` and src/rrdp.c:150-154 `validate_hash`; the file is there or not. -/
def validateHash (env : Env) (disk : Disk) (m : Meta) : Out :=
  match disk m.uri.loc with
  | none => .err
  | some c => if m.hash.getD [] = env.sha c then .ok else .err

/-! ### Attributes -/

/-- src/rrdp.c:275-297 `parse_ulong`; the message about a number that is out of range uses freed memory. -/
def parseUlong (n : XNode) (k : String) : Out × Nat :=
  match n.attr k with
  | none => (.err, 0)
  | some s => if (strtoul s).erange then (.crash, 0) else (.ok, (strtoul s).value)

/-- src/rrdp.c:390-405 `validate_version` -/
def validateVersion (n : XNode) (expected : Nat) : Out :=
  match parseUlong n "version" with
  | (.ok, v) => if v ≠ expected then .err else .ok
  | (r, _) => r

/-- src/rrdp.c:407-427 `parse_serial` -/
def parseSerial (n : XNode) : Option Nat :=
  match n.attr "serial" with
  | none => none
  | some s =>
    match bnDec2bn s with
    | none => none
    | some v => if v < 0 then none else some v.toNat

/-- src/rrdp.c:38-41 `struct rrdp_session` -/
structure Session where
  id : List Byte
  serial : Nat
  deriving DecidableEq, Repr

/-- RRDP's namespace -/
def rrdpNs : String := "http://www.ripe.net/rpki/rrdp"

/-- src/rrdp.c:429-460 `parse_session` -/
def parseSession (n : XNode) : Out × Option Session :=
  if n.ns ≠ rrdpNs then (.err, none)
  else
    match validateVersion n 1 with
    | .ok =>
      match n.attr "session_id" with
      | none => (.err, none)
      | some id =>
        match parseSerial n with
        | none => (.err, none)
        | some s => (.ok, some ⟨id, s⟩)
    | r => (r, none)

/-- src/rrdp.c:462-487 `validate_session`. `expected` is `none` when the pointers are NULL: nothing is equal to that. -/
def validateSession (n : XNode) (expected : Option Session) : Out :=
  match parseSession n with
  | (.ok, some a) =>
    match expected with
    | none => .err
    | some e => if e.id ≠ a.id then .err else if a.serial ≠ e.serial then .err else .ok
  | (.ok, none) => .crash
  | (r, _) => r

/-- The enumeration `hash_requirement` (src/rrdp.c:84-88). -/
inductive HashReq where
  | mandatory
  | optional
  | ignore
  deriving DecidableEq, Repr

/-- src/rrdp.c:363-388 `parse_hash` -/
def parseHash (n : XNode) (hr : HashReq) : Out × Option (List Byte) :=
  match hr with
  | .ignore => (.ok, none)
  | hr =>
    match n.attr "hash" with
    | none => (if hr = .mandatory then .err else .ok, none)
    | some s =>
      match hexstr2sha256 s with
      | some (some h) => (.ok, some h)
      | some none => (.err, none)
      | none => (.crash, none)

/-- src/rrdp.c:495-527 `parse_file_metadata`. `notif` is given for the files of the repository. -/
def parseFileMetadata (env : Env) (tal : List Byte) (n : XNode) (notif : Option Uri) (hr : HashReq) : Out × Option Meta :=
  match n.attr "uri" with
  | none => (.err, none)
  | some s =>
    match uriCreate env.repo (some tal) (if notif.isSome then .caged else .https) notif s with
    | .crash => (.crash, none)
    | .err _ => (.err, none)
    | .ok u =>
      match parseHash n hr with
      | (.ok, h) => (.ok, some ⟨u, h⟩)
      | (r, _) => (r, none)

/-! ### Publish and withdraw -/

/-- src/rrdp.c:577-603 `write_file`. A failure may leave anything in the file's place. -/
def writeFile (env : Env) (disk : Disk) (p c : List Byte) : Out × Disk :=
  match env.writeFails disk p with
  | some junk => (.err, disk.set p junk)
  | none => (.ok, disk.set p (some c))

/-- src/common.c:351-403 `delete_dir_recursive_bottom_up` (src/rrdp.c:606-611 `delete_file`) -/
def deleteFile (env : Env) (disk : Disk) (p : List Byte) : Out × Disk :=
  if env.removeFails disk p ∨ disk p = none then (.err, disk)
  else (if env.rmdirFails disk p then .err else .ok, disk.set p none)

/-- src/rrdp.c:529-562 `parse_publish`: the outcome, whether one more node was read, and the tag. -/
def parsePublish (env : Env) (tal : List Byte) (disk : Disk) (n : XNode) (rest : List XNode) (notif : Uri) (hr : HashReq) :
    Out × Bool × Option (Meta × List Byte) :=
  match parseFileMetadata env tal n (some notif) hr with
  | (.ok, some m) =>
    match rest with
    | [] => (.err, false, none)
    | t :: _ =>
      match t.value with
      | none => (.err, true, none)
      | some s =>
        match env.b64 s with
        | none => (.err, true, none)
        | some c =>
          if m.hash.isSome then
            match validateHash env disk m with
            | .ok => (.ok, true, some (m, c))
            | r => (r, true, none)
          else (.ok, true, some (m, c))
  | (.ok, none) => (.crash, false, none)
  | (r, _) => (r, false, none)

/-- src/rrdp.c:613-627 `handle_publish` -/
def handlePublish (env : Env) (tal : List Byte) (disk : Disk) (n : XNode) (rest : List XNode) (notif : Uri) (hr : HashReq) :
    Out × Bool × Disk :=
  match parsePublish env tal disk n rest notif hr with
  | (.ok, more, some (m, c)) => let r := writeFile env disk m.uri.loc c; (r.1, more, r.2)
  | (.ok, more, none) => (.crash, more, disk)
  | (r, more, _) => (r, more, disk)

/-- src/rrdp.c:564-575 `parse_withdraw` -/
def parseWithdraw (env : Env) (tal : List Byte) (disk : Disk) (n : XNode) (notif : Uri) : Out × Option Meta :=
  match parseFileMetadata env tal n (some notif) .mandatory with
  | (.ok, some m) => (validateHash env disk m, some m)
  | (.ok, none) => (.crash, none)
  | (r, _) => (r, none)

/-- src/rrdp.c:629-641 `handle_withdraw` -/
def handleWithdraw (env : Env) (tal : List Byte) (disk : Disk) (n : XNode) (notif : Uri) : Out × Disk :=
  match parseWithdraw env tal disk n notif with
  | (.ok, some m) => deleteFile env disk m.uri.loc
  | (.ok, none) => (.crash, disk)
  | (r, _) => (r, disk)

/-! ### Notifications -/

/-- src/rrdp.c:60-67 `struct update_notification`, while it is read. -/
structure Notif where
  session : Option Session
  snapshot : Option Meta
  deltas : List Delta
  deriving DecidableEq, Repr

/-- src/rrdp.c:643-662 `parse_notification_delta` -/
def parseNotificationDelta (env : Env) (tal : List Byte) (nf : Notif) (n : XNode) : Out × Notif :=
  match parseSerial n with
  | none => (.err, nf)
  | some s =>
    match parseFileMetadata env tal n none .mandatory with
    | (.ok, some m) => (.ok, { nf with deltas := nf.deltas ++ [⟨s, m⟩] })
    | (.ok, none) => (.crash, nf)
    | (r, _) => (r, nf)

/-- src/rrdp.c:752-780 `xml_read_notif`. When an attribute is wrong, what was there of the snapshot or session is gone; the
notification is thrown away in that case. -/
def xmlReadNotif (env : Env) (tal : List Byte) (nf : Notif) (n : XNode) (_rest : List XNode) : Out × Bool × Notif :=
  match n.type with
  | .elem =>
    if n.name = "delta" then
      let r := parseNotificationDelta env tal nf n
      (r.1, false, r.2)
    else if n.name = "snapshot" then
      let r := parseFileMetadata env tal n none .mandatory
      (r.1, false, { nf with snapshot := r.2 })
    else if n.name = "notification" then
      let r := parseSession n
      (r.1, false, { nf with session := r.2 })
    else (.err, false, nf)
  | .endElem =>
    if n.name = "notification" then
      match sortDeltas (nf.session.map Session.serial) nf.deltas with
      | .ok ds => (.ok, false, { nf with deltas := ds })
      | .err => (.err, false, nf)
      | .crash => (.crash, false, nf)
      | .stuck => (.crash, false, nf)
    else (.ok, false, nf)
  | _ => (.ok, false, nf)

/-- src/rrdp.c:782-794 `parse_notification`; the file at this path. -/
def parseNotification (env : Env) (tal : List Byte) (disk : Disk) (u : Uri) : Out × Notif :=
  match disk u.loc with
  | none => (.err, ⟨none, none, []⟩)
  | some c => relaxNgParse (env.xml c) (xmlReadNotif env tal) ⟨none, none, []⟩

/-! ### Snapshots and deltas -/

/-- src/rrdp.c:796-803 `delete_rpp`: the directory of the repository goes; removals succeed. The path is NULL when it cannot be
built. -/
def deleteRpp (env : Env) (tal : List Byte) (disk : Disk) (notif : Uri) : Out × Disk :=
  match getRrdpWorkspace env.repo (some tal) notif.global with
  | .ok pb => (.ok, fun q => if (decide (q = pb.str) || (pb.str ++ [slash]).isPrefixOf q) then none else disk q)
  | _ => (.crash, disk)

/-- src/rrdp.c:805-831 `xml_read_snapshot` -/
def xmlReadSnapshot (env : Env) (tal : List Byte) (notif : Uri) (session : Option Session) (disk : Disk) (n : XNode)
    (rest : List XNode) : Out × Bool × Disk :=
  match n.type with
  | .elem =>
    if n.name = "publish" then handlePublish env tal disk n rest notif .ignore
    else if n.name = "snapshot" then (validateSession n session, false, disk)
    else (.err, false, disk)
  | _ => (.ok, false, disk)

/-- src/rrdp.c:883-911 `xml_read_delta` -/
def xmlReadDelta (env : Env) (tal : List Byte) (notif : Uri) (session : Option Session) (disk : Disk) (n : XNode)
    (rest : List XNode) : Out × Bool × Disk :=
  match n.type with
  | .elem =>
    if n.name = "publish" then handlePublish env tal disk n rest notif .optional
    else if n.name = "withdraw" then
      let r := handleWithdraw env tal disk n notif
      (r.1, false, r.2)
    else if n.name = "delta" then (validateSession n session, false, disk)
    else (.err, false, disk)
  | _ => (.ok, false, disk)

/-- The common part of src/rrdp.c:833-848 `parse_snapshot` and src/rrdp.c:913-929 `parse_delta` -/
def parseFile (env : Env) (disk : Disk) (m : Meta) (cb : Disk → XNode → List XNode → Out × Bool × Disk) : Out × Disk :=
  match validateHash env disk m with
  | .ok =>
    match disk m.uri.loc with
    | none => (.err, disk)
    | some c => relaxNgParse (env.xml c) cb disk
  | r => (r, disk)

/-- The common part of src/rrdp.c:850-881 `handle_snapshot` and src/rrdp.c:931-951 `handle_delta`: download, parse, remove. -/
def getAndParse (env : Env) (w : World) (m : Meta) (cb : Disk → XNode → List XNode → Out × Bool × Disk) : Out × World :=
  match cacheGet env w ⟨m.uri, false⟩ with
  | none => (.crash, w)
  | some (e, _, w) =>
    if e ≠ 0 then (.err, w)
    else
      let r := parseFile env w.disk m cb
      (r.1, { w with disk := (deleteFile env r.2 m.uri.loc).2 })

/-- src/rrdp.c:850-881 `handle_snapshot`. Without a snapshot, a NULL pointer is used. -/
def handleSnapshot (env : Env) (tal : List Byte) (w : World) (notif : Uri) (nf : Notif) : Out × World :=
  match deleteRpp env tal w.disk notif with
  | (.ok, disk) =>
    match nf.snapshot with
    | none => (.crash, w)
    | some m => getAndParse env { w with disk := disk } m (xmlReadSnapshot env tal notif nf.session)
  | (r, _) => (r, w)

/-- src/rrdp.c:931-951 `handle_delta` -/
def handleDelta (env : Env) (tal : List Byte) (w : World) (notif : Uri) (nf : Notif) (d : Delta) : Out × World :=
  getAndParse env w d.info (xmlReadDelta env tal notif (nf.session.map (fun s => ⟨s.id, d.serial⟩)))

/-- The loop of src/rrdp.c:953-995 `handle_deltas` -/
def handleDeltaList (env : Env) (tal : List Byte) (notif : Uri) (nf : Notif) : List Delta → World → Out × World
  | [], w => (.ok, w)
  | d :: ds, w =>
    match handleDelta env tal w notif nf d with
    | (.ok, w) => handleDeltaList env tal notif nf ds w
    | r => r

/-- src/rrdp.c:953-995 `handle_deltas` -/
def handleDeltas (env : Env) (tal : List Byte) (w : World) (notif : Uri) (nf : Notif) (serial : Nat) : Out × World :=
  if nf.deltas.length = 0 then (.err, w)
  else
    match nf.session with
    | none => (.crash, w)
    | some s =>
      if s.serial < serial then (.err, w)
      else
        let diff := bnGetWord (s.serial - serial)
        if diff > 64 ∨ diff > nf.deltas.length then (.err, w)
        else handleDeltaList env tal notif nf (nf.deltas.drop (nf.deltas.length - diff)) w

/-- src/rrdp.c:997-1021 `get_metadata` -/
def getMetadata (env : Env) (tal : List Byte) (disk : Disk) (u : Uri) : Out × Option Session :=
  if env.statFails disk u.loc then (.err, none)
  else if disk u.loc = none then (.ok, none)
  else
    match parseNotification env tal disk u with
    | (.ok, nf) => (.ok, nf.session)
    | (r, _) => (r, none)

/-- src/rrdp.c:1030-1091 `rrdp_update` -/
def rrdpUpdate (env : Env) (w : World) (u : Uri) : Out × World :=
  let tal := w.cache.tal
  match getMetadata env tal w.disk u with
  | (.ok, old) =>
    match cacheGet env w ⟨u, true⟩ with
    | none => (.crash, w)
    | some (e, changed, w) =>
      if e ≠ 0 then (.err, w)
      else if changed = false then (.ok, w)
      else
        match parseNotification env tal w.disk u with
        | (.ok, nf) =>
          match old with
          | none => handleSnapshot env tal w u nf
          | some o =>
            if (nf.session.map Session.id) ≠ some o.id then handleSnapshot env tal w u nf
            else if (nf.session.map Session.serial) ≠ some o.serial then
              match handleDeltas env tal w u nf o.serial with
              | (.ok, w) => (.ok, w)
              | (.crash, w) => (.crash, w)
              | (.err, w) => handleSnapshot env tal w u nf
            else (.ok, w)
        | (r, _) => (r, w)
  | (r, _) => (r, w)

end Verif.Rrdp
