import Verif.Heap.Basic
/-
Model of what src/rrdp.c and src/xml/relax_ng.c do with memory, during an RRDP update: texts and numbers that are taken from XML
documents, hashes, contents, the XML reader, and the references to URIs that are taken. A reference to a URI is one object; the
URIs themselves are modelled in Verif/Mem. What documents say, other than what the schema restricts, is up to an oracle, as are the
outcomes of library functions and of the functions of other files.
-/
namespace Verif.Xmem
open Verif.Heap

/-- libxml2's node types, as far as src/rrdp.c tells them apart. -/
inductive Ty where
  | elem
  | endElem
  | other
  deriving DecidableEq, Repr

/-- src/rrdp.c:18-23: the tags' names. -/
inductive Nm where
  | notification
  | snapshot
  | delta
  | publish
  | withdraw
  | other
  deriving DecidableEq, Repr

/-- A node of an XML document. -/
structure Ev where
  type : Ty
  name : Nm
  /-- the version attribute's number, if there is one, fits in an `unsigned long` -/
  vfits : Bool
  /-- it has a uri attribute -/
  hasUri : Bool
  deriving DecidableEq, Repr

/-- A pointer; `none` is NULL. -/
abbrev Ptr := Option Id

/-- `free`, `xmlFree`, `BN_free`, `OPENSSL_free` and (src/types/uri.c:474-486) `uri_refput`: NULL is fine. -/
def freeP : Ptr → HM Unit
  | none => pure ()
  | some i => free i

/-- A use that NULL is no good for. -/
def useP : Ptr → HM Unit
  | none => crash
  | some i => use i

/-- A use that NULL is good for: `xmlStrcmp`, `BN_cmp`, `BN_dup`, printing. -/
def peek : Ptr → HM Unit
  | none => pure ()
  | some i => use i

/-- src/alloc.c:40-50 `prealloc`: what was there is gone. -/
def realloc (i : Id) : HM Id := do free i; new

/-- src/rrdp.c:33-36 `struct rrdp_serial` -/
structure Serial where
  num : Ptr
  str : Ptr
  deriving DecidableEq, Repr

/-- src/rrdp.c:38-41 `struct rrdp_session` -/
structure Session where
  sid : Ptr
  serial : Serial
  deriving DecidableEq, Repr

/-- src/rrdp.c:44-48 `struct file_metadata`; there is a length if there is a hash. -/
structure Meta where
  uri : Ptr
  hash : Ptr
  deriving DecidableEq, Repr

/-- src/rrdp.c:51-54 `struct notification_delta` -/
structure Delta where
  serial : Serial
  info : Meta
  deriving DecidableEq, Repr

/-- src/rrdp.c:60-65 `struct update_notification`; `arr` is what the array list has allocated. -/
structure Notif where
  session : Session
  snapshot : Meta
  deltas : List Delta
  arr : Ptr
  uri : Id
  deriving DecidableEq, Repr

def Serial.null : Serial := ⟨none, none⟩
def Session.null : Session := ⟨none, Serial.null⟩
def Meta.null : Meta := ⟨none, none⟩

/-- src/rrdp.c:83-87: hash_requirement -/
inductive Hr where
  | mandatory
  | optional
  | ignore
  deriving DecidableEq, Repr

/-- src/rrdp.c:100-107 `serial_cleanup` -/
def serialCleanup (s : Serial) : HM Serial := do
  freeP s.num
  freeP s.str
  return Serial.null

/-- src/rrdp.c:109-115 `session_cleanup` -/
def sessionCleanup (s : Session) : HM Unit := do
  freeP s.sid
  freeP s.serial.num
  freeP s.serial.str

/-- src/rrdp.c:117-122 `metadata_cleanup` -/
def metadataCleanup (m : Meta) : HM Unit := do
  freeP m.hash
  freeP m.uri

/-- src/rrdp.c:124-129 `notification_delta_cleanup` -/
def notificationDeltaCleanup (d : Delta) : HM Unit := do
  let _ ← serialCleanup d.serial
  metadataCleanup d.info

/-- src/data_structure/array_list.h:34-42 (notification_deltas_cleanup): the elements. They are read from the array. -/
def deltasCleanup (arr : Ptr) : List Delta → HM Unit
  | [] => pure ()
  | d :: ds => do
    useP arr
    notificationDeltaCleanup d
    deltasCleanup arr ds

/-- src/rrdp.c:131-139 `update_notification_init`; a reference to the URI is taken. -/
def updateNotificationInit : HM Notif := do return ⟨Session.null, Meta.null, [], none, ← new⟩

/-- src/rrdp.c:141-148 `update_notification_cleanup` -/
def updateNotificationCleanup (n : Notif) : HM Unit := do
  metadataCleanup n.snapshot
  sessionCleanup n.session
  deltasCleanup n.arr n.deltas
  freeP n.arr
  free n.uri

/-- src/rrdp.c:150-154 `validate_hash` -/
def validateHash (m : Meta) : HM Bool := do
  useP m.uri
  useP m.hash
  askB

/-- src/rrdp.c:184-229 `base64_sanitize`. `none`: the text is blank. -/
def base64Sanitize (content : Id) : HM Ptr := do
  use content
  if ← askB then return none
  let result ← new
  if ← askB then return some (← realloc result)
  return some result

/-- src/rrdp.c:231-273 `base64_read` -/
def base64Read (content : Id) : HM (Bool × Ptr) := do
  match ← base64Sanitize content with
  | none => return (true, none)
  | some sanitized =>
    match ← create with
    | none => do
      free sanitized
      return (true, none)
    | some encoded => do
      use content
      let result ← new
      use encoded
      use sanitized
      use result
      if ← askB then
        free result
        free encoded
        free sanitized
        return (true, none)
      free sanitized
      free encoded
      return (false, some result)

/-- src/rrdp.c:275-297 `parse_ulong`. `strtoul` complains about what doesn't fit only. -/
def parseUlong (e : Ev) : HM Bool := do
  match ← create with
  | none => return true
  | some str => do
    use str
    free str
    if e.vfits then return false
    use str
    return true

/-- src/rrdp.c:331-361 `hexstr2sha256` -/
def hexstr2sha256 (hexstr : Id) : HM Ptr := do
  use hexstr
  if ← askB then return none
  let hash ← new
  use hexstr
  use hash
  if ← askB then
    free hash
    return none
  return some hash

/-- src/rrdp.c:363-388 `parse_hash` -/
def parseHash (hr : Hr) : HM (Bool × Ptr) := do
  if hr = .ignore then return (false, none)
  match ← create with
  | none => return (decide (hr = .mandatory), none)
  | some xmlattr => do
    let hash ← hexstr2sha256 xmlattr
    free xmlattr
    return (hash.isNone, hash)

/-- src/rrdp.c:390-405 `validate_version` -/
def validateVersion (e : Ev) : HM Bool := do
  if ← parseUlong e then return true
  askB

/-- src/rrdp.c:407-427 `parse_serial`. The first one is what was in `*serial`. -/
def parseSerial (old : Serial) : HM (Bool × Serial) := do
  match ← create with
  | none => return (true, { old with str := none })
  | some str => do
    let num ← new
    use num
    use str
    if ← askB then
      return (true, ← serialCleanup ⟨some num, some str⟩)
    use num
    if ← askB then
      use str
      return (true, ← serialCleanup ⟨some num, some str⟩)
    return (false, ⟨some num, some str⟩)

/-- src/rrdp.c:429-460 `parse_session`. `old` is what was in `*meta`. -/
def parseSession (e : Ev) (old : Session) : HM (Bool × Session) := do
  if ← askB then return (true, old)
  if ← validateVersion e then return (true, old)
  match ← create with
  | none => return (true, { old with sid := none })
  | some sid => do
    let r ← parseSerial old.serial
    if r.1 then
      free sid
      return (true, ⟨none, r.2⟩)
    return (false, ⟨some sid, r.2⟩)

/-- src/rrdp.c:462-487 `validate_session` -/
def validateSession (e : Ev) (expected : Session) : HM Bool := do
  let r ← parseSession e Session.null
  if r.1 then return true
  peek expected.sid
  useP r.2.sid
  if ← askB then
    peek expected.sid
    useP r.2.sid
    sessionCleanup r.2
    return true
  useP r.2.serial.num
  peek expected.serial.num
  if ← askB then
    useP r.2.serial.str
    peek expected.serial.str
    sessionCleanup r.2
    return true
  sessionCleanup r.2
  return false

/-- src/rrdp.c:495-527 `parse_file_metadata`. What was in `*meta` is overwritten. -/
def parseFileMetadata (e : Ev) (hr : Hr) : HM (Bool × Meta) := do
  if ¬ e.hasUri then return (true, Meta.null)
  let str ← new
  use str
  let uri ← create
  free str
  match uri with
  | none => return (true, Meta.null)
  | some uri =>
    if hr = .ignore then return (false, ⟨some uri, none⟩)
    else do
      let h ← parseHash hr
      if h.1 then
        free uri
        return (true, ⟨none, h.2⟩)
      return (false, ⟨some uri, h.2⟩)

/-- src/rrdp.c:529-562 `parse_publish`: an error, the metadata and the content. `more`: the document has another node. -/
def parsePublish (e : Ev) (more : Bool) (hr : Hr) : HM (Bool × Meta × Ptr) := do
  let m ← parseFileMetadata e hr
  if m.1 then return (true, m.2, none)
  if (← askB) || !more then
    useP m.2.uri
    return (true, m.2, none)
  match ← create with
  | none => return (true, m.2, none)
  | some str => do
    let c ← base64Read str
    free str
    if c.1 then return (true, m.2, none)
    if m.2.hash.isSome then
      return (← validateHash m.2, m.2, c.2)
    return (false, m.2, c.2)

/-- src/rrdp.c:564-575 `parse_withdraw` -/
def parseWithdraw (e : Ev) : HM (Bool × Meta) := do
  let m ← parseFileMetadata e .mandatory
  if m.1 then return (true, m.2)
  return (← validateHash m.2, m.2)

/-- src/rrdp.c:577-603 `write_file`. The open file is an object too. -/
def writeFile (uri content : Ptr) : HM Bool := do
  useP uri
  if ← askB then return true
  match ← create with
  | none => return true
  | some out => do
    useP content
    use out
    free out
    if ← askB then
      useP uri
      return true
    return false

/-- src/rrdp.c:606-611 `delete_file` -/
def deleteFile (uri : Ptr) : HM Bool := do
  useP uri
  askB

/-- "if (!error) error = ..." -/
def unlessFailed (error : Bool) (m : HM Bool) : HM Bool := if error then pure true else m

/-- src/rrdp.c:613-627 `handle_publish` -/
def handlePublish (e : Ev) (more : Bool) (hr : Hr) : HM Bool := do
  let r ← parsePublish e more hr
  let error ← unlessFailed r.1 (writeFile r.2.1.uri r.2.2)
  metadataCleanup r.2.1
  freeP r.2.2
  return error

/-- src/rrdp.c:629-641 `handle_withdraw` -/
def handleWithdraw (e : Ev) : HM Bool := do
  let r ← parseWithdraw e
  let error ← unlessFailed r.1 (deleteFile r.2.uri)
  metadataCleanup r.2
  return error

/-- src/data_structure/array_list.h:45-62 (notification_deltas_add): "if (list->array == NULL)". -/
def firstAlloc : Ptr → HM Id
  | none => new
  | some a => pure a

/-- src/data_structure/array_list.h:45-62 (notification_deltas_add): "while (list->len >= list->capacity)". Whether there is room is up to the
oracle. -/
def grow (arr : Id) : HM Id := do
  if ← askB then realloc arr else return arr

/-- src/data_structure/array_list.h:45-62 (notification_deltas_add) -/
def deltasAdd (n : Notif) (d : Delta) : HM Notif := do
  let arr ← grow (← firstAlloc n.arr)
  use arr
  return { n with deltas := n.deltas ++ [d], arr := some arr }

/-- src/rrdp.c:643-662 `parse_notification_delta` -/
def parseNotificationDelta (e : Ev) (n : Notif) : HM (Bool × Notif) := do
  let s ← parseSerial Serial.null
  if s.1 then return (true, n)
  let m ← parseFileMetadata e .mandatory
  if m.1 then
    let _ ← serialCleanup s.2
    return (true, n)
  return (false, ← deltasAdd n ⟨s.2, m.2⟩)

/-- src/rrdp.c:664-700 `swap_until_sorted`. The loop runs as often as it's told. The slot is in the array (see Verif/Rrdp/SortProps). -/
def swapUntilSorted (arr : Ptr) (i : Nat) (min aux : Id) (max : Serial) : Nat → List Delta → HM (Bool × List Delta)
  | 0, ds => return (true, ds)
  | k + 1, ds => do
    useP arr
    match ds[i]? with
    | none => do
      crash
      return (true, ds)
    | some d => do
      useP d.serial.num
      use min
      if ← askB then
        let str ← new
        peek d.serial.str
        use str
        free str
        return (true, ds)
      useP max.num
      if ← askB then
        peek d.serial.str
        peek max.str
        return (true, ds)
      use aux
      if ← askB then return (true, ds)
      let t := (← ask) % ds.length
      if t = i then return (false, ds)
      match ds[t]? with
      | none => do
        crash
        return (true, ds)
      | some d2 => do
        useP d2.serial.num
        if ← askB then
          peek d.serial.str
          return (true, ds)
        swapUntilSorted arr i min aux max k ((ds.set t d).set i d2)

/-- The loop of src/rrdp.c:702-750 `sort_deltas`; `k` indexes are left. -/
def sortLoop (arr : Ptr) (min aux : Id) (max : Serial) : Nat → Nat → List Delta → HM (Bool × List Delta)
  | 0, _, ds => return (false, ds)
  | k + 1, i, ds => do
    let r ← swapUntilSorted arr i min aux max (← ask) ds
    if r.1 then return (true, r.2)
    sortLoop arr min aux max k (i + 1) r.2

/-- src/rrdp.c:702-750 `sort_deltas` -/
def sortDeltas (n : Notif) : HM (Bool × Notif) := do
  if n.deltas = [] then return (false, n)
  match n.session.serial.num with
  | none => return (true, n)
  | some num => do
    use num
    match ← create with
    | none => return (true, n)
    | some min => do
      use min
      if ← askB then
        peek n.session.serial.str
        free min
        return (true, n)
      if ← askB then
        peek n.session.serial.str
        free min
        return (true, n)
      let aux ← new
      let r ← sortLoop n.arr min aux n.session.serial n.deltas.length 0 n.deltas
      free aux
      free min
      return (r.1, { n with deltas := r.2 })

/-- src/rrdp.c:752-780 `xml_read_notif` -/
def xmlReadNotif (n : Notif) (e : Ev) (_more : Bool) : HM (Bool × Bool × Notif) := do
  match e.type with
  | .elem =>
    match e.name with
    | .delta => do
      let r ← parseNotificationDelta e n
      return (r.1, false, r.2)
    | .snapshot => do
      let r ← parseFileMetadata e .mandatory
      return (r.1, false, { n with snapshot := r.2 })
    | .notification => do
      let r ← parseSession e n.session
      return (r.1, false, { n with session := r.2 })
    | _ => return (true, false, n)
  | .endElem =>
    if e.name = .notification then do
      let r ← sortDeltas n
      return (r.1, false, r.2)
    else return (false, false, n)
  | .other => return (false, false, n)

/-- What the XML library says about documents: whether it's valid so far (`xmlTextReaderIsValid`, while there is more to read), and
whether it is once it has been read. -/
structure Lib where
  valid : List Ev → Bool
  validEnd : List Ev → Bool

/-- The loop of src/xml/relax_ng.c:85-150 `relax_ng_parse`, and what follows it. A callback gets to know whether there is another
node; it returns an error, and whether it read that node. -/
def relaxLoop {σ : Type} (lib : Lib) (cb : σ → Ev → Bool → HM (Bool × Bool × σ)) : List Ev → List Ev → Bool → σ → HM (Bool × σ)
  | seen, [], _, st => do
    if ← askB then return (true, st)
    return (!lib.validEnd seen, st)
  | seen, e :: es, true, st => relaxLoop lib cb (seen ++ [e]) es false st
  | seen, e :: es, false, st => do
    if lib.valid (seen ++ [e]) then
      let r ← cb st e (!es.isEmpty)
      if r.1 then return (true, r.2.2)
      relaxLoop lib cb (seen ++ [e]) es r.2.1 r.2.2
    else return (true, st)

/-- src/xml/relax_ng.c:85-150 `relax_ng_parse` -/
def relaxNgParse {σ : Type} (lib : Lib) (cb : σ → Ev → Bool → HM (Bool × Bool × σ)) (doc : List Ev) (st : σ) : HM (Bool × σ) := do
  match ← create with
  | none => return (true, st)
  | some reader => do
    use reader
    if ← askB then
      free reader
      return (true, st)
    match ← create with
    | none => do
      free reader
      return (true, st)
    | some ctx => do
      use reader
      use ctx
      if ← askB then
        free ctx
        free reader
        return (true, st)
      let r ← relaxLoop lib cb [] doc false st
      free ctx
      free reader
      return r

/-- src/rrdp.c:782-794 `parse_notification`. On success, the notification. -/
def parseNotification (lib : Lib) (doc : List Ev) : HM (Option Notif) := do
  let n ← updateNotificationInit
  let r ← relaxNgParse lib xmlReadNotif doc n
  if r.1 then
    updateNotificationCleanup r.2
    return none
  return some r.2

/-- src/rrdp.c:796-803 `delete_rpp` -/
def deleteRpp : HM Unit := do
  let path ← new
  use path
  free path

/-- src/rrdp.c:805-831 `xml_read_snapshot` -/
def xmlReadSnapshot (s : Session) (e : Ev) (more : Bool) : HM (Bool × Bool × Session) := do
  match e.type with
  | .elem =>
    match e.name with
    | .publish => return (← handlePublish e more .ignore, true, s)
    | .snapshot => return (← validateSession e s, false, s)
    | _ => return (true, false, s)
  | _ => return (false, false, s)

/-- The documents that the caches have, whenever one is read. -/
abbrev Docs := Nat → List Ev

/-- src/rrdp.c:833-848 `parse_snapshot`. `struct rrdp_ctx` borrows the notification's session. -/
def parseSnapshot (lib : Lib) (docs : Docs) (n : Notif) : HM Bool := do
  if ← validateHash n.snapshot then return true
  use n.uri
  useP n.snapshot.uri
  return (← relaxNgParse lib xmlReadSnapshot (docs (← ask)) n.session).1

/-- src/rrdp.c:850-881 `handle_snapshot` -/
def handleSnapshot (lib : Lib) (docs : Docs) (n : Notif) : HM Bool := do
  use n.uri
  deleteRpp
  useP n.snapshot.uri
  if ← askB then return true
  let error ← parseSnapshot lib docs n
  let _ ← deleteFile n.snapshot.uri
  return error

/-- src/rrdp.c:883-911 `xml_read_delta` -/
def xmlReadDelta (s : Session) (e : Ev) (more : Bool) : HM (Bool × Bool × Session) := do
  match e.type with
  | .elem =>
    match e.name with
    | .publish => return (← handlePublish e more .optional, true, s)
    | .withdraw => return (← handleWithdraw e, false, s)
    | .delta => return (← validateSession e s, false, s)
    | _ => return (true, false, s)
  | _ => return (false, false, s)

/-- src/rrdp.c:913-929 `parse_delta` -/
def parseDelta (lib : Lib) (docs : Docs) (n : Notif) (d : Delta) : HM Bool := do
  if ← validateHash d.info then return true
  use n.uri
  useP d.info.uri
  return (← relaxNgParse lib xmlReadDelta (docs (← ask)) ⟨n.session.sid, d.serial⟩).1

/-- src/rrdp.c:931-951 `handle_delta` -/
def handleDelta (lib : Lib) (docs : Docs) (n : Notif) (d : Delta) : HM Bool := do
  useP d.info.uri
  if ← askB then return true
  let error ← parseDelta lib docs n d
  let _ ← deleteFile d.info.uri
  return error

/-- The loop of src/rrdp.c:953-995 `handle_deltas`. -/
def deltaLoop (lib : Lib) (docs : Docs) (n : Notif) : List Delta → HM Bool
  | [] => return false
  | d :: ds => do
    useP n.arr
    if ← handleDelta lib docs n d then return true
    deltaLoop lib docs n ds

/-- src/rrdp.c:953-995 `handle_deltas` -/
def handleDeltas (lib : Lib) (docs : Docs) (n : Notif) (serial : Serial) : HM Bool := do
  if n.deltas = [] then return true
  peek serial.str
  peek n.session.serial.str
  let diff ← new
  use diff
  useP n.session.serial.num
  useP serial.num
  if ← askB then
    free diff
    peek n.session.serial.str
    peek serial.str
    return true
  use diff
  if ← askB then
    free diff
    peek n.session.serial.str
    peek serial.str
    return true
  let d ← ask
  free diff
  if d > 64 ∨ d > n.deltas.length then
    peek n.session.serial.str
    peek serial.str
    return true
  deltaLoop lib docs n (n.deltas.drop (n.deltas.length - d))

/-- src/rrdp.c:997-1021 `get_metadata`. An error, and the session. -/
def getMetadata (lib : Lib) (docs : Docs) : HM (Bool × Session) := do
  if ← askB then return (← askB, Session.null)
  match ← parseNotification lib (docs (← ask)) with
  | none => return (true, Session.null)
  | some n => do
    updateNotificationCleanup { n with session := Session.null }
    return (false, n.session)

/-- src/rrdp.c:1030-1091 `rrdp_update`, once there is a new notification: whether there was an error. -/
def useNotification (lib : Lib) (docs : Docs) (old : Session) (n : Notif) : HM Bool := do
  peek n.session.sid
  peek n.session.serial.str
  if old.sid = none ∨ old.serial.num = none then
    handleSnapshot lib docs n
  else do
    peek old.sid
    peek n.session.sid
    if ← askB then handleSnapshot lib docs n
    else do
      peek old.serial.num
      peek n.session.serial.num
      if ← askB then
        if ← handleDeltas lib docs n old.serial then handleSnapshot lib docs n
        else return false
      else return false

/-- src/rrdp.c:1030-1091 `rrdp_update`. `fnstack_push_uri` and `cache_download` are not this file's. -/
def rrdpUpdate (lib : Lib) (docs : Docs) : HM Bool := do
  let m ← getMetadata lib docs
  if m.1 then
    sessionCleanup m.2
    return true
  peek m.2.sid
  peek m.2.serial.str
  if ← askB then
    sessionCleanup m.2
    return true
  if ← askB then
    sessionCleanup m.2
    return false
  match ← parseNotification lib (docs (← ask)) with
  | none => do
    sessionCleanup m.2
    return true
  | some n => do
    let error ← useNotification lib docs m.2 n
    updateNotificationCleanup n
    sessionCleanup m.2
    return error

/-- As many updates as one likes, one after the other. -/
def updates (lib : Lib) (docs : Docs) : Nat → HM Unit
  | 0 => pure ()
  | n + 1 => do
    let _ ← rrdpUpdate lib docs
    updates lib docs n

end Verif.Xmem
