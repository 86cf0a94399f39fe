/-
Who owns what, while a trust anchor is validated: the references to URIs, publication points, certificates, CRLs and resources that src/types/uri.c, src/rpp.c, src/cert_stack.c,
src/object/*.c, src/cache/local_cache.c and src/rrdp.c take and release; and the pointers to them that they keep without a reference.

Everything else, that is what decides which way a function goes (contents of files, verdicts of libraries, the network, the clock), is an oracle: `St.orc`, an arbitrary sequence of numbers. An object
is its number; it is allocated if it has references. What does not share ownership (certificates, CRLs, resources, BIGNUMs, decoded structures, strings) has one reference from its creation to its
release.

Simplifications: counters don't overflow; allocations don't fail. `bad` covers the use or release of something that is not allocated, dereferences of NULL, and `pr_crit` (which aborts the process).
-/
namespace Verif.Mem

abbrev Id := Nat

/-- src/rpp.c:10-42 `struct rpp`. -/
structure Rpp where
  refs : Nat
  certs : List Id
  roas : List Id
  gbrs : List Id
  /-- `crl.uri` -/
  crl : Option Id
  /-- `crl.stack`, and the CRL in it -/
  stack : Option (Id × Id)
  /-- `crl.error` -/
  failed : Bool
  deriving Inhabited

/-- The references that a publication point has. -/
def Rpp.things (r : Rpp) : List Id := r.certs ++ r.roas ++ r.gbrs ++ r.crl.toList ++ r.stack.toList.flatMap fun x => [x.1, x.2]

/-- src/cert_stack.c:31-53 `struct metadata_node`. Of each serial number, the BIGNUM; its copy of the file's name is released with it. -/
structure Meta where
  uri : Id
  res : Id
  serials : List Id

def Meta.things (m : Meta) : List Id := m.uri :: m.res :: m.serials

/-- The thread's state. -/
structure St where
  /-- the number of references to each object -/
  refs : Id → Nat
  next : Id
  /-- all publication points there ever were -/
  rpps : List Rpp
  /-- `cert_stack.defers`: separators, and certificates with their publication points -/
  defers : List (Option (Id × Nat))
  metas : List Meta
  x509s : List Id
  /-- the URLs of the nodes of the cache -/
  nodes : List Id
  /-- the stack of the names of files: src/thread_var.c:10-15 `struct filename_stack`. These are pointers to the strings of URIs, without a reference. -/
  names : List Id
  /-- what `handle_tal_uri` has: `state` -/
  state : Option Id
  /-- the same, according to the thread's variable: src/thread_var.c:57-67 `state_store`, `state_retrieve`. It's not erased when the state is released. -/
  tls : Option Id
  bad : Bool
  orc : Nat → Nat
  pos : Nat

abbrev M := StateM St

/-! ### Primitives -/

/-- What happens next. -/
def ask : M Nat := fun s => (s.orc s.pos, { s with pos := s.pos + 1 })

def askB : M Bool := do return (← ask) ≠ 0

/-- The process is aborted, or memory is misused. -/
def crash : M Unit := fun s => ((), { s with bad := true })

/-- Something is read. -/
def use (i : Id) : M Unit := fun s => ((), { s with bad := s.bad || s.refs i = 0 })

/-- Something that may be NULL must not be, and is read. -/
def useOpt : Option Id → M Unit
  | none => crash
  | some i => use i

/-- src/thread_var.c:73-77 `state_retrieve`; and the state is used. -/
def useTls : M Unit := fun s => useOpt s.tls s

/-- src/types/uri.c:389-418 `__uri_create`, and whatever else allocates. -/
def new : M Id := fun s => (s.next, { s with refs := fun j => if j = s.next then 1 else s.refs j, next := s.next + 1 })

/-- src/types/uri.c:467-472 `uri_refget`. -/
def get (i : Id) : M Unit := fun s => ((), { s with bad := s.bad || s.refs i = 0, refs := fun j => if j = i then s.refs i + 1 else s.refs j })

/-- src/types/uri.c:474-486 `uri_refput`. -/
def put (i : Id) : M Unit := fun s => ((), { s with bad := s.bad || s.refs i = 0, refs := fun j => if j = i then s.refs i - 1 else s.refs j })

/-- src/types/uri.c:611-615 `uris_cleanup`, and the like. -/
def putAll : List Id → M Unit
  | [] => pure ()
  | i :: l => do put i; putAll l

/-- src/thread_var.c:140-156 `fnstack_push`. -/
def pushName (i : Id) : M Unit := fun s => ((), { s with names := i :: s.names, bad := s.bad || s.refs i = 0 })

/-- src/thread_var.c:184-194 `fnstack_pop`. -/
def popName : M Unit := fun s => ((), { s with names := s.names.tail })

/-- Messages begin with the name at the top of the stack: src/log.c `pr_val_err` and the like. -/
def log : M Unit := fun s =>
  match s.names with
  | [] => ((), s)
  | n :: _ => use n s

/-- A check; if it fails, this is logged. -/
def fails : M Bool := do
  if ← askB then
    log
    return true
  return false

/-- Something that is created, or this fails. -/
def create : M (Option Id) := do
  if ← fails then return none
  return some (← new)

/-! ### Publication points -/

/-- src/rpp.c:46-62 `rpp_create`. -/
def rppNew : M Nat := fun s => (s.rpps.length, { s with rpps := s.rpps ++ [⟨1, [], [], [], none, none, false⟩] })

/-- The publication point that's pointed to. -/
def rppAt (p : Nat) : M Rpp := fun s =>
  match s.rpps[p]? with
  | none => (default, { s with bad := true })
  | some r => (r, { s with bad := s.bad || r.refs = 0 })

def rppSet (p : Nat) (r : Rpp) : M Unit := fun s => ((), { s with rpps := s.rpps.set p r })

/-- src/rpp.c:64-68 `rpp_refget`. -/
def rppGet (p : Nat) : M Unit := do
  let r ← rppAt p
  rppSet p { r with refs := r.refs + 1 }

/-- src/rpp.c:70-84 `rpp_refput`. -/
def rppPut (p : Nat) : M Unit := do
  let r ← rppAt p
  if r.refs = 1 then
    rppSet p ⟨0, [], [], [], none, none, false⟩
    putAll r.things
  else
    rppSet p { r with refs := r.refs - 1 }

/-- What kinds of files there are. -/
inductive Kind where
  | cer | roa | gbr

/-- src/rpp.c:87-91 `rpp_add_cert`, src/rpp.c:94-98 `rpp_add_roa`, src/rpp.c:101-105 `rpp_add_ghostbusters`. -/
def rppAdd (p : Nat) (k : Kind) (u : Id) : M Unit := do
  let r ← rppAt p
  match k with
  | .cer => rppSet p { r with certs := r.certs ++ [u] }
  | .roa => rppSet p { r with roas := r.roas ++ [u] }
  | .gbr => rppSet p { r with gbrs := r.gbrs ++ [u] }

/-- src/rpp.c:108-117 `rpp_add_crl`. -/
def rppAddCrl (p : Nat) (u : Id) : M Bool := do
  let r ← rppAt p
  if r.crl.isSome then
    log
    return true
  rppSet p { r with crl := some u }
  return false

/-- src/rpp.c:125-148 `add_crl_to_stack`, with src/object/crl.c:166-184 `crl_load`. -/
def addCrl (u : Id) : M (Option Id) := do
  pushName u
  use u
  match ← create with
  | none =>
    popName
    return none
  | some crl =>
    if ← fails then
      put crl
      popName
      return none
    popName
    return some crl

/-- src/rpp.c:156-194 `rpp_crl`. `none` if it fails; `some none` if there is no CRL because there is no publication point. -/
def rppCrl : Option Nat → M (Option (Option Id))
  | none => return some none
  | some p => do
    let r ← rppAt p
    match r.crl with
    | none =>
      crash
      return none
    | some u =>
      match r.stack with
      | some (c, _) => return some (some c)
      | none =>
        if r.failed then return none
        let stack ← new
        match ← addCrl u with
        | none =>
          rppSet p { r with failed := true }
          put stack
          return none
        | some crl =>
          rppSet p { r with stack := some (stack, crl) }
          return some (some stack)

/-! ### The stack of certificates -/

/-- src/cert_stack.c:175-187 `deferstack_push`. -/
def deferPush (u : Id) (p : Nat) : M Unit := do
  get u
  rppGet p
  modify fun s => { s with defers := some (u, p) :: s.defers }

/-- src/cert_stack.c:113-126 `defer_destroy`. -/
def deferDestroy : Option (Id × Nat) → M Unit
  | none => pure ()
  | some (u, p) => do
    put u
    rppPut p

/-- src/cert_stack.c:135-142 `meta_destroy`. -/
def metaDestroy (m : Meta) : M Unit := putAll m.things

/-- src/cert_stack.c:189-205 `x509stack_pop`. -/
def x509Pop : M Unit := do
  let s ← MonadState.get
  match s.x509s, s.metas with
  | c :: l, m :: l' =>
    set { s with x509s := l, metas := l' }
    put c
    metaDestroy m
  | _, _ => crash

/-- src/cert_stack.c:210-234 `deferstack_pop`; the loop over separators is a recursion over a bound of the stack's size. -/
def deferPop : Nat → M (Option (Id × Nat))
  | 0 => return none
  | n + 1 => do
    let s ← MonadState.get
    match s.defers with
    | [] => return none
    | none :: l =>
      x509Pop
      modify fun s => { s with defers := l }
      deferPop n
    | some (u, p) :: l =>
      get u
      rppGet p
      modify fun s => { s with defers := l }
      deferDestroy (some (u, p))
      return some (u, p)

/-- src/cert_stack.c:242-273 `init_resources`. -/
def initResources : M (Option Id) := do
  let r ← new
  if ← fails then
    put r
    return none
  return some r

/-- src/cert_stack.c:287-327 `x509stack_push`. -/
def x509Push (u cert : Id) : M Bool := do
  get u
  match ← initResources with
  | none =>
    put u
    return true
  | some res =>
    if ← fails then
      put res
      put u
      return true
    modify fun s => { s with x509s := cert :: s.x509s, defers := none :: s.defers, metas := ⟨u, res, []⟩ :: s.metas }
    return false

/-- src/cert_stack.c:336-348 `x509stack_cancel`. -/
def x509Cancel : M Unit := do
  x509Pop
  let s ← MonadState.get
  match s.defers with
  | [] => crash
  | d :: l =>
    set { s with defers := l }
    deferDestroy d

/-- src/cert_stack.c:390-442 `x509stack_store_serial`, with src/object/certificate.c:129-145 `validate_serial_number`. -/
def storeSerial : M Bool := do
  match ← create with
  | none => return true
  | some n =>
    useTls
    let s ← MonadState.get
    match s.metas with
    | [] =>
      put n
      return false
    | m :: l =>
      if ← fails then
        put n
        return false
      modify fun s => { s with metas := { m with serials := m.serials ++ [n] } :: l }
      return false

/-- src/cert_stack.c:144-173 `certstack_destroy`: the deferred certificates. -/
def destroyDefers : Nat → M Unit
  | 0 => pure ()
  | n + 1 => do
    let s ← MonadState.get
    match s.defers with
    | [] => pure ()
    | d :: l =>
      set { s with defers := l }
      deferDestroy d
      destroyDefers n

/-- Then the certificates, and what is known of them. -/
def destroyMetas : List Meta → M Unit
  | [] => pure ()
  | m :: l => do
    modify fun s => { s with metas := l }
    metaDestroy m
    destroyMetas l

/-- src/cert_stack.c:144-173 `certstack_destroy`. -/
def certstackDestroy : M Unit := do
  destroyDefers (← MonadState.get).defers.length
  let l := (← MonadState.get).x509s
  modify fun s => { s with x509s := [] }
  putAll l
  destroyMetas (← MonadState.get).metas

/-! ### Certificates -/

/-- src/object/certificate.c:1559-1610 `handle_ad`; with the callbacks, which all take one reference (`handle_caIssuers`, `handle_caRepository`, `handle_rpkiNotify`, `handle_rpkiManifest`,
`handle_signedObject`). The result: what the callback was given, and whether there was an error. -/
def adLoop : Nat → Option Id → M (Option Id × Bool)
  | 0, found => return (found, false)
  | n + 1, found => do
    match ← ask with
    | 0 => adLoop n found
    | 1 =>
      log
      return (found, true)
    | _ =>
      useTls
      let u ← new
      if found.isSome then
        put u
        log
        return (found, true)
      get u
      put u
      adLoop n (some u)

def handleAd (required : Bool) : M (Option Id × Bool) := do
  let (found, e) ← adLoop (← ask) none
  if e then return (found, true)
  if required && found.isNone then
    log
    return (none, true)
  return (found, false)

/-- src/object/certificate.c:39-42 `struct sia_uris`, src/certificate_refs.h:8-31 `struct certificate_refs`; and which of the extensions were found. -/
structure Exts where
  rpp : List Id
  mft : Option Id
  crldp : Option Id
  caIssuers : Option Id
  signedObject : Option Id
  seenCdp : Bool
  seenAia : Bool
  seenSia : Bool

def Exts.none : Exts := ⟨[], .none, .none, .none, .none, false, false, false⟩

/-- What sia_uris refers to. -/
def Exts.sia (x : Exts) : List Id := x.rpp ++ x.mft.toList

/-- What the references (`certificate_refs`) refer to. -/
def Exts.refs (x : Exts) : List Id := x.crldp.toList ++ x.caIssuers.toList ++ x.signedObject.toList

/-- Which certificate it is. -/
inductive Type' where
  | ta | ca | ee
  deriving DecidableEq

/-- src/object/certificate.c:1632-1654 `handle_sia_ca`. -/
def handleSiaCa (x : Exts) : M (Exts × Bool) := do
  let (r, e) ← handleAd false
  let x := { x with rpp := x.rpp ++ r.toList }
  if e then return (x, true)
  let (r, e) ← handleAd false
  let x := { x with rpp := x.rpp ++ r.toList }
  if e then return (x, true)
  let (m, e) ← handleAd true
  return ({ x with mft := m }, e)

/-- src/object/certificate.c:1656-1661 `handle_sia_ee`. -/
def handleSiaEe (x : Exts) : M (Exts × Bool) := do
  let (u, e) ← handleAd true
  return ({ x with signedObject := u }, e)

/-- src/object/certificate.c:1625-1630 `handle_aia`. -/
def handleAia (x : Exts) : M (Exts × Bool) := do
  let (u, e) ← handleAd true
  return ({ x with caIssuers := u }, e)

/-- src/object/certificate.c:1413-1487 `handle_cdp`. -/
def handleCdp (x : Exts) : M (Exts × Bool) := do
  match ← create with
  | none => return (x, true)
  | some c => return ({ x with crldp := some c }, false)

/-- src/extension.c:897-919 `handle_extensions`, src/extension.c:838-895 `handle_extension`, with the handlers of src/object/certificate.c:1717-1738 `certificate_validate_extensions_ta`,
src/object/certificate.c:1749-1783 `certificate_validate_extensions_ca` and src/object/certificate.c:1785-1810 `certificate_validate_extensions_ee`. -/
def extLoop (t : Type') : Nat → Exts → M (Exts × Bool)
  | 0, x => do
    if (t ≠ .ta ∧ !(x.seenCdp && x.seenAia)) ∨ !x.seenSia then
      log
      return (x, true)
    return (x, ← fails)
  | n + 1, x => do
    match ← ask with
    | 0 => extLoop t n x
    | 1 =>
      log
      return (x, true)
    | 2 =>
      if t = .ta then extLoop t n x
      else if x.seenCdp then
        log
        return (x, true)
      else
        let (x, e) ← handleCdp { x with seenCdp := true }
        if e then return (x, true)
        extLoop t n x
    | 3 =>
      if t = .ta then extLoop t n x
      else if x.seenAia then
        log
        return (x, true)
      else
        let (x, e) ← handleAia { x with seenAia := true }
        if e then return (x, true)
        extLoop t n x
    | _ =>
      if x.seenSia then
        log
        return (x, true)
      else
        let (x, e) ← if t = .ee then handleSiaEe { x with seenSia := true } else handleSiaCa { x with seenSia := true }
        if e then return (x, true)
        extLoop t n x

def handleExtensions (t : Type') : M (Exts × Bool) := do extLoop t (← ask) .none

/-- src/certificate_refs.c:21-39 `validate_cdp`. -/
def validateCdp (x : Exts) (p : Nat) : M Bool := do
  useOpt x.crldp
  useOpt (← rppAt p).crl
  fails

/-- src/certificate_refs.c:88-99 `refs_validate_ee`, src/certificate_refs.c:41-55 `validate_signedObject`. -/
def refsValidateEe (x : Exts) (p : Nat) (u : Id) : M Bool := do
  if ← validateCdp x p then return true
  useOpt x.signedObject
  use u
  fails

/-- src/certificate_refs.c:64-78 `refs_validate_ca`. -/
def refsValidateCa (x : Exts) (p : Nat) : M Bool := do
  if ← validateCdp x p then return true
  if x.signedObject.isSome then crash
  return false

/-- The certificate extensions of a CA (src/object/certificate.c:1749-1783 `certificate_validate_extensions_ca`) or, without a parent, of a trust anchor. What remains are the SIA's URIs. -/
def extensionsCa (parent : Option Nat) : M (Exts × Bool) := do
  match parent with
  | none => handleExtensions .ta
  | some p =>
    let (x, e) ← handleExtensions .ca
    let e ← if e then pure true else refsValidateCa x p
    putAll x.refs
    return (x, e)

/-- src/object/certificate.c:1009-1088 `certificate_validate_chain`: the certificate, those of the stack and the CRL are read. -/
def useAll : List Id → M Unit
  | [] => pure ()
  | i :: l => do use i; useAll l

def validateChain (cert : Id) (crl : Option Id) : M Bool := do
  useTls
  match crl with
  | none => return false
  | some c =>
    use cert
    useAll (← MonadState.get).x509s
    use c
    fails

/-- src/object/certificate.c:515-568 `certificate_validate_rfc6487`. -/
def validateRfc6487 (cert : Id) : M Bool := do
  use cert
  useTls
  if ← fails then return true
  if ← storeSerial then return true
  fails

/-! ### Signed objects -/

/-- src/asn1/signed_data.c:49-113 `handle_sdata_certificate`. -/
def eeCertificate (crl : Option Id) (res : Id) : M (Exts × Bool) := do
  match ← create with
  | none => return (.none, true)
  | some cert =>
    if ← validateChain cert crl then
      put cert
      return (.none, true)
    if ← validateRfc6487 cert then
      put cert
      return (.none, true)
    let (x, e) ← handleExtensions .ee
    if e then
      put cert
      return (x, true)
    use res
    -- the parent's resources: src/resource.c:80-84 `get_parent_resources`
    useTls
    match (← MonadState.get).metas with
    | [] => pure ()
    | m :: _ => use m.res
    let e ← fails
    put cert
    return (x, e)

/-- src/object/signed_object.c:69-89 `signed_object_validate`. -/
def signedObjectValidate (crl : Option Id) (res : Id) : M (Exts × Bool) := do
  if ← fails then return (.none, true)
  let (x, e) ← eeCertificate crl res
  if e then return (x, true)
  return (x, ← fails)

/-- From `eecert_init` to `eecert_cleanup` (src/asn1/signed_data.c:18-31): the validation of a signed object, what follows it, and its references. -/
def eeValidate (u : Id) (p : Nat) (crl : Option Id) : M Bool := do
  let res ← new
  let (x, e) ← signedObjectValidate crl res
  let e ← if e then pure true else do
    useTls
    use res
    if ← fails then pure true else refsValidateEe x p u
  put res
  putAll x.refs
  return e

/-- src/object/roa.c:247-295 `roa_traverse`, src/object/ghostbusters.c:16-58 `ghostbusters_traverse`. What was decoded is one object. -/
def objectTraverse (p : Nat) (u : Id) : M Unit := do
  pushName u
  use u
  match ← create with
  | none => popName
  | some sobj =>
    match ← rppCrl (some p) with
    | none =>
      put sobj
      popName
    | some crl =>
      use sobj
      let _ ← eeValidate u p crl
      put sobj
      popName

/-- src/object/manifest.c:184-270 `build_rpp`: the loop. -/
def rppLoop (p : Nat) (mft : Id) : Nat → M Bool
  | 0 => return false
  | n + 1 => do
    use mft
    match ← create with
    | none => return true
    | some u =>
      use u
      match ← ask with
      | 0 =>
        log
        put u
        return true
      | 1 =>
        put u
        rppLoop p mft n
      | 2 =>
        rppAdd p .cer u
        rppLoop p mft n
      | 3 =>
        rppAdd p .roa u
        rppLoop p mft n
      | 4 =>
        rppAdd p .gbr u
        rppLoop p mft n
      | 5 =>
        put u
        rppLoop p mft n
      | _ =>
        if ← rppAddCrl p u then
          put u
          return true
        rppLoop p mft n

/-- src/object/manifest.c:184-270 `build_rpp`. -/
def buildRpp (mft : Id) : M (Option Nat) := do
  useTls
  let p ← rppNew
  if ← rppLoop p mft (← ask) then
    rppPut p
    return none
  if (← rppAt p).crl.isNone then
    log
    rppPut p
    return none
  return some p

/-- src/object/manifest.c:11-23 `cage`. -/
def cage (u : Id) (notif : Option Id) : M (Option Id) := do
  match notif with
  | none =>
    get u
    return some u
  | some n =>
    useTls
    use n
    use u
    create

/-- src/object/manifest.c:276-341 `handle_manifest`. -/
def handleManifest (mft : Option Id) (notif : Option Id) : M (Option Nat) := do
  match mft with
  | none =>
    crash
    return none
  | some m =>
    match ← cage m notif with
    | none => return none
    | some u =>
      pushName u
      use u
      let r ← match ← create with
        | none => pure none
        | some sobj =>
          match ← buildRpp u with
          | none =>
            put sobj
            pure none
          | some p =>
            match ← rppCrl (some p) with
            | none =>
              rppPut p
              put sobj
              pure none
            | some crl =>
              use sobj
              if ← eeValidate u p crl then
                rppPut p
                put sobj
                pure none
              else
                put sobj
                pure (some p)
      popName
      put u
      return r

/-! ### Downloads -/

/-- src/cache/local_cache.c:452-536 `get_url`. -/
def getUrl (u : Id) : M (Option Id) := do
  use u
  if ← askB then
    get u
    return some u
  create

/-- src/cache/local_cache.c:568-619 `cache_download`. Which node there is for the URL, if any, is the oracle's choice. -/
def cacheDownload (u : Id) : M Bool := do
  match ← getUrl u with
  | none => return true
  | some url =>
    let k ← ask
    match (← MonadState.get).nodes[k]? with
    | some node =>
      use node
      use url
      put url
      if ← askB then return (← askB)
      use node
      fails
    | none =>
      modify fun s => { s with nodes := url :: s.nodes }
      use url
      fails

/-- src/rrdp.c:76-83 `struct update_notification`. -/
structure Notif where
  uri : Id
  snapshot : Option Id
  deltas : List Id

def Notif.things (n : Notif) : List Id := n.snapshot.toList ++ n.deltas ++ [n.uri]

/-- src/rrdp.c:752-780 `xml_read_notif`, src/rrdp.c:495-527 `parse_file_metadata`, src/rrdp.c:643-662 `parse_notification_delta`. A second snapshot is not valid according to the schema: see
src/xml/relax_ng.c:85-150 `relax_ng_parse`. -/
def notifLoop : Nat → Notif → M (Notif × Bool)
  | 0, n => do
    let e ← if n.snapshot.isNone then do
        log
        pure true
      else fails
    return (n, e)
  | k + 1, n => do
    match ← ask with
    | 0 =>
      log
      return (n, true)
    | 1 =>
      useTls
      match ← create with
      | none => return (n, true)
      | some u =>
        if ← fails then
          put u
          return (n, true)
        notifLoop k { n with deltas := n.deltas ++ [u] }
    | 2 =>
      if n.snapshot.isSome then
        log
        return (n, true)
      useTls
      match ← create with
      | none => return (n, true)
      | some u =>
        if ← fails then
          put u
          return (n, true)
        notifLoop k { n with snapshot := some u }
    | _ => notifLoop k n

/-- src/rrdp.c:782-794 `parse_notification`. -/
def parseNotification (u : Id) : M (Option Notif) := do
  get u
  let (n, e) ← notifLoop (← ask) ⟨u, none, []⟩
  if e then
    putAll n.things
    return none
  return some n

/-- src/rrdp.c:613-627 `handle_publish`, src/rrdp.c:629-641 `handle_withdraw`: for each element of a snapshot or a delta. -/
def publishLoop (notif : Id) : Nat → M Bool
  | 0 => return false
  | n + 1 => do
    use notif
    match ← create with
    | none => return true
    | some u =>
      use u
      let e ← fails
      put u
      if e then return true
      publishLoop notif n

/-- src/rrdp.c:850-881 `handle_snapshot`, src/rrdp.c:931-951 `handle_delta`. -/
def handleFile (notif : Id) (u : Id) : M Bool := do
  useTls
  use notif
  use u
  pushName u
  if ← cacheDownload u then
    popName
    return true
  use u
  let e ← publishLoop notif (← ask)
  use u
  popName
  return e

def handleSnapshot (n : Notif) : M Bool := do
  match n.snapshot with
  | none =>
    crash
    return true
  | some u => handleFile n.uri u

/-- src/rrdp.c:953-995 `handle_deltas`. -/
def handleDeltas (n : Notif) : List Id → M Bool
  | [] => return false
  | u :: l => do
    if ← handleFile n.uri u then return true
    handleDeltas n l

/-- src/rrdp.c:1030-1091 `rrdp_update`. -/
def rrdpUpdate (u : Id) : M Bool := do
  pushName u
  use u
  -- get_metadata
  let e ← if ← askB then pure false else
    match ← parseNotification u with
    | none => pure true
    | some n => do
      putAll n.things
      pure false
  if e then
    popName
    return true
  useTls
  if ← cacheDownload u then
    popName
    return true
  if ← askB then
    popName
    return false
  match ← parseNotification u with
  | none =>
    popName
    return true
  | some n =>
    let e ← match ← ask with
      | 0 => handleSnapshot n
      | 1 => do
        if ← handleDeltas n (n.deltas.drop (← ask)) then handleSnapshot n else pure false
      | _ => pure false
    putAll n.things
    popName
    return e

/-- src/cache/local_cache.c:621-636 `download`. -/
def download (useRrdp : Bool) (u : Id) : M Bool := do
  use u
  if useRrdp && (← askB) then rrdpUpdate u else cacheDownload u

/-- src/cache/local_cache.c:668-701 `cache_download_alt`, with src/object/certificate.c:1884-1890 `retrieve_uri` as its callback: the URIs are tried, in the order `l`. -/
def downloadLoop : List Id → M (Option Id)
  | [] => return none
  | u :: l => do
    if ← askB then downloadLoop l   -- not of this type
    else if ← download true u then downloadLoop l
    else return some u

/-- src/cache/local_cache.c:742-763 `__cache_recover`. -/
def recoverLoop : List Id → Option Id → M (Option Id)
  | [], best => return best
  | u :: l, best => do
    match ← getUrl u with
    | none => recoverLoop l best
    | some url =>
      use url
      put url
      if ← askB then recoverLoop l (some u) else recoverLoop l best

/-- src/object/certificate.c:1892-1907 `download_rpp`. -/
def downloadRpp (l : List Id) : M (Option Id) := do
  if l.isEmpty then
    log
    return none
  useTls
  match ← downloadLoop l with
  | some u => return some u
  | none =>
    match ← downloadLoop l with
    | some u => return some u
    | none => recoverLoop l none

/-! ### The traversal -/

/-- src/rpp.c:196-222 `__cert_traverse`. -/
def certLoop (p : Nat) : List Id → M Unit
  | [] => pure ()
  | u :: l => do
    useTls
    deferPush u p
    certLoop p l

def objectLoop (p : Nat) : List Id → M Unit
  | [] => pure ()
  | u :: l => do
    objectTraverse p u
    objectLoop p l

/-- src/rpp.c:227-256 `rpp_traverse`. -/
def rppTraverse (p : Nat) : M Unit := do
  certLoop p (← rppAt p).certs.reverse
  objectLoop p (← rppAt p).roas
  objectLoop p (← rppAt p).gbrs

/-- src/object/certificate.c:1977-2010: from `sia_uris_init` to `sia_uris_cleanup`. The result: whether there was an error, and whether the certificate is still the caller's. -/
def traverseUris (parent : Option Nat) (u cert : Id) : M (Bool × Bool) := do
  let (x, e) ← extensionsCa parent
  let r ← if e then pure (true, true) else
    match ← downloadRpp x.rpp with
    | none => pure (true, true)
    | some d => do
      if ← x509Push u cert then pure (true, true)
      else
        use d
        match ← handleManifest x.mft (if ← askB then some d else none) with
        | none =>
          x509Cancel
          pure (true, false)
        | some p =>
          rppTraverse p
          rppPut p
          pure (false, false)
  putAll x.sia
  return r

/-- src/object/certificate.c:1910-2018 `certificate_traverse`. -/
def certificateTraverse (parent : Option Nat) (u : Id) : M Bool := do
  useTls
  if ← fails then return true
  pushName u
  match ← rppCrl parent with
  | none =>
    popName
    return true
  | some crl =>
    use u
    match ← create with
    | none =>
      popName
      return true
    | some cert =>
      if ← validateChain cert crl then
        put cert
        popName
        return true
      if ← fails then
        put cert
        popName
        return true
      if ← validateRfc6487 cert then
        put cert
        popName
        return true
      let (e, mine) ← traverseUris parent u cert
      if mine then put cert
      popName
      return e

/-- src/object/tal.c:393-409: the loop of `handle_tal_uri`. `false` if there are more certificates after `n`. -/
def drain : Nat → M Bool
  | 0 => return false
  | n + 1 => do
    match ← deferPop ((← MonadState.get).defers.length + 1) with
    | none => return true
    | some (u, p) =>
      let _ ← certificateTraverse (some p) u
      put u
      rppPut p
      drain n

/-- src/state.c:128-135 `validation_destroy`; X509_VERIFY_PARAM and X509_STORE are part of the state. -/
def validationDestroy : M Unit := do
  certstackDestroy
  let s ← MonadState.get
  match s.state with
  | none => crash
  | some t =>
    set { s with state := none }
    put t

/-- src/object/tal.c:339-414 `handle_tal_uri`: whether it fails, if it ends after at most `n` certificates. -/
def handleTalUri (n : Nat) (u : Id) : M (Option Bool) := do
  use u
  -- src/state.c:79-126 `validation_prepare`: the thread's variable is set even if it fails
  let t ← new
  modify fun s => { s with tls := some t }
  if ← fails then
    put t
    return some true
  modify fun s => { s with state := some t }
  if ← fails then
    validationDestroy
    return some true
  if ← certificateTraverse none u then
    validationDestroy
    return some true
  if ← drain n then
    validationDestroy
    return some false
  return none

/-! ### A TAL -/

/-- src/object/tal.c:62-113 `read_uris`, src/object/tal.c:43-60 `add_uri`: the list and whether there was an error. -/
def readUris : Nat → List Id → M (List Id × Bool)
  | 0, l => return (l, ← fails)
  | n + 1, l => do
    match ← create with
    | none => return (l, true)
    | some u => readUris n (l ++ [u])

/-- src/cache/local_cache.c:320-363 `load_tal_json`, src/cache/local_cache.c:241-301 `json2node`. -/
def loadNodes : Nat → M Unit
  | 0 => pure ()
  | n + 1 => do
    match ← create with
    | none => loadNodes n
    | some u =>
      if ← fails then put u
      else modify fun s => { s with nodes := u :: s.nodes }
      loadNodes n

/-- src/object/tal.c:270-306 `tal_init`, after the file was opened: the URIs, and the public key. -/
def talInit : M (Option (List Id × Id)) := do
  let (l, e) ← readUris (← ask) []
  if e then
    putAll l
    return none
  match ← create with
  | none =>
    putAll l
    return none
  | some spki =>
    loadNodes (← ask)
    return some (l, spki)

/-- src/cache/local_cache.c:668-701 `cache_download_alt`, with src/object/tal.c:416-421 `__handle_tal_uri` as its callback: `download_uris`. `none` if it doesn't end, and whether it's done. -/
def talLoop (n : Nat) : List Id → M (Option Bool)
  | [] => return some false
  | u :: l => do
    if ← askB then talLoop n l   -- not of this type
    else if ← download false u then talLoop n l
    else
      match ← handleTalUri n u with
      | none => return none
      | some e =>
        if e && (← askB) then talLoop n l
        else return some true

/-- src/cache/local_cache.c:668-701 `cache_download_alt`. -/
def talDownload (n : Nat) (l : List Id) : M (Option Unit) := do
  match ← talLoop n l with
  | none => return none
  | some true => return some ()
  | some false =>
    match ← talLoop n l with
    | none => return none
    | some true => return some ()
    | some false =>
      match ← recoverLoop l none with
      | none => return some ()
      | some u =>
        match ← handleTalUri n u with
        | none => return none
        | some _ => return some ()

/-- src/cache/local_cache.c:801-815 `delete_node_and_cage`: the cage. -/
def deleteCage : M Unit := do
  if ← askB then
    match ← create with
    | none => pure ()
    | some c =>
      use c
      put c

/-- src/cache/local_cache.c:840-867 `cleanup_node`, src/cache/local_cache.c:801-815 `delete_node_and_cage`, src/cache/local_cache.c:793-799 `delete_node`. The iteration is over the nodes there were. -/
def cleanupNodes : List Id → M Unit
  | [] => pure ()
  | u :: l => do
    use u
    if ← askB then
      deleteCage
      modify fun s => { s with nodes := s.nodes.erase u }
      put u
    cleanupNodes l

/-- src/cache/local_cache.c:915-960 `delete_unknown_files`: the list of what must not be cleaned. -/
def dncLoop : List Id → List Id → M (List Id)
  | [], dnc => return dnc
  | u :: l, dnc => do
    get u
    if ← askB then
      match ← create with
      | none => dncLoop l (dnc ++ [u])
      | some c => dncLoop l (dnc ++ [u, c])
    else dncLoop l (dnc ++ [u])

def deleteUnknown : M Unit := do
  if ← fails then pure ()
  else
    let dnc ← dncLoop (← MonadState.get).nodes [← new]
    useAll dnc
    putAll dnc

/-- src/cache/local_cache.c:980-992 `cache_destroy`: `cache_cleanup`, `write_tal_json`, and the nodes. -/
def cacheDestroy : M Unit := do
  cleanupNodes (← MonadState.get).nodes
  deleteUnknown
  useAll (← MonadState.get).nodes
  let l := (← MonadState.get).nodes
  modify fun s => { s with nodes := [] }
  putAll l

/-- src/object/tal.c:423-458 `do_file_validation`: its end, and the release of the thread's name (src/object/tal.c:460-466 `thread_destroy`). If debug messages are logged, `args.tal.file_name` is
read: a pointer to a part of the name or, if `tal_init` couldn't open the file, whatever there was in the thread's stack (`none`). -/
def talEnd (debug : Bool) (name : Option Id) (file : Id) : M (Option Unit) := do
  popName
  if debug && (← askB) then useOpt name
  put file
  return some ()

/-- src/object/tal.c:423-458 `do_file_validation`, from the creation of the thread to its end. The tables of ROAs are not part of this: they don't share anything. `none` if it doesn't end. -/
def doFileValidation (debug : Bool) (n : Nat) : M (Option Unit) := do
  let file ← new
  pushName file
  -- src/line_file.c:16-35 `lfile_open`
  if ← fails then talEnd debug none file
  else
    match ← talInit with
    | none => talEnd debug (some file) file
    | some (l, spki) =>
      match ← talDownload n l with
      | none => return none
      | some () =>
        log
        cacheDestroy
        put spki
        putAll l
        talEnd debug (some file) file

end Verif.Mem
