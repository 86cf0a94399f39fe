import Verif.Uri.ModelUri
/-
Model of the certificate extensions: src/extension.c, src/certificate_refs.c and their handlers in src/object/certificate.c.
-/
namespace Verif.Ext
open Verif.Res (Byte)
open Verif.Uri (Uri UriType uriCreate R Err)

/-- Object identifiers of extensions, as libcrypto's NIDs. -/
inductive Nid where
  | bc | ski | aki | ku | cdp | aia | sia | cp | ir | ar | ir2 | ar2
  | other (n : Nat)
  deriving DecidableEq, Repr

/-- Result of a function that returns an error code and changes some state. `ub`: undefined behaviour, or `pr_crit`. (The state is not kept on
failure: it's only released then.) -/
inductive Out (S : Type) where
  | ok (s : S)
  | fail (error : Int)
  | ub
  deriving DecidableEq, Repr

abbrev eSRCH : Int := 3
abbrev eINVAL : Int := 22
abbrev eNOSPC : Int := 28
variable {V S : Type}

/-- `struct extension_handler` (src/extension.h), without `found`. The argument is the state. -/
structure Handler (V S : Type) where
  nid : Nid
  critical : Bool
  mandatory : Bool
  cb : Option (V → S → Out S)

/-- `X509_EXTENSION`; `value` is what `X509V3_EXT_d2i` says of it: `none` is an error. -/
structure Ext (V : Type) where
  nid : Nid
  critical : Bool
  value : Option V
  deriving DecidableEq, Repr

/-- What src/extension.c:838-895 `handle_extension` does once a handler was found and marked. -/
def runHandler (h : Handler V S) (e : Ext V) (s : S) : Out S :=
  if h.critical = true ∧ e.critical = false then .fail (-eINVAL)
  else if h.critical = false ∧ e.critical = true then .fail (-eINVAL)
  else
    match h.cb with
    | none => .ok s
    | some cb =>
      match e.value with
      | none => .fail (-eINVAL)
      | some v => cb v s

/-- src/extension.c:838-895 `handle_extension`. The handlers are paired with `found`. -/
def handleExtension : List (Handler V S × Bool) → Ext V → S → Out (List (Handler V S × Bool) × S)
  | [], e, s => if e.critical = false then .ok ([], s) else .fail (-eINVAL)
  | (h, found) :: hs, e, s =>
    if h.nid = e.nid then
      if found then .fail (-eINVAL)
      else
        match runHandler h e s with
        | .ok s => .ok ((h, true) :: hs, s)
        | .fail err => .fail err
        | .ub => .ub
    else
      match handleExtension hs e s with
      | .ok (hs, s) => .ok ((h, found) :: hs, s)
      | .fail err => .fail err
      | .ub => .ub

/-- The first loop of src/extension.c:897-919 `handle_extensions`. -/
def extLoop : List (Ext V) → List (Handler V S × Bool) → S → Out (List (Handler V S × Bool) × S)
  | [], hs, s => .ok (hs, s)
  | e :: es, hs, s =>
    match handleExtension hs e s with
    | .ok (hs, s) => extLoop es hs s
    | .fail err => .fail err
    | .ub => .ub

/-- src/extension.c:897-919 `handle_extensions` -/
def handleExtensions (table : List (Handler V S)) (exts : List (Ext V)) (s : S) : Out S :=
  match extLoop exts (table.map (·, false)) s with
  | .ok (hs, s) => if hs.any (fun h => h.1.mandatory && !h.2) then .fail (-eINVAL) else .ok s
  | .fail err => .fail err
  | .ub => .ub

/-- `GENERAL_NAME`: a URI (GEN_URI, an IA5String; `bits`: its flag ASN1_STRING_FLAG_BITS_LEFT), or something else. -/
inductive Name where
  | uri (bits : Bool) (text : List Byte)
  | other
  deriving DecidableEq, Repr

/-- The `distpoint` of a `DIST_POINT`. -/
inductive DpName where
  | full (names : List Name)
  | relative
  | unknown
  deriving DecidableEq, Repr

/-- `DIST_POINT` -/
structure DistPoint where
  crlIssuer : Bool
  reasons : Bool
  distpoint : Option DpName
  deriving DecidableEq, Repr

/-- Access methods. -/
inductive Method where
  | caIssuers | signedObject | caRepository | notify | manifest
  | other (n : Nat)
  deriving DecidableEq, Repr

/-- `ACCESS_DESCRIPTION` -/
structure Ad where
  method : Method
  location : Name
  deriving DecidableEq, Repr

/-- `enum rpki_policy` -/
inductive Policy where
  | rfc6484
  | rfc8360
  deriving DecidableEq, Repr

/-- `POLICYINFO`: the policy, if it's one of those, and whether each of the qualifiers is a CPS; there might be no list of them. -/
structure PolicyInfo where
  id : Option Policy
  qualifiers : Option (List Bool)
  deriving DecidableEq, Repr

/-- Decoded extensions. Basic constraints: whether there's a path length. AKI: key identifier, whether there are an issuer, a serial. KU: the
contents of the bit string. `info` is both the AIA and the SIA. -/
inductive Val where
  | bc (pathlen : Bool)
  | ski (id : List Byte)
  | aki (keyid : Option (List Byte)) (issuer serial : Bool)
  | ku (data : List Byte)
  | cdp (points : List DistPoint)
  | info (ads : List Ad)
  | cp (infos : List PolicyInfo)
  | resources
  deriving DecidableEq, Repr

/-- What the handlers write: `struct sia_uris`, `struct certificate_refs`, and the policy. -/
structure St where
  rpp : List Uri
  mft : Option Uri
  crldp : Option (List Byte)
  caIssuers : Option Uri
  signedObject : Option Uri
  policy : Option Policy
  deriving DecidableEq, Repr

/-- What the handlers read: the cache directory and the TAL's name; `sha1` (`none` is an error of libcrypto); the public key of the certificate, and its parent's (there might
be no parent; `none` inside is an error of libcrypto). -/
structure Env where
  repo : List Byte
  tal : List Byte
  sha1 : List Byte → Option (List Byte)
  spk : Option (List Byte)
  parent : Option (Option (List Byte))

/-- src/extension.c:932-998 `validate_public_key_hash` with src/crypto/hash.c:196-212 `hash_validate`. The lengths aren't negative. -/
def validatePublicKeyHash (env : Env) (spk : Option (List Byte)) (hash : List Byte) : Bool :=
  match spk with
  | none => false
  | some spk =>
    match env.sha1 spk with
    | none => false
    | some actual => decide (hash.length = actual.length) && decide (hash = actual.take hash.length)

/-- src/object/certificate.c:1296-1311 `handle_bc` -/
def handleBc (v : Val) (s : St) : Out St :=
  match v with
  | .bc pathlen => if pathlen = false then .ok s else .fail (-eINVAL)
  | _ => .ub

/-- src/object/certificate.c:1313-1317 `handle_ski_ca` -/
def handleSkiCa (env : Env) (v : Val) (s : St) : Out St :=
  match v with
  | .ski id => if validatePublicKeyHash env env.spk id then .ok s else .fail (-eINVAL)
  | _ => .ub

/-- src/object/certificate.c:1319-1340 `handle_ski_ee` -/
def handleSkiEe (env : Env) (sid : List Byte) (v : Val) (s : St) : Out St :=
  match v with
  | .ski id =>
    if validatePublicKeyHash env env.spk id = false then .fail (-eINVAL)
    else if id.length ≠ sid.length ∨ id.take sid.length ≠ sid.take sid.length then .fail (-eINVAL)
    else .ok s
  | _ => .ub

/-- `X509_get_ext_d2i` of the SKI: it has to be there once. -/
def getSki (exts : List (Ext Val)) : Option (List Byte) :=
  match exts.filter (fun e => e.nid = .ski) with
  | [e] =>
    match e.value with
    | some (.ski id) => some id
    | _ => none
  | _ => none

/-- src/object/certificate.c:1342-1368 `handle_aki_ta`. `exts` are the certificate's extensions. -/
def handleAkiTa (exts : List (Ext Val)) (v : Val) (s : St) : Out St :=
  match v with
  | .aki none _ _ => .fail (-eINVAL)
  | .aki (some keyid) _ _ =>
    match getSki exts with
    | none => .fail (-eSRCH)
    | some ski => if keyid = ski then .ok s else .fail (-eINVAL)
  | _ => .ub

/-- src/extension.c:1000-1024 `handle_aki` -/
def handleAki (env : Env) (v : Val) (s : St) : Out St :=
  match v with
  | .aki none _ _ => .fail (-eINVAL)
  | .aki (some keyid) issuer serial =>
    if issuer then .fail (-eINVAL)
    else if serial then .fail (-eINVAL)
    else
      match env.parent with
      | none => .fail (-eINVAL)
      | some spk => if validatePublicKeyHash env spk keyid then .ok s else .fail (-eINVAL)
  | _ => .ub

/-- src/object/certificate.c:1370-1399 `handle_ku` -/
def handleKu (byte1 : Byte) (v : Val) (s : St) : Out St :=
  match v with
  | .ku data =>
    if data.length ≠ 2 ∧ data.length ≠ 1 then .fail (-eINVAL)
    else
      let buf := data ++ List.replicate (2 - data.length) 0#8
      if buf.getD 0 0#8 ≠ byte1 ∨ buf.getD 1 0#8 ≠ 0#8 then .fail (-eINVAL) else .ok s
  | _ => .ub

/-- src/object/certificate.c:1248-1257 `is_rsync`. (`strncmp` doesn't go past the prefix; there are no NULs in it.) -/
def isRsync (uri : List Byte) : Bool :=
  if uri.length ≥ 8 then decide (uri.take 8 = Uri.rsyncPrefix) else false

/-- The loop of src/object/certificate.c:1413-1487 `handle_cdp`, with src/str_token.c:25-33 `ia5s2string`. -/
def cdpLoop (s : St) : List Name → Out St
  | [] => .fail (-eINVAL)
  | .uri bits text :: names =>
    if isRsync text then (if bits then .fail (-eINVAL) else .ok { s with crldp := some text }) else cdpLoop s names
  | .other :: names => cdpLoop s names

/-- src/object/certificate.c:1413-1487 `handle_cdp` -/
def handleCdp (v : Val) (s : St) : Out St :=
  match v with
  | .cdp [dp] =>
    if dp.crlIssuer then .fail (-eINVAL)
    else if dp.reasons then .fail (-eINVAL)
    else
      match dp.distpoint with
      | none => .fail (-eINVAL)
      | some .relative => .fail (-eINVAL)
      | some .unknown => .fail (-eINVAL)
      | some (.full names) => cdpLoop s names
  | .cdp _ => .fail (-eINVAL)
  | _ => .ub

/-- Results of src/object/certificate.c:1492-1540 `uri_create_ad`. -/
inductive AdUri where
  | ok (u : Uri)
  | skip
  | fail (e : Int)
  | ub
  deriving DecidableEq, Repr

/-- src/object/certificate.c:1492-1540 `uri_create_ad`, and the `switch` of its caller. -/
def uriCreateAd (env : Env) (type : UriType) (loc : Name) : AdUri :=
  match loc with
  | .other => .skip
  | .uri _ text =>
    match uriCreate env.repo (some env.tal) type none text with
    | .ok u => .ok u
    | .err .notRsync => .skip
    | .err .notHttps => .skip
    | .err .inval => .fail (-eINVAL)
    | .err .nospc => .fail eNOSPC
    | .crash => .ub

/-- The loop of src/object/certificate.c:1559-1610 `handle_ad`; `found` is what was given to the callback, which never fails, so far. -/
def adLoop (env : Env) (method : Method) (type : UriType) : List Ad → Option Uri → Out (Option Uri)
  | [], found => .ok found
  | ad :: ads, found =>
    if ad.method = method then
      match uriCreateAd env type ad.location with
      | .skip => adLoop env method type ads found
      | .fail e => .fail e
      | .ub => .ub
      | .ok u =>
        match found with
        | some _ => .fail (-eINVAL)
        | none => adLoop env method type ads (some u)
    else adLoop env method type ads found

/-- src/object/certificate.c:1559-1610 `handle_ad` -/
def handleAd (env : Env) (method : Method) (type : UriType) (required : Bool) (ads : List Ad) : Out (Option Uri) :=
  match adLoop env method type ads none with
  | .ok none => if required then .fail (-eSRCH) else .ok none
  | r => r

/-- src/object/certificate.c:1625-1630 `handle_aia` -/
def handleAia (env : Env) (v : Val) (s : St) : Out St :=
  match v with
  | .info ads =>
    match handleAd env .caIssuers .rsync true ads with
    | .ok r => .ok { s with caIssuers := r }
    | .fail e => .fail e
    | .ub => .ub
  | _ => .ub

/-- src/object/certificate.c:1632-1654 `handle_sia_ca` -/
def handleSiaCa (env : Env) (v : Val) (s : St) : Out St :=
  match v with
  | .info ads =>
    match handleAd env .caRepository .rsync false ads with
    | .fail e => .fail e
    | .ub => .ub
    | .ok r1 =>
      let s := { s with rpp := s.rpp ++ r1.toList }
      match handleAd env .notify .https false ads with
      | .fail e => .fail e
      | .ub => .ub
      | .ok r2 =>
        let s := { s with rpp := s.rpp ++ r2.toList }
        match handleAd env .manifest .rsync true ads with
        | .fail e => .fail e
        | .ub => .ub
        | .ok r3 => .ok { s with mft := r3 }
  | _ => .ub

/-- src/object/certificate.c:1656-1661 `handle_sia_ee` -/
def handleSiaEe (env : Env) (v : Val) (s : St) : Out St :=
  match v with
  | .info ads =>
    match handleAd env .signedObject .rsync true ads with
    | .ok r => .ok { s with signedObject := r }
    | .fail e => .fail e
    | .ub => .ub
  | _ => .ub

/-- src/object/certificate.c:1663-1709 `handle_cp`. `policy` isn't NULL in the calls of this program. -/
def handleCp (v : Val) (s : St) : Out St :=
  match v with
  | .cp [pi] =>
    match pi.id with
    | none => .fail (-eINVAL)
    | some p =>
      let s := { s with policy := some p }
      match pi.qualifiers with
      | none => .ok s
      | some [] => .ok s
      | some [cps] => if cps then .ok s else .fail (-eINVAL)
      | some (_ :: _ :: _) => .fail (-eINVAL)
  | .cp _ => .fail (-eINVAL)
  | _ => .ub

/-- The last rows of the tables. (src/extension.c: whether each extension is critical.) -/
def resourceRows : List (Handler Val St) :=
  [⟨.ir, true, false, none⟩, ⟨.ar, true, false, none⟩, ⟨.ir2, true, false, none⟩, ⟨.ar2, true, false, none⟩]

/-- The table of src/object/certificate.c:1717-1738 `certificate_validate_extensions_ta`. -/
def taTable (env : Env) (exts : List (Ext Val)) : List (Handler Val St) :=
  [⟨.bc, true, true, some handleBc⟩,
   ⟨.ski, false, true, some (handleSkiCa env)⟩,
   ⟨.aki, false, false, some (handleAkiTa exts)⟩,
   ⟨.ku, true, true, some (handleKu 0x06#8)⟩,
   ⟨.sia, false, true, some (handleSiaCa env)⟩,
   ⟨.cp, true, true, some handleCp⟩] ++ resourceRows

/-- The table of src/object/certificate.c:1749-1783 `certificate_validate_extensions_ca`. -/
def caTable (env : Env) : List (Handler Val St) :=
  [⟨.bc, true, true, some handleBc⟩,
   ⟨.ski, false, true, some (handleSkiCa env)⟩,
   ⟨.aki, false, true, some (handleAki env)⟩,
   ⟨.ku, true, true, some (handleKu 0x06#8)⟩,
   ⟨.cdp, false, true, some handleCdp⟩,
   ⟨.aia, false, true, some (handleAia env)⟩,
   ⟨.sia, false, true, some (handleSiaCa env)⟩,
   ⟨.cp, true, true, some handleCp⟩] ++ resourceRows

/-- The table of src/object/certificate.c:1785-1810 `certificate_validate_extensions_ee`. -/
def eeTable (env : Env) (sid : List Byte) : List (Handler Val St) :=
  [⟨.ski, false, true, some (handleSkiEe env sid)⟩,
   ⟨.aki, false, true, some (handleAki env)⟩,
   ⟨.ku, true, true, some (handleKu 0x80#8)⟩,
   ⟨.cdp, false, true, some handleCdp⟩,
   ⟨.aia, false, true, some (handleAia env)⟩,
   ⟨.sia, false, true, some (handleSiaEe env)⟩,
   ⟨.cp, true, true, some handleCp⟩] ++ resourceRows

/-- `sia_uris_init`, `refs_init`; the policy isn't initialised. -/
def St.init : St := ⟨[], none, none, none, none, none⟩

/-- src/object/certificate.c:1717-1738 `certificate_validate_extensions_ta` -/
def validateTa (env : Env) (exts : List (Ext Val)) : Out St := handleExtensions (taTable env exts) exts St.init

/-- A C string: the bytes before the first NUL. -/
def cstr (buf : List Byte) : List Byte := buf.takeWhile (· ≠ 0#8)

/-- src/certificate_refs.c:21-39 `validate_cdp`; `crl` is the global URI of the publication point's CRL. -/
def validateCdp (s : St) (crl : Option (List Byte)) : Out St :=
  match s.crldp, crl with
  | none, _ => .ub
  | _, none => .ub
  | some crldp, some crl => if cstr crldp = cstr crl then .ok s else .fail (-eINVAL)

/-- src/certificate_refs.c:64-78 `refs_validate_ca` -/
def refsValidateCa (s : St) (crl : Option (List Byte)) : Out St :=
  match validateCdp s crl with
  | .ok s => if s.signedObject = none then .ok s else .ub
  | r => r

/-- src/certificate_refs.c:88-99 `refs_validate_ee` with src/certificate_refs.c:41-55 `validate_signedObject`; `uri` is the global URI of the object. -/
def refsValidateEe (s : St) (crl : Option (List Byte)) (uri : List Byte) : Out St :=
  match validateCdp s crl with
  | .ok s =>
    match s.signedObject with
    | none => .ub
    | some so => if cstr so.global = cstr uri then .ok s else .fail (-eINVAL)
  | r => r

/-- src/object/certificate.c:1749-1783 `certificate_validate_extensions_ca`. `certificate_validate_aia` is always a success. -/
def validateCa (env : Env) (exts : List (Ext Val)) (crl : Option (List Byte)) : Out St :=
  match handleExtensions (caTable env) exts St.init with
  | .ok s => refsValidateCa s crl
  | r => r

/-- src/object/certificate.c:1785-1810 `certificate_validate_extensions_ee` -/
def validateEe (env : Env) (sid : List Byte) (exts : List (Ext Val)) : Out St := handleExtensions (eeTable env sid) exts St.init

/-- `enum cert_type` -/
inductive CertType where
  | ta | ca | bgpsec | ee
  deriving DecidableEq, Repr

/-- src/object/certificate.c:1819-1841 `has_bgpsec_router_eku`; `none`: the extension isn't there (or can't be decoded). Each identifier is whether it's the one of a router. -/
def hasBgpsecRouterEku (eku : Option (List Bool)) : Bool :=
  match eku with
  | none => false
  | some ids => ids.any id

/-- src/object/certificate.c:1847-1871 `get_certificate_type`. `purpose`: result of `X509_check_purpose`; `ca`: of `X509_check_ca`. -/
def getCertificateType (isTa : Bool) (purpose ca : Int) (eku : Option (List Bool)) : Option CertType :=
  if isTa then some .ta
  else if purpose ≤ 0 then none
  else if ca = 1 then some .ca
  else if hasBgpsecRouterEku eku then some .bgpsec
  else none

end Verif.Ext
