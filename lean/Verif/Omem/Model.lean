import Verif.Heap.Basic
/-
Model of what the functions that load and validate certificates, CRLs and signed objects do with memory, including what they only
allocate for themselves. URIs and publication points are in Verif/Mem. Of the files, what matters to memory is given: which
attributes the names have and whether the dates can be printed. What else they contain, and the outcomes of library functions, are
up to an oracle.
-/
namespace Verif.Omem
open Verif.Heap

/-- A pointer; `none` is NULL. -/
abbrev Ptr := Option Id

/-- `free`: NULL is fine. -/
def freeP : Ptr → HM Unit
  | none => pure ()
  | some i => free i

/-- A use that NULL is no good for. -/
def useP : Ptr → HM Unit
  | none => crash
  | some i => use i

/-- A use that NULL is good for. Of `printf("%s")` this is true of the C libraries there are, not of the standard. -/
def peek : Ptr → HM Unit
  | none => pure ()
  | some i => use i

/-- The pointer is overwritten. -/
def loseP : Ptr → HM Unit
  | none => pure ()
  | some i => lose i

/-- src/alloc.c:40-50 `prealloc` -/
def realloc (i : Id) : HM Id := do free i; new

def whenB (b : Bool) (m : HM Unit) : HM Unit := if b = true then m else pure ()

/-! ### What's in the files -/

/-- src/object/name.c:60-73: the attributes that are told apart. -/
inductive Attr where
  | cn
  | sn
  | other
  deriving DecidableEq, Repr

abbrev Name := List Attr

/-- A certificate: its names, and whether notBefore and notAfter can be printed. -/
structure CertF where
  issuer : Name
  subject : Name
  nb : Bool
  na : Bool
  deriving DecidableEq, Repr

/-- A CRL: its issuer, and whether lastUpdate and nextUpdate can be printed. -/
structure CrlF where
  issuer : Name
  lu : Bool
  nu : Bool
  deriving DecidableEq, Repr

/-! ### Names -/

/-- src/object/name.c:16-21 `struct rfc5280_name` -/
structure RName where
  id : Id
  cn : Ptr
  sn : Ptr
  deriving DecidableEq, Repr

/-- src/object/name.c:23-39 `name2string`; `old` is what `_result` points to. -/
def name2string (old : Ptr) : HM (Bool × Ptr) := do
  if ← askB then return (true, old)
  let r ← new
  loseP old
  return (false, some r)

/-- src/object/name.c:57-77: the loop of `x509_name_decode`. -/
def nameLoop (r : RName) : Name → HM (Bool × RName)
  | [] => pure (false, r)
  | .cn :: l => do
    let x ← name2string r.cn
    if x.1 = true then return (true, r)
    nameLoop { r with cn := x.2 } l
  | .sn :: l => do
    let x ← name2string r.sn
    if x.1 = true then return (true, r)
    nameLoop { r with sn := x.2 } l
  | .other :: _ => pure (true, r)

/-- src/object/name.c:97-106 `x509_name_put`. There is never more than one reference. -/
def namePut (r : RName) : HM Unit := do
  use r.id
  freeP r.cn
  freeP r.sn
  free r.id

/-- src/object/name.c:41-89 `x509_name_decode` -/
def nameDecode (n : Name) : HM (Option RName) := do
  let id ← new
  let x ← nameLoop ⟨id, none, none⟩ n
  if x.1 = true then
    namePut x.2
    return none
  if x.2.cn = none then
    namePut x.2
    return none
  return some x.2

/-- src/object/name.c:134-139 `x509_name_equals`, `str_equals` -/
def nameEquals (a b : RName) : HM Bool := do
  useP a.cn
  useP b.cn
  if ← askB then return false
  peek a.sn
  peek b.sn
  askB

/-- src/object/name.c:141-193 `validate_issuer_name`: whether it fails. `parent` is the certificate at the top of the stack, `cont` is
the certificate or the CRL that the issuer is of. -/
def validateIssuerName (parent : Option (Id × CertF)) (cont : Id) (issuer : Name) : HM Bool :=
  match parent with
  | none => pure true
  | some p => do
    use p.1
    match ← nameDecode p.2.subject with
    | none => return true
    | some ps =>
      use cont
      match ← nameDecode issuer with
      | none =>
        namePut ps
        return true
      | some ci =>
        useP ci.cn
        let e ← nameEquals ps ci
        whenB (!e) (do peek ps.sn; peek ci.sn; useP ci.cn; useP ps.cn)
        namePut ci
        namePut ps
        return !e

/-- A name is decoded to print it: src/object/name.c:195-213 `x509_name_pr_debug`, src/object/certificate.c:220-233 `validate_subject`, and
src/object/certificate.c:157-178 `validate_issuer` of trust anchors. Whether it fails. -/
def nameShow (cert : Id) (n : Name) : HM Bool := do
  use cert
  match ← nameDecode n with
  | none => return true
  | some r =>
    useP r.cn
    namePut r
    return false

/-! ### CRLs -/

/-- src/object/crl.c:12-41 `__crl_load`, src/object/certificate.c:825-853 `certificate_load` -/
def load : HM (Option Id) := do
  match ← create with
  | none => return none
  | some bio =>
    if ← askB then
      free bio
      return none
    use bio
    let x ← create
    free bio
    return x

/-- src/object/crl.c:43-65 `debug_revoked` -/
def debugRevoked : HM Unit := do
  match ← create with
  | none => return ()
  | some bn =>
    use bn
    match ← create with
    | none => free bn
    | some str =>
      use str
      free str
      free bn

/-- src/object/crl.c:67-102 `validate_revoked` -/
def revokedLoop (debug : Bool) (crl : Id) : Nat → HM Bool
  | 0 => pure false
  | n + 1 => do
    use crl
    if ← askB then return true
    whenB debug debugRevoked
    if ← askB then return true
    revokedLoop debug crl n

/-- src/crypto/hash.c:196-212 `hash_validate`, src/crypto/hash.c:166-191 `hash_buffer`: whether it fails. -/
def hashValidate : HM Bool := do
  if ← askB then return true
  let ctx ← new
  use ctx
  let e ← askB
  free ctx
  if e = true then return true
  askB

/-! ### Extensions -/

/-- src/extension.c:812-825: the extensions, with the functions that handle them; `akiTa` is the AKI of trust anchors. -/
inductive Ext where
  | bc | ski | aki | akiTa | ku | cdp | aia | sia | cp | ir | ar | ir2 | ar2 | cn
  deriving DecidableEq, Repr

/-- src/object/crl.c:127-138 `validate_extensions` -/
def extsCrl : List Ext := [.aki, .cn]
/-- src/object/certificate.c:1717-1738 `certificate_validate_extensions_ta` -/
def extsTa : List Ext := [.bc, .ski, .akiTa, .ku, .sia, .cp, .ir, .ar, .ir2, .ar2]
/-- src/object/certificate.c:1749-1783 `certificate_validate_extensions_ca` -/
def extsCa : List Ext := [.bc, .ski, .aki, .ku, .cdp, .aia, .sia, .cp, .ir, .ar, .ir2, .ar2]
/-- src/object/certificate.c:1785-1810 `certificate_validate_extensions_ee` -/
def extsEe : List Ext := [.ski, .aki, .ku, .cdp, .aia, .sia, .cp, .ir, .ar, .ir2, .ar2]

/-- src/object/certificate.c:1342-1368 `handle_aki_ta` -/
def handleAkiTa (cert : Id) : HM Bool := do
  if ← askB then return true
  use cert
  match ← create with
  | none => return true
  | some ski =>
    use ski
    let e ← askB
    free ski
    return e

/-- src/object/certificate.c:1413-1487 `handle_cdp`, src/str_token.c:25-33 `ia5s2string`, src/str_token.c:12-23 `string_clone` -/
def handleCdp (crldp : Ptr) : HM (Bool × Ptr) := do
  if ← askB then return (true, crldp)
  let s ← new
  loseP crldp
  return (false, some s)

/-- src/extension.c:1000-1024 `handle_aki`, src/extension.c:932-998 `validate_public_key_hash` -/
def handleAki (parent : Option (Id × CertF)) : HM Bool := do
  if ← askB then return true
  match parent with
  | none => return true
  | some p =>
    use p.1
    hashValidate

/-- src/object/certificate.c:1313-1317 `handle_ski_ca`, `handle_ski_ee`, src/extension.c:932-998 `validate_public_key_hash` -/
def handleSki (cert : Id) : HM Bool := do
  use cert
  if ← hashValidate then return true
  askB

/-- src/extension.c:862: the callback; `d` is the decoded extension. URIs are not part of this model (see Verif/Mem). -/
def handler (parent : Option (Id × CertF)) (cert : Id) (d : Id) (crldp : Ptr) (x : Ext) : HM (Bool × Ptr) := do
  use d
  match x with
  | .cdp => handleCdp crldp
  | .ski => return (← handleSki cert, crldp)
  | .aki => return (← handleAki parent, crldp)
  | .akiTa => return (← handleAkiTa cert, crldp)
  | _ => return (← askB, crldp)

/-- src/object/certificate.c:1729-1733: these have no callback. -/
def Ext.silent (x : Ext) : Bool := x = .ir ∨ x = .ar ∨ x = .ir2 ∨ x = .ar2

/-- src/extension.c:838-895 `handle_extension`: whether it fails, which extensions were found, and `refs->crldp`. -/
def handleExtension (hs : List Ext) (parent : Option (Id × CertF)) (cert : Id) (found : List Ext) (crldp : Ptr) : HM (Bool × List Ext × Ptr) := do
  use cert
  let k ← ask
  match hs[k]? with
  | none => return (← askB, found, crldp)
  | some x =>
    if x ∈ found then return (true, found, crldp)
    if ← askB then return (true, x :: found, crldp)
    if x.silent = true then return (false, x :: found, crldp)
    match ← create with
    | none => return (true, x :: found, crldp)
    | some d =>
      let r ← handler parent cert d crldp x
      free d
      return (r.1, x :: found, r.2)

/-- src/extension.c:897-919 `handle_extensions`: the loop. -/
def extLoop (hs : List Ext) (parent : Option (Id × CertF)) (cert : Id) : Nat → List Ext → Ptr → HM (Bool × Ptr)
  | 0, _, crldp => do return (← askB, crldp)
  | n + 1, found, crldp => do
    let r ← handleExtension hs parent cert found crldp
    if r.1 = true then return (true, r.2.2)
    extLoop hs parent cert n r.2.1 r.2.2

/-- src/extension.c:897-919 `handle_extensions` -/
def handleExtensions (hs : List Ext) (parent : Option (Id × CertF)) (cert : Id) : HM (Bool × Ptr) := do
  extLoop hs parent cert (← ask) [] none

/-- src/object/crl.c:140-164 `crl_validate`. CRLs' extensions have no distribution point: the second of the pair is NULL. -/
def crlValidate (debug : Bool) (parent : Option (Id × CertF)) (f : CrlF) (crl : Id) : HM Bool := do
  use crl
  if ← askB then return true
  if ← validateIssuerName parent crl f.issuer then return true
  if ← revokedLoop debug crl (← ask) then return true
  let r ← handleExtensions extsCrl parent crl
  peek r.2
  return r.1

/-- src/object/crl.c:166-184 `crl_load` -/
def crlLoad (debug : Bool) (parent : Option (Id × CertF)) (f : CrlF) : HM (Option Id) := do
  match ← load with
  | none => return none
  | some crl =>
    if ← crlValidate debug parent f crl then
      free crl
      return none
    return some crl

/-- A stack of CRLs, which has one. -/
structure Crls where
  stack : Id
  crl : Id
  file : CrlF
  deriving DecidableEq, Repr

/-- src/rpp.c:14-31: what a publication point has of its CRL. -/
structure Pp where
  crls : Option Crls
  error : Bool
  deriving DecidableEq, Repr

/-- src/rpp.c:156-194 `rpp_crl`, src/rpp.c:125-148 `add_crl_to_stack`. `f` is what's in the file, if it's read now. -/
def rppCrl (debug : Bool) (parent : Option (Id × CertF)) (f : CrlF) (pp : Pp) : HM (Pp × Option Crls) :=
  match pp.crls with
  | some c => pure (pp, some c)
  | none => if pp.error = true then pure (pp, none) else do
    let stack ← new
    match ← crlLoad debug parent f with
    | none =>
      free stack
      return (⟨none, true⟩, none)
    | some crl =>
      use stack
      if ← askB then
        free crl
        free stack
        return (⟨none, true⟩, none)
      return (⟨some ⟨stack, crl, f⟩, false⟩, some ⟨stack, crl, f⟩)

/-- src/rpp.c:70-84 `rpp_refput`: the CRL. -/
def ppDrop (pp : Pp) : HM Unit :=
  match pp.crls with
  | none => pure ()
  | some c => do
    use c.stack
    free c.crl
    free c.stack

/-! ### The stack of certificates -/

/-- src/cert_stack.c:38-51 `struct metadata_node`, and the X509 and the separator that are pushed along. -/
structure Frame where
  x509 : Id
  cert : CertF
  node : Id
  res : Id
  sep : Id
  /-- numbers, and names of files -/
  serials : List (Id × Id)
  arr : Ptr
  deriving DecidableEq, Repr

/-- src/cert_stack.c:350-354 `x509stack_peek` -/
def peekStack (st : List Frame) : Option (Id × CertF) := st.head?.map fun f => (f.x509, f.cert)

/-- src/str_token.c:35-63 `BN2string` -/
def bn2string (n : Id) : HM Ptr := do
  match ← create with
  | none => return none
  | some bio =>
    use n
    if ← askB then
      free bio
      return none
    let r ← new
    use bio
    free bio
    return some r

/-- src/cert_stack.c:427-436: the loop of `x509stack_store_serial`: whether the number was found; it's been released then. -/
def serialLoop (n : Id) : List (Id × Id) → HM Bool
  | [] => pure false
  | s :: l => do
    use s.1
    use n
    if ← askB then
      let str ← bn2string n
      peek str
      use s.2
      free n
      freeP str
      return true
    serialLoop n l

/-- src/data_structure/array_list.h:43-60 `name##_add`: the array. -/
def arrAdd (arr : Ptr) : HM Id := do
  match arr with
  | none => new
  | some a => if ← askB then realloc a else return a

/-- src/cert_stack.c:390-442 `x509stack_store_serial` -/
def storeSerial (st : List Frame) (n : Id) : HM (List Frame) :=
  match st with
  | [] => do
    free n
    return []
  | f :: fs => do
    use f.node
    if ← serialLoop n f.serials then return f :: fs
    let file ← new
    let a ← arrAdd f.arr
    use a
    return { f with serials := f.serials ++ [(n, file)], arr := some a } :: fs

/-- src/object/certificate.c:114-127 `debug_serial_number` -/
def debugSerial (n : Id) : HM Unit := do
  use n
  match ← create with
  | none => return ()
  | some str =>
    use str
    free str

/-- src/object/certificate.c:129-145 `validate_serial_number` -/
def validateSerial (debug : Bool) (cert : Id) (st : List Frame) : HM (Bool × List Frame) := do
  use cert
  match ← create with
  | none => return (true, st)
  | some n =>
    whenB debug (debugSerial n)
    return (false, ← storeSerial st n)

inductive Ty where
  | ta
  | ca
  | ee
  deriving DecidableEq, Repr

/-- src/object/certificate.c:276-321 `validate_spki`, `decode_spki` -/
def validateSpki (cert : Id) : HM Bool := do
  match ← create with
  | none => return true
  | some spki =>
    use spki
    if ← askB then
      free spki
      return true
    use cert
    let e ← askB
    free spki
    return e

/-- src/object/certificate.c:461-513 `validate_public_key`; with OpenSSL 3, src/object/certificate.c:328-459 `validate_subject_public_key` allocates nothing. -/
def validatePublicKey (t : Ty) (cert : Id) : HM Bool := do
  use cert
  if ← askB then return true
  if t = .ta then
    if ← validateSpki cert then return true
    use cert
    askB
  else return false

/-- src/object/certificate.c:157-178 `validate_issuer` -/
def validateIssuer (t : Ty) (parent : Option (Id × CertF)) (f : CertF) (cert : Id) : HM Bool :=
  if t = .ta then nameShow cert f.issuer else validateIssuerName parent cert f.issuer

/-- src/object/certificate.c:515-568 `certificate_validate_rfc6487` -/
def validateRfc6487 (debug : Bool) (t : Ty) (f : CertF) (cert : Id) (st : List Frame) : HM (Bool × List Frame) := do
  use cert
  if ← askB then return (true, st)
  let r ← validateSerial debug cert st
  if r.1 = true then return (true, r.2)
  if ← askB then return (true, r.2)
  if ← validateIssuer t (peekStack r.2) f cert then return (true, r.2)
  if ← nameShow cert f.subject then return (true, r.2)
  return (← validatePublicKey t cert, r.2)

/-! ### Chains -/

/-- src/libcrypto_util.c:22-42 `asn1time2str`; `ok` says whether the date can be printed. -/
def asn1time2str (ok : Bool) : HM Ptr := do
  let bio ← new
  if ok = true then
    use bio
    let res ← new
    free bio
    return some res
  else
    lose bio
    return none

/-- src/object/certificate.c:903-915 `pr_debug_x509_dates`, src/object/certificate.c:984-1007 `complain_crl_stale`; of `x`. -/
def printDates (x : Id) (a b : Bool) : HM Unit := do
  use x
  let s ← asn1time2str a
  let t ← asn1time2str b
  peek s
  peek t
  freeP s
  freeP t

/-- src/object/certificate.c:860-901 `update_crl_time`. The last push can't fail: a CRL was popped, so there's room. -/
def updateCrlTime (orig : Id) : HM (Option Id) := do
  if ← askB then return none
  match ← create with
  | none => return none
  | some tm =>
    use orig
    match ← create with
    | none =>
      free tm
      return none
    | some clone =>
      use tm
      use clone
      free tm
      return some clone

/-- src/object/certificate.c:920-982 `verify_cert_crl_stale`: whether it fails. -/
def verifyStale (debug : Bool) (st : List Frame) (f : CertF) (cert : Id) (c : Crls) : HM Bool := do
  match ← create with
  | none => return true
  | some ctx =>
    use cert
    if ← askB then
      free ctx
      return true
    use c.stack
    match ← updateCrlTime c.crl with
    | none =>
      use c.stack
      free ctx
      return true
    | some clone =>
      use ctx
      use cert
      useAll (st.map (·.x509))
      use c.stack
      use clone
      let e ← askB
      whenB (e && debug) (printDates cert f.nb f.na)
      use c.stack
      free clone
      use c.stack
      free ctx
      return e

/-- What X509_verify_cert finds. -/
inductive Verdict where
  | ok
  | stale
  | bad
  deriving DecidableEq, Repr

def askVerdict : HM Verdict := do
  let k ← ask
  return if k = 0 then .ok else if k = 1 then .stale else .bad

/-- src/object/certificate.c:1009-1088 `certificate_validate_chain`: whether it fails. -/
def validateChain (debug : Bool) (st : List Frame) (f : CertF) (cert : Id) (crls : Option Crls) : HM Bool :=
  match crls with
  | none => pure false
  | some c => do
    match ← create with
    | none => return true
    | some ctx =>
      use cert
      if ← askB then
        free ctx
        return true
      use ctx
      useAll (st.map (·.x509))
      use c.stack
      use c.crl
      match ← askVerdict with
      | .ok =>
        free ctx
        return false
      | .bad =>
        free ctx
        return true
      | .stale =>
        use c.stack
        printDates c.crl c.file.lu c.file.nu
        let e ← askB
        free ctx
        if e = true then return true
        verifyStale debug st f cert c

/-! ### Resources -/

/-- src/asn1/decode.c:33-59 `asn1_decode`. A structure that was decoded is one object. -/
def asn1Decode : HM (Option Id) := do
  if ← askB then
    let p ← create
    freeP p
    return none
  let x ← new
  use x
  if ← askB then
    free x
    return none
  return some x

/-- src/object/certificate.c:1159-1220 `__certificate_get_resources`, src/object/certificate.c:1090-1137 `handle_ip_extension`, src/object/certificate.c:1139-1157 `handle_asn_extension`. The sets are
part of `res` (see Verif/Sys). -/
def resLoop (cert res : Id) : Nat → HM Bool
  | 0 => askB
  | n + 1 => do
    use cert
    if ← askB then return true
    if ← askB then
      match ← asn1Decode with
      | none => return true
      | some x =>
        use x
        use res
        let e ← askB
        free x
        if e = true then return true
        resLoop cert res n
    else resLoop cert res n

def getResources (cert res : Id) : HM Bool := do resLoop cert res (← ask)

/-- src/cert_stack.c:287-327 `x509stack_push`, src/cert_stack.c:242-273 `init_resources`: what's pushed, unless it fails. -/
def x509Push (f : CertF) (cert : Id) : HM (Option Frame) := do
  let m ← new
  let res ← new
  if ← getResources cert res then
    free res
    free m
    return none
  let sep ← new
  if ← askB then
    free sep
    free res
    free m
    return none
  return some ⟨cert, f, m, res, sep, [], none⟩

/-- src/cert_stack.c:128-133 `serial_cleanup` -/
def serialsFree (a : Ptr) : List (Id × Id) → HM Unit
  | [] => pure ()
  | s :: l => do
    useP a
    free s.1
    free s.2
    serialsFree a l

/-- src/cert_stack.c:189-205 `x509stack_pop`, src/cert_stack.c:135-142 `meta_destroy`, and `defer_destroy` of the separator. -/
def framePop (f : Frame) : HM Unit := do
  free f.x509
  use f.node
  free f.res
  serialsFree f.arr f.serials
  freeP f.arr
  free f.node
  free f.sep

/-! ### Signed objects -/

/-- src/file.c:67-114 `file_load` -/
def fileLoad : HM (Option Id) := do
  match ← create with
  | none => return none
  | some file =>
    if ← askB then
      free file
      return none
    let b ← new
    use file
    if ← askB then
      free b
      free file
      return none
    free file
    return some b

/-- src/asn1/oid.c:22-55 `oid2arcs` -/
def oid2arcs : HM (Option Id) := do
  let a ← new
  if ← askB then
    free a
    return none
  if ← askB then
    let b ← realloc a
    use b
    if ← askB then
      free b
      return none
    return some b
  return some a

/-- Arcs are compared and released: src/asn1/content_info.c:7-25 `validate`, src/object/signed_object.c:24-42 `validate_eContentType`. Whether it fails. -/
def arcsCheck (x : Id) : HM Bool := do
  use x
  match ← oid2arcs with
  | none => return true
  | some a =>
    use a
    let e ← askB
    free a
    return e

/-- src/asn1/content_info.c:27-48 `decode`, src/asn1/content_info.c:50-64 `content_info_load` -/
def contentInfoLoad : HM (Option Id) := do
  match ← fileLoad with
  | none => return none
  | some fc =>
    use fc
    match ← asn1Decode with
    | none =>
      free fc
      return none
    | some ci =>
      if ← arcsCheck ci then
        free ci
        free fc
        return none
      free fc
      return some ci

/-- `struct SignedData`: the structure, its content if there is one, and the rest. -/
structure SData where
  str : Id
  content : Ptr
  rest : Id
  deriving DecidableEq, Repr

/-- ASN_STRUCT_FREE of SignedData -/
def sdataFree (d : SData) : HM Unit := do
  freeP d.content
  free d.rest
  free d.str

/-- src/asn1/signed_data.c:387-393: SignedData or SignedDataPKCS7 is decoded; in the second case the content is an ANY. -/
def sdataDecode : HM (Option SData) := do
  match ← asn1Decode with
  | none => return none
  | some str =>
    let rest ← new
    let content ← create
    return some ⟨str, content, rest⟩

/-- src/asn1/signed_data.c:389-430 `signed_data_decode_pkcs7` -/
def decodePkcs7 : HM (Option SData) := do
  match ← sdataDecode with
  | none => return none
  | some p7 =>
    let sdata ← new
    match p7.content with
    | none =>
      free sdata
      sdataFree p7
      return none
    | some any =>
      use any
      match ← asn1Decode with
      | none =>
        free sdata
        sdataFree p7
        return none
      | some content =>
        use p7.str
        free any
        free p7.str
        return some ⟨sdata, some content, p7.rest⟩

/-- src/asn1/signed_data.c:432-445 `signed_data_decode` -/
def signedDataDecode (ci : Id) : HM (Option SData) := do
  use ci
  match ← sdataDecode with
  | some d => return some d
  | none => decodePkcs7

/-- src/object/signed_object.c:6-22 `signed_object_decode` -/
def signedObjectDecode : HM (Option (Id × SData)) := do
  match ← contentInfoLoad with
  | none => return none
  | some ci =>
    match ← signedDataDecode ci with
    | none =>
      free ci
      return none
    | some d => return some (ci, d)

/-- src/object/signed_object.c:91-96 `signed_object_cleanup` -/
def signedObjectCleanup (x : Id × SData) : HM Unit := do
  free x.1
  sdataFree x.2

/-- src/asn1/signed_data.c:448-492 `get_content_type_attr` -/
def contentTypeLoop (d : SData) : Nat → HM (Option Id)
  | 0 => pure none
  | n + 1 => do
    use d.rest
    if ← askB then return none
    match ← oid2arcs with
    | none => return none
    | some a =>
      use a
      let eq ← askB
      free a
      if eq = true then
        if ← askB then return none
        asn1Decode
      else contentTypeLoop d n

/-- src/object/signed_object.c:44-67 `validate_content_type` -/
def validateContentType (d : SData) : HM Bool := do
  match ← contentTypeLoop d (← ask) with
  | none => return true
  | some ct =>
    use ct
    match ← oid2arcs with
    | none =>
      free ct
      return true
    | some a =>
      free ct
      use a
      let e ← askB
      free a
      return e

/-- src/asn1/signed_data.c:116-135 `validate_content_type_attribute` -/
def contentTypeAttr (d : SData) : HM Bool := do
  match ← asn1Decode with
  | none => return true
  | some x =>
    use x
    use d.rest
    let e ← askB
    free x
    return e

/-- src/asn1/signed_data.c:137-158 `validate_message_digest_attribute` -/
def messageDigestAttr (d : SData) : HM Bool := do
  match d.content with
  | none => return true
  | some c =>
    match ← asn1Decode with
    | none => return true
    | some x =>
      use x
      use c
      let e ← hashValidate
      free x
      return e

/-- src/asn1/signed_data.c:188-223: what's done with an attribute: whether it fails, and whether a digest has been checked (`md`). -/
def attr (d : SData) (md : Bool) : HM (Bool × Bool) := do
  let k ← ask
  if k = 0 then return (← contentTypeAttr d, md)
  else if k = 1 then return (← messageDigestAttr d, true)
  else return (← askB, md)

/-- src/asn1/signed_data.c:160-244 `validate_signed_attrs`: the loop. -/
def attrLoop (d : SData) : Nat → Bool → HM Bool
  | 0, md => do
    if md = false then return true
    askB
  | n + 1, md => do
    use d.rest
    if ← askB then return true
    match ← oid2arcs with
    | none => return true
    | some a =>
      use a
      let r ← attr d md
      free a
      if r.1 = true then return true
      attrLoop d n r.2

/-- src/object/certificate.c:721-823 `certificate_validate_signature` -/
def validateSignature (ci cert : Id) (d : SData) : HM Bool := do
  use cert
  if ← askB then return true
  match ← create with
  | none => return true
  | some ctx =>
    use ctx
    use ci
    use d.rest
    let e ← askB
    free ctx
    return e

/-- src/asn1/signed_data.c:10-16 `struct ee_cert`: the resources and `refs.crldp`. -/
structure Ee where
  res : Id
  crldp : Ptr
  deriving DecidableEq, Repr

/-- src/asn1/signed_data.c:49-113 `handle_sdata_certificate`, after the certificate was decoded. -/
def eeChecks (debug : Bool) (f : CertF) (cert ci : Id) (d : SData) (crls : Crls) (res : Id) (st : List Frame) : HM (Bool × Ptr × List Frame) := do
  whenB debug (do let _ ← nameShow cert f.issuer)
  if ← validateChain debug st f cert (some crls) then return (true, none, st)
  let r ← validateRfc6487 debug .ee f cert st
  if r.1 = true then return (true, none, r.2)
  let x ← handleExtensions extsEe (peekStack r.2) cert
  if x.1 = true then return (true, x.2, r.2)
  if ← validateSignature ci cert d then return (true, x.2, r.2)
  return (← getResources cert res, x.2, r.2)

/-- src/asn1/signed_data.c:49-113 `handle_sdata_certificate` -/
def sdataCertificate (debug : Bool) (f : CertF) (ci : Id) (d : SData) (crls : Crls) (res : Id) (st : List Frame) : HM (Bool × Ptr × List Frame) := do
  use d.rest
  match ← create with
  | none => return (true, none, st)
  | some cert =>
    if ← askB then
      free cert
      return (true, none, st)
    let r ← eeChecks debug f cert ci d crls res st
    free cert
    return r

/-- src/object/signed_object.c:69-89 `signed_object_validate`, src/asn1/signed_data.c:246-379 `signed_data_validate` -/
def signedObjectValidate (debug : Bool) (f : CertF) (x : Id × SData) (crls : Crls) (res : Id) (st : List Frame) : HM (Bool × Ptr × List Frame) := do
  if ← arcsCheck x.2.rest then return (true, none, st)
  if ← validateContentType x.2 then return (true, none, st)
  use x.2.rest
  if ← askB then return (true, none, st)
  if ← attrLoop x.2 (← ask) false then return (true, none, st)
  if ← askB then return (true, none, st)
  sdataCertificate debug f x.1 x.2 crls res st

/-- src/object/vcard.c:251-266 `handle_ghostbusters_vcard`, src/object/vcard.c:96-101 `double_line_size`, `add_chara`: `n` times. -/
def vcardLoop (content : Ptr) : Nat → Id → HM (Bool × Id)
  | 0, v => do return (← askB, v)
  | n + 1, v => do
    useP content
    use v
    if ← askB then
      let w ← realloc v
      vcardLoop content n w
    else vcardLoop content n v

/-- src/object/vcard.c:251-266 `handle_ghostbusters_vcard` -/
def handleVcard (content : Ptr) : HM Bool := do
  let v ← new
  let r ← vcardLoop content (← ask) v
  free r.2
  return r.1

inductive Kind where
  | roa
  | gbr
  | mft
  deriving DecidableEq, Repr

/-- What's in the content is used: src/object/roa.c:146-245 `__handle_roa`, src/object/manifest.c:115-182 `validate_manifest`, src/object/ghostbusters.c:8-14 `handle_vcard`. -/
def handleContent (k : Kind) (inner content : Ptr) (res : Id) : HM Bool := do
  use res
  if k = .gbr then handleVcard content
  else
    useP inner
    askB

/-- Validation, from `eecert_init` to `eecert_cleanup`: src/object/roa.c:267-287, src/object/ghostbusters.c:37-52, src/object/manifest.c:310-333. -/
def eeValidate (debug : Bool) (k : Kind) (f : CertF) (x : Id × SData) (inner : Ptr) (crls : Crls) (st : List Frame) : HM (Bool × List Frame) := do
  let res ← new
  let r ← signedObjectValidate debug f x crls res st
  if r.1 = true then
    free res
    freeP r.2.1
    return (true, r.2.2)
  if ← handleContent k inner x.2.content res then
    free res
    freeP r.2.1
    return (true, r.2.2)
  peek r.2.1
  let e ← askB
  free res
  freeP r.2.1
  return (e, r.2.2)

/-- src/object/roa.c:9-18 `decode_roa`, src/object/manifest.c:25-34 `decode_manifest`: what's in the content, unless it fails. -/
def decodeInner (k : Kind) (content : Ptr) : HM (Option Ptr) := do
  if k = .gbr then return some none
  match content with
  | none => return none
  | some c =>
    use c
    match ← asn1Decode with
    | none => return none
    | some r => return some (some r)

/-- With the CRL. -/
def withCrl (debug : Bool) (k : Kind) (f : CertF) (g : CrlF) (x : Id × SData) (inner : Ptr) (pp : Pp) (st : List Frame) : HM (Bool × Pp × List Frame) := do
  let r ← rppCrl debug (peekStack st) g pp
  match r.2 with
  | none => return (true, r.1, st)
  | some crls =>
    let y ← eeValidate debug k f x inner crls st
    return (y.1, r.1, y.2)

/-- src/object/roa.c:247-295 `roa_traverse`, src/object/ghostbusters.c:16-58 `ghostbusters_traverse`, and src/object/manifest.c:276-341 `handle_manifest` once the files it lists are known
to be there. -/
def objectTraverse (debug : Bool) (k : Kind) (f : CertF) (g : CrlF) (pp : Pp) (st : List Frame) : HM (Bool × Pp × List Frame) := do
  match ← signedObjectDecode with
  | none => return (true, pp, st)
  | some x =>
    match ← decodeInner k x.2.content with
    | none =>
      signedObjectCleanup x
      return (true, pp, st)
    | some inner =>
      let r ← withCrl debug k f g x inner pp st
      freeP inner
      signedObjectCleanup x
      return r

/-- src/crypto/hash.c:32-36 `hash_file`, by src/crypto/hash.c:106-140 `hash_validate_mft_file` -/
def hashFile : HM Bool := do
  if ← askB then return true
  match ← create with
  | none => return true
  | some file =>
    let buf ← new
    let ctx ← new
    use ctx
    use file
    use buf
    let e ← askB
    free ctx
    free buf
    free file
    return e

def hashLoop : Nat → HM Bool
  | 0 => pure false
  | n + 1 => do
    if ← hashFile then
      if ← askB then return true
      hashLoop n
    else hashLoop n

/-- src/object/manifest.c:276-341 `handle_manifest`: the new publication point's CRL, unless it fails. The files are checked (`build_rpp`) before the rest; in the model they are before the
object is decoded, too. -/
def handleManifest (debug : Bool) (f : CertF) (g : CrlF) (st : List Frame) : HM (Option Pp × List Frame) := do
  if ← hashLoop (← ask) then return (none, st)
  let r ← objectTraverse debug .mft f g ⟨none, false⟩ st
  if r.1 = true then
    ppDrop r.2.1
    return (none, r.2.2)
  return (some r.2.1, r.2.2)

/-! ### Certificates -/

/-- src/object/certificate.c:1819-1841 `has_bgpsec_router_eku`, src/object/certificate.c:1847-1871 `get_certificate_type`: whether it's a CA's. -/
def isCa (cert : Id) : HM Bool := do
  use cert
  if ← askB then return true
  match ← create with
  | none => return false
  | some eku =>
    use eku
    free eku
    return false

def typeOk (t : Ty) (cert : Id) : HM Bool := if t = .ta then pure true else isCa cert

/-- src/object/certificate.c:1956-1990: the checks before the certificate is pushed. -/
def certChecks (debug : Bool) (t : Ty) (f : CertF) (cert : Id) (crls : Option Crls) (st : List Frame) : HM (Bool × List Frame) := do
  if ← validateChain debug st f cert crls then return (true, st)
  if !(← typeOk t cert) then return (true, st)
  let r ← validateRfc6487 debug t f cert st
  if r.1 = true then return (true, r.2)
  let x ← handleExtensions (if t = .ta then extsTa else extsCa) (peekStack r.2) cert
  peek x.2
  freeP x.2
  if x.1 = true then return (true, r.2)
  return (← askB, r.2)

/-- src/object/certificate.c:1910-2018 `certificate_traverse`, up to the push: the stack. -/
def certLoad (debug : Bool) (t : Ty) (f : CertF) (crls : Option Crls) (st : List Frame) : HM (List Frame) := do
  match ← load with
  | none => return st
  | some cert =>
    let r ← certChecks debug t f cert crls st
    if r.1 = true then
      free cert
      return r.2
    match ← x509Push f cert with
    | none =>
      free cert
      return r.2
    | some fr => return fr :: r.2

/-! ### What threads do -/

/-- What the thread of a TAL has. -/
structure W where
  stack : List Frame
  pps : List Pp
  deriving DecidableEq, Repr

/-- What it does: the files are given. The order is Verif/Tree's and Verif/Mem's matter: here, any. -/
inductive Op where
  /-- the trust anchor's certificate -/
  | ta (f : CertF)
  /-- a certificate of a publication point -/
  | cert (pp : Nat) (f : CertF) (g : CrlF)
  /-- a ROA or Ghostbusters record of a publication point -/
  | obj (k : Kind) (pp : Nat) (f : CertF) (g : CrlF)
  /-- a manifest; if it's good there's a new publication point -/
  | mft (f : CertF) (g : CrlF)
  /-- the last certificate is done with -/
  | pop
  /-- a publication point is done with -/
  | drop (pp : Nat)
  deriving DecidableEq, Repr

def step (debug : Bool) (w : W) : Op → HM W
  | .ta f => do return { w with stack := ← certLoad debug .ta f none w.stack }
  | .cert i f g => match w.pps[i]? with
    | none => pure w
    | some pp => do
      let r ← rppCrl debug (peekStack w.stack) g pp
      match r.2 with
      | none => return { w with pps := w.pps.set i r.1 }
      | some c => return ⟨← certLoad debug .ca f (some c) w.stack, w.pps.set i r.1⟩
  | .obj k i f g => match w.pps[i]? with
    | none => pure w
    | some pp => do
      let r ← objectTraverse debug k f g pp w.stack
      return ⟨r.2.2, w.pps.set i r.2.1⟩
  | .mft f g => do
    let r ← handleManifest debug f g w.stack
    match r.1 with
    | none => return { w with stack := r.2 }
    | some pp => return ⟨r.2, w.pps ++ [pp]⟩
  | .pop => match w.stack with
    | [] => pure w
    | f :: fs => do
      framePop f
      return { w with stack := fs }
  | .drop i => match w.pps[i]? with
    | none => pure w
    | some pp => do
      ppDrop pp
      return { w with pps := w.pps.eraseIdx i }

def steps (debug : Bool) : List Op → W → HM W
  | [], w => pure w
  | o :: l, w => do
    let w' ← step debug w o
    steps debug l w'

/-- src/cert_stack.c:144-173 `certstack_destroy`: what's left on the stack. -/
def framesPop : List Frame → HM Unit
  | [] => pure ()
  | f :: fs => do
    framePop f
    framesPop fs

/-- `defer_destroy` of what's left: the publication points. -/
def ppsDrop : List Pp → HM Unit
  | [] => pure ()
  | p :: ps => do
    ppDrop p
    ppsDrop ps

/-- The work of a thread, and what it still has. -/
def work (debug : Bool) (l : List Op) : HM W := steps debug l ⟨[], []⟩

/-- The work of a thread, to its end: src/object/tal.c:411-413 `validation_destroy`. -/
def thread (debug : Bool) (l : List Op) : HM Unit := do
  let w ← work debug l
  ppsDrop w.pps
  framesPop w.stack

end Verif.Omem
