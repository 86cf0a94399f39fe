import Verif.Ext.Model
/-
Certificates and CRLs, apart from the extensions of certificates: names (src/object/name.c), RFC 6487 fields, keys, and the chain (src/object/certificate.c),
serial numbers (src/cert_stack.c), CRLs (src/object/crl.c).

What libcrypto answers is an argument. Logging isn't modelled, except for the warning on serial numbers.
-/
namespace Verif.Cert
open Verif.Res (Byte)

/-! ## Names -/

/-- The type of an attribute of a name, by its NID. -/
inductive AttrType where
  | commonName
  | serialNumber
  | other (nid : Nat)
  deriving DecidableEq, Repr

/-- `X509_NAME_ENTRY`. `data = none`: X509_NAME_ENTRY_get_data() returns NULL. -/
structure Attr where
  type : AttrType
  data : Option (List Byte)
  deriving DecidableEq, Repr

/-- `struct rfc5280_name` of src/object/name.c:16-22: the contents of the buffers, without the final NUL; and how many buffers were allocated for it. -/
structure Name where
  commonName : Option (List Byte)
  serialNumber : Option (List Byte)
  buffers : Nat
  deriving DecidableEq, Repr

/-- The loop of src/object/name.c:41-89 `x509_name_decode`, with src/object/name.c:23-39 `name2string`: what's read so far, and whether it succeeded. -/
def decodeLoop : List Attr → Name → Name × Bool
  | [], n => (n, true)
  | a :: as, n =>
    match a.type, a.data with
    | .commonName, some d => decodeLoop as { n with commonName := some d, buffers := n.buffers + 1 }
    | .serialNumber, some d => decodeLoop as { n with serialNumber := some d, buffers := n.buffers + 1 }
    | .commonName, none => (n, false)
    | .serialNumber, none => (n, false)
    | .other _, _ => (n, false)

/-- How many buffers src/object/name.c:97-106 `x509_name_put` releases, once it's called for the last reference. -/
def Name.held (n : Name) : Nat := n.commonName.toList.length + n.serialNumber.toList.length

/-- src/object/name.c:41-89 `x509_name_decode`: the name, or `none` for the error; and how many buffers nobody will be able to release (after the error, or after `x509_name_put`). -/
def nameDecode (attrs : List Attr) : Option Name × Nat :=
  match decodeLoop attrs ⟨none, none, 0⟩ with
  | (n, false) => (none, n.buffers - n.held)
  | (n, true) => if n.commonName = none then (none, n.buffers - n.held) else (some n, n.buffers - n.held)

/-- `strcmp(a, b) == 0`; the buffers end with a NUL. -/
def streq (a b : List Byte) : Bool := Ext.cstr a = Ext.cstr b

/-- src/object/name.c:125-132 `str_equals` -/
def strEquals (a b : Option (List Byte)) : Bool :=
  match a, b with
  | none, none => true
  | some a, some b => streq a b
  | _, _ => false

/-- src/object/name.c:134-139 `x509_name_equals`. `none`: a NULL is read. -/
def nameEquals (a b : Name) : Option Bool :=
  match a.commonName, b.commonName with
  | some x, some y => some (streq x y && strEquals a.serialNumber b.serialNumber)
  | _, _ => none

/-- src/object/name.c:141-193 `validate_issuer_name`, given the subject of the certificate that's on the top of the stack (if there's one). `none`: a NULL is read. -/
def validateIssuerName (parent : Option (List Attr)) (issuer : List Attr) : Option Bool :=
  match parent with
  | none => some false
  | some subject =>
    match (nameDecode subject).1 with
    | none => some false
    | some p =>
      match (nameDecode issuer).1 with
      | none => some false
      | some c => nameEquals p c

/-- src/object/certificate.c:157-178 `validate_issuer` -/
def validateIssuer (isTa : Bool) (parent : Option (List Attr)) (issuer : List Attr) : Option Bool :=
  if !isTa then validateIssuerName parent issuer
  else some (nameDecode issuer).1.isSome

/-- src/object/certificate.c:220-233 `validate_subject` -/
def validateSubject (subject : List Attr) : Bool := (nameDecode subject).1.isSome

/-! ## Serial numbers -/

/-- A serial number of a sibling, and the file it was found in. -/
structure Serial where
  number : Int
  file : Nat
  deriving DecidableEq, Repr

/-- What becomes of the big number given to src/cert_stack.c:390-442 `x509stack_store_serial`. -/
inductive Fate where
  | freed
  | stored
  deriving DecidableEq, Repr

/-- src/cert_stack.c:390-442 `x509stack_store_serial`. The stack has, for each certificate of the path, the serial numbers of its children; the result is the stack, the file the warning mentions (`none`: there's no
warning), and what became of the number. -/
def storeSerial (stack : List (List Serial)) (number : Int) (file : Nat) : List (List Serial) × Option Nat × Fate :=
  match stack with
  | [] => ([], none, .freed)
  | top :: rest =>
    match top.find? (fun s => s.number == number) with
    | some s => (top :: rest, some s.file, .freed)
    | none => ((top ++ [⟨number, file⟩]) :: rest, none, .stored)

/-! ## Keys -/

/-- Algorithms, by their NID. -/
inductive Alg where
  | sha256WithRSA
  | rsaEncryption
  | ecPublicKey
  | other (nid : Nat)
  deriving DecidableEq, Repr

/-- The parameter of an algorithm: none, an object identifier (and whether it's prime256v1), something else. -/
inductive AlgParam where
  | none
  | oid (prime256v1 : Bool)
  | other
  deriving DecidableEq, Repr

/-- src/algorithm.c:24-32 `validate_certificate_signature_algorithm` -/
def signatureAlgorithm (a : Alg) : Bool := a = .sha256WithRSA

/-- src/algorithm.c:37-56 `validate_certificate_public_key_algorithm` -/
def publicKeyAlgorithm (a : Alg) : Bool := a = .rsaEncryption

/-- src/algorithm.c:61-90 `validate_certificate_public_key_algorithm_bgpsec` -/
def publicKeyAlgorithmBgpsec (a : Alg) (p : AlgParam) : Bool :=
  if a ≠ .ecPublicKey then false
  else
    match p with
    | .none => false
    | .other => false
    | .oid prime256v1 => prime256v1

/-- What `EVP_PKEY_get_base_id` says. -/
inductive KeyType where
  | rsa
  | rsa2
  | rsaPss
  | other
  deriving DecidableEq, Repr

/-- `EVP_PKEY`; the modulus' length and the exponent are those of RSA keys. -/
structure PKey where
  type : KeyType
  bits : Nat
  exponent : Nat
  deriving DecidableEq, Repr

/-- src/object/certificate.c:328-459 `validate_subject_public_key`, with OpenSSL 3 and later. `none`: the key can't be decoded. A `size_t` parameter that doesn't fit is an error. -/
def subjectPublicKey3 (key : Option PKey) : Bool :=
  match key with
  | none => false
  | some k =>
    if k.type ≠ .rsa ∧ k.type ≠ .rsa2 then false
    else if 2 ^ 64 ≤ k.bits then false
    else if k.bits < 2048 then false
    else if 2 ^ 64 ≤ k.exponent then false
    else if k.exponent ≠ 65537 then false
    else true

/-- `BN_bn2dec` of a number that isn't negative: its decimal digits. -/
def bn2dec (n : Nat) : List Char := Nat.toDigits 10 n

/-- src/object/certificate.c:328-459 `validate_subject_public_key`, with OpenSSL before 3. `EVP_PKEY_get0_RSA` also accepts RSA-PSS. -/
def subjectPublicKey1 (key : Option PKey) : Bool :=
  match key with
  | none => false
  | some k =>
    if k.type = .other then false
    else if k.bits < 2048 then false
    else if bn2dec k.exponent ≠ ['6', '5', '5', '3', '7'] then false
    else true

/-- src/object/certificate.c:328-459 `validate_subject_public_key`, according to the version of OpenSSL. -/
def subjectPublicKey (openssl3 : Bool) (key : Option PKey) : Bool := if openssl3 then subjectPublicKey3 key else subjectPublicKey1 key

/-- A SubjectPublicKeyInfo: the algorithm's identifier, and the key. (`X509_PUBKEY_get0_param` doesn't fail.) -/
structure Spki where
  algorithm : List Nat
  key : List Byte
  deriving DecidableEq, Repr

/-- `enum pubkey_state` (src/state.h:19-23). -/
inductive KeyState where
  | valid
  | invalid
  | untested
  deriving DecidableEq, Repr

/-- `memcmp(a, b, n) == 0`. `none`: out of bounds. -/
def memeq (a b : List Byte) (n : Nat) : Option Bool := if n ≤ a.length ∧ n ≤ b.length then some (a.take n = b.take n) else none

/-- src/object/certificate.c:184-213 `spki_cmp`: whether they're equal. -/
def spkiCmp (tal cert : Spki) : Option Bool :=
  if tal.algorithm ≠ cert.algorithm then some false
  else if tal.key.length ≠ cert.key.length then some false
  else memeq tal.key cert.key cert.key.length

/-- src/object/certificate.c:235-262 `decode_spki`: `d2i` says what it decodes, and how many bytes it used. -/
def decodeSpki (d2i : List Byte → Option (Spki × Nat)) (tal : List Byte) : Option Spki :=
  match d2i tal with
  | none => none
  | some (spki, used) => if used ≠ tal.length then none else some spki

/-- src/object/certificate.c:276-321 `validate_spki`: success, and the state of the key. `none`: out of bounds. -/
def validateSpki (d2i : List Byte → Option (Spki × Nat)) (tal : List Byte) (cert : Spki) (ks : KeyState) : Option (Bool × KeyState) :=
  match decodeSpki d2i tal with
  | none => some (false, ks)
  | some t =>
    match spkiCmp t cert with
    | none => none
    | some false => some (false, .invalid)
    | some true => some (true, .valid)

/-- A certificate. `number`: its serial (`none`: it can't be converted). `selfSignature`: what `X509_verify` returns with its own key. -/
structure Cert where
  version : Int
  number : Option Int
  signature : Alg
  issuer : List Attr
  subject : List Attr
  spki : Spki
  algorithm : Alg
  param : AlgParam
  key : Option PKey
  selfSignature : Int
  deriving DecidableEq, Repr

/-- What's known: the TAL's key and how to decode it; the subject of the parent; the version of OpenSSL; the file being validated. -/
structure Env where
  d2i : List Byte → Option (Spki × Nat)
  tal : List Byte
  parent : Option (List Attr)
  openssl3 : Bool
  file : Nat

/-- The state of the validation: the serial numbers seen, the state of the key; and the warnings (the file of the other certificate). -/
structure St where
  serials : List (List Serial)
  key : KeyState
  warnings : List Nat
  deriving DecidableEq, Repr

/-- src/object/certificate.c:461-513 `validate_public_key` -/
def validatePublicKey (env : Env) (type : Ext.CertType) (c : Cert) (ks : KeyState) : Option (Bool × KeyState) :=
  if type = .bgpsec then some (publicKeyAlgorithmBgpsec c.algorithm c.param, ks)
  else if !publicKeyAlgorithm c.algorithm then some (false, ks)
  else if !subjectPublicKey env.openssl3 c.key then some (false, ks)
  else if type = .ta then
    match validateSpki env.d2i env.tal c.spki ks with
    | none => none
    | some (false, ks) => some (false, ks)
    | some (true, ks) => some (if c.key = none then false else c.selfSignature = 1, ks)
  else some (true, ks)

/-- src/object/certificate.c:515-568 `certificate_validate_rfc6487`, with src/object/certificate.c:129-145 `validate_serial_number` and src/object/certificate.c:147-155 `validate_signature_algorithm`.
`none`: a memory error. -/
def validateRfc6487 (env : Env) (type : Ext.CertType) (c : Cert) (st : St) : Option (Bool × St) :=
  if c.version ≠ 2 then some (false, st)
  else
    match c.number with
    | none => some (false, st)
    | some number =>
      let (serials, warning, _) := storeSerial st.serials number env.file
      let st := { st with serials := serials, warnings := st.warnings ++ warning.toList }
      if !signatureAlgorithm c.signature then some (false, st)
      else
        match validateIssuer (type = .ta) env.parent c.issuer with
        | none => none
        | some false => some (false, st)
        | some true =>
          if !validateSubject c.subject then some (false, st)
          else
            match validatePublicKey env type c st.key with
            | none => none
            | some (ok, ks) => some (ok, { st with key := ks })

/-! ## CRLs -/

/-- `X509_REVOKED`: whether it has each of its fields. -/
structure Revoked where
  serial : Bool
  date : Bool
  extensions : Bool
  deriving DecidableEq, Repr

/-- `X509_CRL` -/
structure Crl where
  version : Int
  signature : Alg
  issuer : List Attr
  revoked : Option (List Revoked)
  extensions : List (Ext.Ext Ext.Val)
  deriving DecidableEq, Repr

/-- The loop of src/object/crl.c:67-102 `validate_revoked`. -/
def revokedLoop : List Revoked → Bool
  | [] => true
  | r :: rs => if !r.serial then false else if !r.date then false else if r.extensions then false else revokedLoop rs

/-- src/object/crl.c:67-102 `validate_revoked` -/
def validateRevoked (l : Option (List Revoked)) : Bool :=
  match l with
  | none => true
  | some l => revokedLoop l

/-- NID_crl_number -/
def crlNumber : Ext.Nid := .other 88

/-- src/object/crl.c:104-125 `handle_crlnum` and the table in src/object/crl.c:127-138 `validate_extensions`. -/
def crlTable (env : Ext.Env) : List (Ext.Handler Ext.Val Ext.St) :=
  [⟨.aki, false, true, some (Ext.handleAki env)⟩, ⟨crlNumber, false, true, some (fun _ s => .ok s)⟩]

/-- src/object/crl.c:140-164 `crl_validate`. `none`: a memory error. -/
def crlValidate (env : Ext.Env) (parent : Option (List Attr)) (c : Crl) : Option Bool :=
  if c.version ≠ 1 then some false
  else if !signatureAlgorithm c.signature then some false
  else
    match validateIssuerName parent c.issuer with
    | none => none
    | some false => some false
    | some true =>
      if !validateRevoked c.revoked then some false
      else
        match Ext.handleExtensions (crlTable env) c.extensions Ext.St.init with
        | .ok _ => some true
        | .fail _ => some false
        | .ub => none

/-- src/object/crl.c:166-184 `crl_load`, given what src/object/crl.c:12-41 `__crl_load` reads (`none`: an error): the CRL, if it succeeds; and how many CRLs are allocated afterwards. -/
def crlLoad (env : Ext.Env) (parent : Option (List Attr)) (file : Option Crl) : Option (Option Crl × Nat) :=
  match file with
  | none => some (none, 0)
  | some c =>
    match crlValidate env parent c with
    | none => none
    | some false => some (none, 1 - 1)
    | some true => some (some c, 1)

/-! ## The chain -/

/-- What to do on an incidence (src/incidence/incidence.h). -/
inductive Action where
  | ignore
  | warn
  | error
  deriving DecidableEq, Repr

/-- What libcrypto answers, the first time (0) and the second one (1): `X509_STORE_CTX_new`, `X509_STORE_CTX_init`, `X509_verify_cert` (and the error in the context) for these CRLs; whether the clone of a
CRL can be made; whether CRLs can be pushed. `extend` is the CRL with its `nextUpdate` in a minute. -/
structure Chain (C : Type) where
  ctxNew : Nat → Bool
  ctxInit : Nat → Bool
  verify : Nat → List C → Int × Nat
  clone : Bool
  extend : C → C
  pushClone : Bool
  pushOriginal : Bool
  stale : Action

/-- The result: error code 0, the CRLs left in the stack, and how many contexts and CRL clones are allocated afterwards. `crit`: `pr_crit`. -/
inductive ChainRes (C : Type) where
  | done (ok : Bool) (crls : Option (List C)) (contexts clones : Nat)
  | crit
  deriving DecidableEq, Repr

/-- X509_V_ERR_CRL_HAS_EXPIRED -/
def crlHasExpired : Nat := 12

/-- src/object/certificate.c:860-901 `update_crl_time`: the stack and how many clones are allocated, and success. -/
def updateCrlTime {C : Type} (env : Chain C) (crls : List C) (original : C) : List C × Nat × Bool :=
  if !env.clone then (crls, 0, false)
  else if !env.pushClone then (crls, 1 - 1, false)
  else (crls ++ [env.extend original], 1, true)

/-- src/object/certificate.c:920-982 `verify_cert_crl_stale`. The stack isn't empty (src/object/certificate.c:984-1007 `complain_crl_stale` saw to it). -/
def verifyCertCrlStale {C : Type} (env : Chain C) (crls : List C) : ChainRes C :=
  if !env.ctxNew 1 then .done false (some crls) 0 0
  else if !env.ctxInit 1 then .done false (some crls) (1 - 1) 0
  else
    match crls.getLast? with
    | none => .crit
    | some original =>
      let crls := crls.dropLast
      let (crls, clones, ok) := updateCrlTime env crls original
      let (crls, clones, ok) :=
        if !ok then (crls, clones, false)
        else
          let ok := decide (0 < (env.verify 1 crls).1)
          -- pop_clone
          (crls.dropLast, clones - 1, ok)
      -- push_original
      if !env.pushOriginal then .done false (some crls) (1 - 1) clones
      else .done ok (some (crls ++ [original])) (1 - 1) clones

/-- src/object/certificate.c:1009-1088 `certificate_validate_chain`, with src/object/certificate.c:984-1007 `complain_crl_stale`. `crls = none`: NULL. -/
def certificateValidateChain {C : Type} (env : Chain C) (crls : Option (List C)) : ChainRes C :=
  match crls with
  | none => .done true none 0 0
  | some crls =>
    if !env.ctxNew 0 then .done false (some crls) 0 0
    else if !env.ctxInit 0 then .done false (some crls) (1 - 1) 0
    else if (env.verify 0 crls).1 ≤ 0 then
      let error := (env.verify 0 crls).2
      if error ≠ 0 then
        if error ≠ crlHasExpired then .done false (some crls) (1 - 1) 0
        else if crls.length < 1 then .crit
        else if env.stale = .error then .done false (some crls) (1 - 1) 0
        else verifyCertCrlStale env crls
      else .done false (some crls) (1 - 1) 0
    else .done true (some crls) (1 - 1) 0

end Verif.Cert
