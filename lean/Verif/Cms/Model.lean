import Verif.Cms.ModelBer
import Verif.Res.ModelRes
/-
Signed objects: CMS profile checks.

Structures are what asn1c decoded; pointers inside of its arrays are not NULL. Integers are the content octets. Certificates, hashes
and signatures are parameters.
-/
namespace Verif.Cms
open Verif.Res (Byte integer2ulong)

/-- `AlgorithmIdentifier`; parameters are an encoded element. -/
structure AlgId where
  oid : List Byte
  params : Option (List Byte)
  deriving DecidableEq, Repr

/-- `CMSAttribute`; values are encoded elements. -/
structure Attr where
  type : List Byte
  values : List (List Byte)
  deriving DecidableEq, Repr

/-- `SignerIdentifier` -/
inductive Sid where
  | ski (b : List Byte)
  | issuerAndSerial
  | nothing
  deriving DecidableEq, Repr

/-- `SignerInfo`; of the unsigned attributes, how many. -/
structure SignerInfo where
  version : List Byte
  sid : Sid
  digestAlg : AlgId
  signedAttrs : Option (List Attr)
  sigAlg : AlgId
  signature : List Byte
  unsignedAttrs : Option Nat
  deriving DecidableEq, Repr

/-- `SignedData`; of the CRLs, how many. -/
structure SignedData where
  version : List Byte
  digestAlgs : List AlgId
  eContentType : List Byte
  eContent : Option (List Byte)
  certificates : Option (List (List Byte))
  crls : Option Nat
  signerInfos : List SignerInfo
  deriving DecidableEq, Repr

/-- What the code around does: `Cert` is a decoded certificate. -/
structure Env (Cert : Type) where
  /-- `asn1_decode_any` for OBJECT IDENTIFIER and for OCTET STRING: the content octets. -/
  decodeOid : List Byte → Option (List Byte)
  decodeOctets : List Byte → Option (List Byte)
  sha256 : List Byte → List Byte
  /-- The incidence about NULL parameters is not an error. -/
  nullParamsOk : Bool
  /-- `d2i_X509`, of all the bytes. -/
  decodeCert : List Byte → Option Cert
  /-- `certificate_validate_chain`, `certificate_validate_rfc6487`, `certificate_validate_extensions_ee`, `certificate_get_resources`.
  (`certificate_validate_aia` does nothing.) -/
  chainOk : Cert → Bool
  profileOk : Cert → Bool
  extensionsOk : Cert → List Byte → Bool
  resourcesOk : Cert → Bool
  /-- The signature of these bytes is good, by this certificate's key. -/
  verify : Cert → List Byte → List Byte → Bool

/-- Results; `crash` is for memory that is read out of bounds. -/
inductive Out where
  | ok
  | err
  | crash
  deriving DecidableEq, Repr

/-- src/algorithm.c:129-156 `validate_cms_hashing_algorithm_oid` -/
def hashOidOk (oid : List Byte) : Bool := decide (oid = [0x60, 0x86, 0x48, 0x01, 0x65, 0x03, 0x04, 0x02, 0x01])

/-- src/algorithm.c:9-13 `is_asn1_null_object` -/
def isNullObject (any : List Byte) : Bool := decide (any = [5, 0])

/-- src/algorithm.c:92-127 `validate_cms_hashing_algorithm` -/
def hashAlgOk (nullParamsOk : Bool) (a : AlgId) : Bool :=
  if hashOidOk a.oid = false then false
  else
    match a.params with
    | none => true
    | some p => if isNullObject p then nullParamsOk else false

/-- src/algorithm.c:158-239 `validate_cms_signature_algorithm` -/
def sigAlgOk (a : AlgId) : Bool :=
  if a.oid.length ≠ 9 then false
  else if a.oid.take 8 ≠ [0x2a, 0x86, 0x48, 0x86, 0xf7, 0x0d, 0x01, 0x01] then false
  else if a.oid[8]? ≠ some 1 ∧ a.oid[8]? ≠ some 11 then false
  else
    match a.params with
    | none => true
    | some p => isNullObject p

/-- src/asn1/signed_data.c:33-47 `get_sid` -/
def getSid (s : SignerInfo) : Option (List Byte) :=
  match s.sid with
  | .ski b => some b
  | .issuerAndSerial => none
  | .nothing => none

/-- src/asn1/signed_data.c:116-135 `validate_content_type_attribute` -/
def contentTypeOk {C} (env : Env C) (value eContentType : List Byte) : Bool :=
  match env.decodeOid value with
  | none => false
  | some o => decide (o = eContentType)

/-- src/asn1/signed_data.c:137-158 `validate_message_digest_attribute` and src/crypto/hash.c:196-212 `hash_validate` -/
def messageDigestOk {C} (env : Env C) (value : List Byte) (eContent : Option (List Byte)) : Bool :=
  match eContent with
  | none => false
  | some c =>
    match env.decodeOctets value with
    | none => false
    | some d => decide (d = env.sha256 c)

/-- The constants of src/asn1/signed_data.c:14-16 (src/asn1/oid.h:31-33). -/
def ctaArcs : List Nat := [1, 2, 840, 113549, 1, 9, 3]
def mdaArcs : List Nat := [1, 2, 840, 113549, 1, 9, 4]
def staArcs : List Nat := [1, 2, 840, 113549, 1, 9, 5]

/-- The loop of src/asn1/signed_data.c:160-244 `validate_signed_attrs`; the flags tell which attributes were found. -/
def attrsLoop {C} (env : Env C) (eContentType : List Byte) (eContent : Option (List Byte)) :
    Bool → Bool → Bool → List Attr → Bool
  | ct, md, st, [] => ct && md && st
  | ct, md, st, a :: as =>
    match a.values with
    | [v] =>
      match oid2arcs a.type with
      | none => false
      | some arcs =>
        if arcs = ctaArcs then
          if ct then false else if contentTypeOk env v eContentType then attrsLoop env eContentType eContent true md st as else false
        else if arcs = mdaArcs then
          if md then false else if messageDigestOk env v eContent then attrsLoop env eContentType eContent ct true st as else false
        else if arcs = staArcs then
          if st then false else attrsLoop env eContentType eContent ct md true as
        else false
    | _ => false

/-- src/asn1/signed_data.c:160-244 `validate_signed_attrs` -/
def signedAttrsOk {C} (env : Env C) (si : SignerInfo) (sd : SignedData) : Bool :=
  match si.signedAttrs with
  | none => false
  | some as => attrsLoop env sd.eContentType sd.eContent false false false as

/-- src/object/certificate.c:721-823 `certificate_validate_signature` -/
def signatureOut {C} (env : Env C) (c : C) (encoded signature : List Byte) : Out :=
  match signedBytes encoded with
  | .err => .err
  | .crash => .crash
  | .bytes b => if env.verify c b signature then .ok else .err

/-- src/asn1/signed_data.c:49-113 `handle_sdata_certificate` -/
def handleCertificate {C} (env : Env C) (cert sid encoded signature : List Byte) : Out :=
  match env.decodeCert cert with
  | none => .err
  | some c =>
    if env.chainOk c = false then .err
    else if env.profileOk c = false then .err
    else if env.extensionsOk c sid = false then .err
    else
      match signatureOut env c encoded signature with
      | .ok => if env.resourcesOk c then .ok else .err
      | r => r

/-- src/asn1/signed_data.c:246-379 `signed_data_validate` -/
def signedDataValidate {C} (env : Env C) (encoded : List Byte) (sd : SignedData) : Out :=
  match sd.signerInfos with
  | [si] =>
    if integer2ulong sd.version ≠ some 3 then .err
    else
      match sd.digestAlgs with
      | [da] =>
        if hashAlgOk env.nullParamsOk da = false then .err
        else if sd.crls.getD 0 > 0 then .err
        else if integer2ulong si.version ≠ some 3 then .err
        else
          match getSid si with
          | none => .err
          | some sid =>
            if hashAlgOk env.nullParamsOk si.digestAlg = false then .err
            else if signedAttrsOk env si sd = false then .err
            else if sigAlgOk si.sigAlg = false then .err
            else if si.unsignedAttrs.getD 0 > 0 then .err
            else
              match sd.certificates with
              | none => .err
              | some [cert] => handleCertificate env cert sid encoded si.signature
              | some _ => .err
      | _ => .err
  | _ => .err

/-- The loop of src/asn1/signed_data.c:448-492 `get_content_type_attr` -/
def findContentType {C} (env : Env C) : List Attr → Option (List Byte)
  | [] => none
  | a :: as =>
    match oid2arcs a.type with
    | none => none
    | some arcs =>
      if arcs = ctaArcs then
        match a.values with
        | [] => none
        | v :: _ => env.decodeOid v
      else findContentType env as

/-- src/asn1/signed_data.c:448-492 `get_content_type_attr` -/
def getContentTypeAttr {C} (env : Env C) (sd : SignedData) : Option (List Byte) :=
  match sd.signerInfos with
  | [] => none
  | si :: _ =>
    match si.signedAttrs with
    | none => none
    | some as => findContentType env as

/-- src/object/signed_object.c:69-89 `signed_object_validate`, with src/object/signed_object.c:24-42 `validate_eContentType` and
src/object/signed_object.c:44-67 `validate_content_type` -/
def signedObjectValidate {C} (env : Env C) (oid : List Nat) (encoded : List Byte) (sd : SignedData) : Out :=
  if oid2arcs sd.eContentType ≠ some oid then .err
  else
    match getContentTypeAttr env sd with
    | none => .err
    | some ct => if oid2arcs ct ≠ some oid then .err else signedDataValidate env encoded sd

end Verif.Cms
