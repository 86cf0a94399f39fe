import Verif.Obj.Model
import Verif.Cms.Model
/-
Signed objects, from the bytes in the file on.

The decoded structures are `Verif.Asn.Val`; `sdOf` says which member is in which place, as src/asn1/signed_data.c reads them. Each call of the decoder
has its own `Nul` (which empty strings have no buffer): it depends on the type and on the bytes.
-/
namespace Verif.Sd
open Verif.Res (Byte)
open Verif.Asn (Val Nul Ty asn1Decode)
open Verif.Obj (Got got all optBytes)
open Verif.Cms (SignedData SignerInfo AlgId Attr Sid Env Out oid2arcs signedObjectValidate)

/-- Which empty strings have no buffer. -/
abbrev Nuls := Ty → List Byte → Nul

/-- An INTEGER, an OBJECT IDENTIFIER, an OCTET STRING or an ANY: its octets. -/
def bytesOf : Val → Option (List Byte)
  | .bytes b => some b
  | _ => none

/-- A member that can be missing. -/
def optional {α : Type} (f : Val → Option α) : Option Val → Option (Option α)
  | none => some none
  | some v => (f v).map some

/-- How many elements a list has. -/
def countOf : Val → Option Nat
  | .list l => some l.length
  | _ => none

/-- `AlgorithmIdentifier_t`: src/asn1/asn1c/AlgorithmIdentifier.c:10-29 `asn_MBR_AlgorithmIdentifier_1` -/
def algOf : Val → Option AlgId
  | .seq [some (.bytes o), p] => (optional bytesOf p).map fun p => ⟨o, p⟩
  | _ => none

/-- `CMSAttribute_t`: src/asn1/asn1c/CMSAttribute.c:114-133 `asn_MBR_CMSAttribute_1` -/
def attrOf : Val → Option Attr
  | .seq [some (.bytes t), some (.list l)] => (all bytesOf l).map fun l => ⟨t, l⟩
  | _ => none

/-- `SignedAttributes_t` -/
def attrsOf : Val → Option (List Attr)
  | .list l => all attrOf l
  | _ => none

/-- `SignerIdentifier_t`: src/asn1/asn1c/SignerIdentifier.c:10-29 `asn_MBR_SignerIdentifier_1` -/
def sidOf : Val → Option Sid
  | .alt 0 _ => some .issuerAndSerial
  | .alt 1 (.bytes b) => some (.ski b)
  | _ => none

/-- `SignerInfo_t`: src/asn1/asn1c/SignerInfo.c:10-74 `asn_MBR_SignerInfo_1` -/
def signerOf : Val → Option SignerInfo
  | .seq [some (.bytes v), some sid, some da, sa, some ga, some (.bytes sig), ua] =>
    match sidOf sid, algOf da, optional attrsOf sa, algOf ga, optional countOf ua with
    | some sid, some da, some sa, some ga, some ua => some ⟨v, sid, da, sa, ga, sig, ua⟩
    | _, _, _, _, _ => none
  | _ => none

/-- `CertificateSet_t` -/
def certsOf : Val → Option (List (List Byte))
  | .list l => all bytesOf l
  | _ => none

/-- `SignedData_t`: src/asn1/asn1c/SignedData.c:10-65 `asn_MBR_SignedData_1` and
src/asn1/asn1c/EncapsulatedContentInfo.c:71-90 `asn_MBR_EncapsulatedContentInfo_1`. `SignedDataPKCS7_t` is the same, except that the content is
an ANY. -/
def sdOf : Val → Option SignedData
  | .seq [some (.bytes v), some (.list das), some (.seq [some (.bytes t), c]), certs, crls, some (.list infos)] =>
    match all algOf das, optional bytesOf c, optional certsOf certs, optional countOf crls,
      all signerOf infos with
    | some das, some c, some certs, some crls, some infos => some ⟨v, das, t, c, certs, crls, infos⟩
    | _, _, _, _, _ => none
  | _ => none

/-- src/asn1/signed_data.c:389-430 `signed_data_decode_pkcs7` -/
def decodePkcs7 (nuls : Nuls) (s : List Byte) : Got SignedData :=
  match got sdOf (asn1Decode (nuls Asn.signedDataPKCS7Ty s) Asn.signedDataPKCS7Ty Asn.signedDataPKCS7Con s) with
  | .ok sd =>
    match sd.eContent with
    | none => .error
    | some c =>
      match got bytesOf (asn1Decode (nuls Asn.contentTypePKCS7Ty c) Asn.contentTypePKCS7Ty Asn.contentTypePKCS7Con c) with
      | .ok x => .ok { sd with eContent := some x }
      | .error => .error
      | .hang => .hang
      | .bad => .bad
  | .error => .error
  | .hang => .hang
  | .bad => .bad

/-- src/asn1/signed_data.c:432-445 `signed_data_decode` -/
def signedDataDecode (nuls : Nuls) (s : List Byte) : Got SignedData :=
  match got sdOf (asn1Decode (nuls Asn.signedDataTy s) Asn.signedDataTy Asn.signedDataCon s) with
  | .error => decodePkcs7 nuls s
  | r => r

/-- `ContentInfo_t`: src/asn1/asn1c/ContentInfo.c:61-80 `asn_MBR_ContentInfo_1` -/
def contentInfoOf : Val → Option (List Byte × List Byte)
  | .seq [some (.bytes t), some (.bytes c)] => some (t, c)
  | _ => none

/-- src/asn1/content_info.c:27-48 `decode` and src/asn1/content_info.c:7-25 `validate`: the content. -/
def contentInfoDecode (nuls : Nuls) (file : List Byte) : Got (List Byte) :=
  match got contentInfoOf (asn1Decode (nuls Asn.contentInfoTy file) Asn.contentInfoTy Asn.contentInfoCon file) with
  | .ok (t, c) => if oid2arcs t = some [1, 2, 840, 113549, 1, 7, 2] then .ok c else .error
  | .error => .error
  | .hang => .hang
  | .bad => .bad

/-- src/object/signed_object.c:6-22 `signed_object_decode`: the encoded and the decoded signed data. (`content_info_load` reads the file.) -/
def signedObjectDecode (nuls : Nuls) (file : List Byte) : Got (List Byte × SignedData) :=
  match contentInfoDecode nuls file with
  | .ok c =>
    match signedDataDecode nuls c with
    | .ok sd => .ok (c, sd)
    | .error => .error
    | .hang => .hang
    | .bad => .bad
  | .error => .error
  | .hang => .hang
  | .bad => .bad

/-- What is not modelled: certificates, hashes and signatures (see `Verif.Cms.Env`). -/
structure Crypto (Cert : Type) where
  sha256 : List Byte → List Byte
  nullParamsOk : Bool
  decodeCert : List Byte → Option Cert
  chainOk : Cert → Bool
  profileOk : Cert → Bool
  extensionsOk : Cert → List Byte → Bool
  resourcesOk : Cert → Bool
  verify : Cert → List Byte → List Byte → Bool

/-- The decoder for the values of attributes: src/asn1/signed_data.c:116-135 `validate_content_type_attribute` and src/asn1/signed_data.c:137-158
`validate_message_digest_attribute`. (C184: they don't crash.) -/
def decodeOid (nuls : Nuls) (s : List Byte) : Got (List Byte) :=
  got bytesOf (asn1Decode (nuls Asn.objectIDENTIFIERTy s) Asn.objectIDENTIFIERTy Asn.objectIDENTIFIERCon s)

def decodeDigest (nuls : Nuls) (s : List Byte) : Got (List Byte) :=
  got bytesOf (asn1Decode (nuls Asn.messageDigestTy s) Asn.messageDigestTy Asn.messageDigestCon s)

def Crypto.env {C : Type} (y : Crypto C) (nuls : Nuls) : Env C where
  decodeOid := fun s => (decodeOid nuls s).toOption
  decodeOctets := fun s => (decodeDigest nuls s).toOption
  sha256 := y.sha256
  nullParamsOk := y.nullParamsOk
  decodeCert := y.decodeCert
  chainOk := y.chainOk
  profileOk := y.profileOk
  extensionsOk := y.extensionsOk
  resourcesOk := y.resourcesOk
  verify := y.verify

/-- What comes of a file. -/
inductive Result where
  /-- It is accepted; the content. -/
  | ok (content : List Byte)
  | error
  | hang
  | crash
  deriving DecidableEq, Repr

/-- src/object/signed_object.c:6-22 `signed_object_decode`, then src/object/signed_object.c:69-89 `signed_object_validate` (as in
src/object/roa.c:247-295 `roa_traverse`, with what is in between left out); then the content can be used. -/
def signedObject {C : Type} (y : Crypto C) (nuls : Nuls) (oid : List Nat) (file : List Byte) : Result :=
  match signedObjectDecode nuls file with
  | .ok (c, sd) =>
    match signedObjectValidate (y.env nuls) oid c sd with
    | .ok => match sd.eContent with
      | some x => .ok x
      | none => .crash
    | .err => .error
    | .crash => .crash
  | .error => .error
  | .hang => .hang
  | .bad => .crash

end Verif.Sd
