import Verif.Sd.Model
import Verif.Cms.Spec
/-
What a signature says, and about what. Nothing here depends on the file that the signed octets come from.
-/
namespace Verif.Sd
open Verif.Res (Byte be)
open Verif.Asn (Ty berDecode)
open Verif.Cms (oidContentType oidMessageDigest oidSigningTime Names)

/-- The octets are a value of the type: an OBJECT IDENTIFIER or an OCTET STRING with these contents. -/
def Holds (ty : Ty) (x contents : List Byte) : Prop := ∃ n, berDecode ty x = .ok (.bytes contents) n

/-- An attribute with this type, and one value. -/
def attrV (type value : List Byte) : Asn.Val := .seq [some (.bytes type), some (.list [.bytes value])]

/-- Three attributes, with one value each, in any order: a content type, the digest of a content, and a time. -/
def Attributes (l : List Asn.Val) (type digest : List Byte) : Prop :=
  ∃ t1 t2 t3 v1 v2 v3, l.Perm [attrV t1 v1, attrV t2 v2, attrV t3 v3] ∧ Names t1 oidContentType ∧ Holds Asn.objectIDENTIFIERTy v1 type ∧
    Names t2 oidMessageDigest ∧ Holds Asn.messageDigestTy v2 digest ∧ Names t3 oidSigningTime

/-- **What a signature of these octets says.** They are a SET OF attributes, all of them. -/
def Says (b type digest : List Byte) : Prop :=
  ∃ l, berDecode Asn.signedAttributesTy b = .ok (.list l) b.length ∧ Attributes l type digest

/-- An algorithm: an object identifier, and parameters. -/
def algV (oid : List Byte) (params : Option (List Byte)) : Asn.Val := .seq [some (.bytes oid), params.map .bytes]

/-- SHA-256; `tolerant`: a NULL is tolerated as its parameter. -/
def ShaV (tolerant : Bool) (v : Asn.Val) : Prop :=
  ∃ p, v = algV [0x60, 0x86, 0x48, 0x01, 0x65, 0x03, 0x04, 0x02, 0x01] p ∧ (p = none ∨ p = some [5, 0] ∧ tolerant = true)

/-- rsaEncryption or sha256WithRSAEncryption. -/
def RsaV (v : Asn.Val) : Prop :=
  ∃ o p, v = algV o p ∧ (o = [0x2a, 0x86, 0x48, 0x86, 0xf7, 0x0d, 0x01, 0x01, 0x01] ∨ o = [0x2a, 0x86, 0x48, 0x86, 0xf7, 0x0d, 0x01, 0x01, 0x0b]) ∧
    (p = none ∨ p = some [5, 0])

/-- No element. -/
def NoneV (v : Option Asn.Val) : Prop := v = none ∨ v = some (.list [])

/-- **A SignedData as RFC 6488 prescribes**: version 3; one digest algorithm, SHA-256; a content; one certificate; no CRLs; one signer, of version 3, that is identified by its key, with
the same digest algorithm, these signed attributes, an RSA signature, and no unsigned attributes. -/
def Complies (tolerant : Bool) (v : Asn.Val) (type content cert keyId signature : List Byte) (attrs : List Asn.Val) : Prop :=
  ∃ ver alg crls sver da ga ua, v = .seq [some (.bytes ver), some (.list [alg]), some (.seq [some (.bytes type), some (.bytes content)]), some (.list [.bytes cert]), crls,
      some (.list [.seq [some (.bytes sver), some (.alt 1 (.bytes keyId)), some da, some (.list attrs), some ga, some (.bytes signature), ua]])] ∧
    be ver = 3 ∧ be sver = 3 ∧ ShaV tolerant alg ∧ ShaV tolerant da ∧ RsaV ga ∧ NoneV crls ∧ NoneV ua

/-- A certificate that is accepted, and the octets and the signature: it is a signature of these. -/
def Signed {C : Type} (y : Crypto C) (b : List Byte) : Prop :=
  ∃ der cert sid sig, y.decodeCert der = some cert ∧ y.chainOk cert = true ∧ y.profileOk cert = true ∧ y.extensionsOk cert sid = true ∧
    y.resourcesOk cert = true ∧ y.verify cert b sig = true

end Verif.Sd
