import Verif.Obj.SpecEnc
import Verif.Asn.SpecDer
import Verif.Cms.SpecOid
/-
How an issuer writes a signed object: RFC 5652 (CMS) and RFC 6488 (the profile for the RPKI), in DER.
-/
namespace Verif.Sd
open Verif.Res (Byte)
open Verif.Obj (tlv derSeq derInt derOctets derNull)

/-- OBJECT IDENTIFIER -/
def derOid (b : List Byte) : List Byte := tlv 6 b

/-- SET OF -/
def derSet (c : List Byte) : List Byte := tlv 0x31 c

/-- 2.16.840.1.101.3.4.2.1 -/
def sha256Oid : List Byte := [0x60, 0x86, 0x48, 0x01, 0x65, 0x03, 0x04, 0x02, 0x01]
/-- 1.2.840.113549.1.1.1 (rsaEncryption) -/
def rsaOid : List Byte := [0x2a, 0x86, 0x48, 0x86, 0xf7, 0x0d, 0x01, 0x01, 0x01]
/-- 1.2.840.113549.1.7.2 -/
def signedDataOid : List Byte := [0x2a, 0x86, 0x48, 0x86, 0xf7, 0x0d, 0x01, 0x07, 0x02]
/-- 1.2.840.113549.1.9.3 -/
def contentTypeOid : List Byte := [0x2a, 0x86, 0x48, 0x86, 0xf7, 0x0d, 0x01, 0x09, 0x03]
/-- 1.2.840.113549.1.9.4 -/
def messageDigestOid : List Byte := [0x2a, 0x86, 0x48, 0x86, 0xf7, 0x0d, 0x01, 0x09, 0x04]
/-- 1.2.840.113549.1.9.5 -/
def signingTimeOid : List Byte := [0x2a, 0x86, 0x48, 0x86, 0xf7, 0x0d, 0x01, 0x09, 0x05]

/-- What an issuer puts into a signed object. -/
structure Object where
  /-- The type of the content: the octets of its OBJECT IDENTIFIER. -/
  type : List Byte
  content : List Byte
  /-- The certificate, and the key identifier in it. -/
  cert : List Byte
  keyId : List Byte
  digest : List Byte
  /-- UTCTime -/
  time : List Byte
  signature : List Byte

/-- RFC 5652, 5.3: Attribute, with one value. -/
def encAttr (type value : List Byte) : List Byte := derSeq (derOid type ++ derSet value)

/-- RFC 6488, 2.1.6.4: content-type, message-digest, signing-time. -/
def Object.attrList (o : Object) : List (List Byte × List Byte) :=
  [(contentTypeOid, derOid o.type), (messageDigestOid, derOctets o.digest), (signingTimeOid, tlv 0x17 o.time)]

/-- The contents of the SET OF the attributes, in some order. -/
def encAttrs (as : List (List Byte × List Byte)) : List Byte := as.flatMap fun a => encAttr a.1 a.2

/-- RFC 5652, 5.3: SignerInfo. Version 3; [0] subjectKeyIdentifier; SHA-256; [0] signedAttrs; rsaEncryption; the signature. -/
def Object.signer (o : Object) (as : List (List Byte × List Byte)) : List Byte :=
  derSeq (derInt 3 ++ (tlv 0x80 o.keyId ++ (derSeq (derOid sha256Oid) ++ (tlv 0xA0 (encAttrs as) ++ (derSeq (derOid rsaOid ++ derNull) ++ derOctets o.signature)))))

/-- RFC 5652, 5.1: SignedData. Version 3; digestAlgorithms; encapContentInfo; [0] certificates; signerInfos. -/
def Object.signedData (o : Object) (as : List (List Byte × List Byte)) : List Byte :=
  derSeq (derInt 3 ++ (derSet (derSeq (derOid sha256Oid)) ++ (derSeq (derOid o.type ++ tlv 0xA0 (derOctets o.content)) ++ (tlv 0xA0 o.cert ++
    derSet (o.signer as)))))

/-- RFC 5652, 3: ContentInfo. -/
def Object.file (o : Object) (as : List (List Byte × List Byte)) : List Byte :=
  derSeq (derOid signedDataOid ++ tlv 0xA0 (o.signedData as))

/-- RFC 5652, 5.4: what is signed is a separate encoding of the attributes, as a SET OF. -/
def toBeSigned (as : List (List Byte × List Byte)) : List Byte := derSet (encAttrs as)

end Verif.Sd
