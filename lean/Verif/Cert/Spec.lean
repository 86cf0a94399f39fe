import Verif.Cert.Model
import Verif.Ext.Spec
/-
What names, keys, certificates and CRLs have to be, independently of how the code checks them.
-/
namespace Verif.Cert
open Verif.Res (Byte)

/-- RFC 6487: a name has one common name, and at most one serial number; in any order. -/
inductive Conforms : List Attr → List Byte → Option (List Byte) → Prop where
  | alone (cn) : Conforms [⟨.commonName, some cn⟩] cn none
  | first (cn sn) : Conforms [⟨.commonName, some cn⟩, ⟨.serialNumber, some sn⟩] cn (some sn)
  | last (cn sn) : Conforms [⟨.serialNumber, some sn⟩, ⟨.commonName, some cn⟩] cn (some sn)

/-- All the attributes are common names and serial numbers, libcrypto gives their text, and there's a common name. -/
def Readable (attrs : List Attr) : Prop :=
  (∀ a ∈ attrs, (a.type = .commonName ∨ a.type = .serialNumber) ∧ a.data ≠ none) ∧ ∃ a ∈ attrs, a.type = .commonName

/-- The last attribute of this type is this text; `none`: there aren't any. -/
def Last (t : AttrType) (attrs : List Attr) (text : Option (List Byte)) : Prop :=
  match text with
  | none => ∀ a ∈ attrs, a.type ≠ t
  | some d => ∃ pre post, attrs = pre ++ ⟨t, some d⟩ :: post ∧ ∀ a ∈ post, a.type ≠ t

/-- The text up to its first NUL. -/
def Upto (text prefix_ : List Byte) : Prop := 0#8 ∉ prefix_ ∧ (text = prefix_ ∨ ∃ rest, text = prefix_ ++ 0#8 :: rest)

/-- The same text, up to the first NUL. -/
def SameText (a b : List Byte) : Prop := ∃ p, Upto a p ∧ Upto b p

/-- The last common names and serial numbers are the same text, up to their first NUL. -/
def SameName (a b : List Attr) : Prop :=
  (∃ x y, Last .commonName a (some x) ∧ Last .commonName b (some y) ∧ SameText x y) ∧
  ((Last .serialNumber a none ∧ Last .serialNumber b none) ∨ ∃ x y, Last .serialNumber a (some x) ∧ Last .serialNumber b (some y) ∧ SameText x y)

/-- RFC 7935, except for keys longer than 2048 bits (which are accepted on purpose). -/
def RsaProfile (k : PKey) : Prop := (k.type = .rsa ∨ k.type = .rsa2) ∧ 2048 ≤ k.bits ∧ k.exponent = 65537

/-- A length and an exponent that fit in `size_t`. -/
def Sane (k : PKey) : Prop := k.bits < 2 ^ 64 ∧ k.exponent < 2 ^ 64

/-- The key of the certificate is good: for BGPsec, an elliptic curve (prime256v1); otherwise RSA. -/
def GoodKey (type : Ext.CertType) (c : Cert) : Prop :=
  if type = .bgpsec then c.algorithm = .ecPublicKey ∧ c.param = .oid true
  else c.algorithm = .rsaEncryption ∧ ∃ k, c.key = some k ∧ RsaProfile k

/-- The TAL's bytes are, entirely, this key. -/
def TalKey (env : Env) (spki : Spki) : Prop := env.d2i env.tal = some (spki, env.tal.length)

/-- Whether the issuer is the parent. Those of trust anchors only have to be names. -/
def GoodIssuer (env : Env) (type : Ext.CertType) (c : Cert) : Prop :=
  if type = .ta then Readable c.issuer
  else ∃ subject, env.parent = some subject ∧ Readable subject ∧ Readable c.issuer ∧ SameName subject c.issuer

/-- The profile of RFC 6487, apart from the extensions. -/
structure Profile (env : Env) (type : Ext.CertType) (c : Cert) : Prop where
  version : c.version = 2
  number : c.number ≠ none
  signature : c.signature = .sha256WithRSA
  issuer : GoodIssuer env type c
  subject : Readable c.subject
  key : GoodKey type c
  ta : type = .ta → TalKey env c.spki ∧ c.selfSignature = 1

/-- A CRL's profile. -/
structure CrlProfile (env : Ext.Env) (parent : Option (List Attr)) (c : Crl) : Prop where
  version : c.version = 1
  signature : c.signature = .sha256WithRSA
  issuer : ∃ subject, parent = some subject ∧ Readable subject ∧ Readable c.issuer ∧ SameName subject c.issuer
  revoked : ∀ l, c.revoked = some l → ∀ r ∈ l, r.serial = true ∧ r.date = true ∧ r.extensions = false
  shape : Ext.Shape c.extensions [.aki, crlNumber] []
  aki : Ext.AkiParent env c.extensions
  number : ∃ v, Ext.Has c.extensions crlNumber v

/-- The chain is valid: at once; or, if the only problem is that the CRL expired and that's not an error, with the last CRL's `nextUpdate` in the future. -/
def Verified {C : Type} (env : Chain C) (crls : List C) : Prop :=
  env.ctxNew 0 = true ∧ env.ctxInit 0 = true ∧
    (0 < (env.verify 0 crls).1 ∨
      (env.verify 0 crls).1 ≤ 0 ∧ (env.verify 0 crls).2 = crlHasExpired ∧ env.stale ≠ .error ∧ env.ctxNew 1 = true ∧ env.ctxInit 1 = true ∧
        env.clone = true ∧ env.pushClone = true ∧ env.pushOriginal = true ∧
        ∃ pre crl, crls = pre ++ [crl] ∧ 0 < (env.verify 1 (pre ++ [env.extend crl])).1)

end Verif.Cert
