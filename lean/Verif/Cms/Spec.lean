import Verif.Cms.Model
import Verif.Cms.SpecOid
/-
RFC 6488's profile for signed objects.
-/
namespace Verif.Cms
open Verif.Res (Byte be)

/-- The object identifier's subidentifiers are those of `arcs`, modulo 2^32 (see C85). -/
def Names (b : List Byte) (arcs : List Nat) : Prop :=
  ∃ v vs a0 a1, Subs b (v :: vs) ∧ arcs = a0 :: a1 :: vs.map (· % 2 ^ 32) ∧ v % 2 ^ 32 = 40 * a0 + a1 ∧ a0 ≤ 2 ∧ (a0 < 2 → a1 < 40)

/-- SHA-256, without parameters, or with a NULL if this is tolerated. -/
def IsSha256 (tolerant : Bool) (a : AlgId) : Prop :=
  a.oid = [0x60, 0x86, 0x48, 0x01, 0x65, 0x03, 0x04, 0x02, 0x01] ∧ (a.params = none ∨ a.params = some [5, 0] ∧ tolerant = true)

/-- rsaEncryption or sha256WithRSAEncryption, without parameters or with a NULL. -/
def IsRsa (a : AlgId) : Prop :=
  (a.oid = [0x2a, 0x86, 0x48, 0x86, 0xf7, 0x0d, 0x01, 0x01, 0x01] ∨ a.oid = [0x2a, 0x86, 0x48, 0x86, 0xf7, 0x0d, 0x01, 0x01, 0x0b]) ∧
  (a.params = none ∨ a.params = some [5, 0])

/-- The attribute has this type and exactly one value, and it is as wanted. -/
def AttrIs (arcs : List Nat) (good : List Byte → Prop) (a : Attr) : Prop := Names a.type arcs ∧ ∃ v, a.values = [v] ∧ good v

/-- RFC 6488, section 3, 1: the object's structure. -/
structure Profile {C : Type} (env : Env C) (oid : List Nat) (sd : SignedData) (si : SignerInfo) (cert sid content : List Byte) : Prop where
  version : be sd.version = 3
  /-- One signer, with one digest algorithm. -/
  signer : sd.signerInfos = [si]
  signerVersion : be si.version = 3
  digest : ∃ a, sd.digestAlgs = [a] ∧ IsSha256 env.nullParamsOk a
  signerDigest : IsSha256 env.nullParamsOk si.digestAlg
  signature : IsRsa si.sigAlg
  /-- One certificate; the signer is identified by its key. -/
  certificate : sd.certificates = some [cert]
  signerId : si.sid = .ski sid
  noCrls : sd.crls = none ∨ sd.crls = some 0
  noUnsigned : si.unsignedAttrs = none ∨ si.unsignedAttrs = some 0
  /-- The content, and its type. -/
  type : Names sd.eContentType oid
  hasContent : sd.eContent = some content
  /-- In any order: the content's type, the content's hash, and a time. Nothing else. -/
  attrs : ∃ as ct md st, si.signedAttrs = some as ∧ as.Perm [ct, md, st] ∧
    AttrIs oidContentType (fun v => env.decodeOid v = some sd.eContentType) ct ∧
    AttrIs oidMessageDigest (fun v => env.decodeOctets v = some (env.sha256 content)) md ∧
    AttrIs oidSigningTime (fun _ => True) st

end Verif.Cms
