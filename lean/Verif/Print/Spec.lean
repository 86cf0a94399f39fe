import Verif.Print.Model
/-
What print mode is expected to write. The documents' layout; `none`: there is no document.
-/
namespace Verif.Print
open Verif.Res (Byte)

/-- The elements, if there is none missing. -/
def all : List (Option J) → Option (List J)
  | [] => some []
  | none :: _ => none
  | some j :: l => (all l).map (j :: ·)

/-- The members, if there is none missing. -/
def allMembers : List (String × Option J) → Option (List (String × J))
  | [] => some []
  | (_, none) :: _ => none
  | (k, some j) :: l => (allMembers l).map ((k, j) :: ·)

/-- An object. -/
def object (l : List (String × Option J)) : Option J := (allMembers l).map .obj

/-- An array. -/
def array (l : List (Option J)) : Option J := (all l).map .arr

/-- A string, which has to be UTF-8. -/
def text (e : Env) (s : List Byte) : Option J := if e.utf8 s then some (.str s) else none

/-- Null if it's absent. -/
def orNull {α : Type} (f : α → Option J) : Option α → Option J
  | none => some .null
  | some a => f a

/-- A digit's value. -/
def digitVal (b : Byte) : Option Nat :=
  if 0x30 ≤ b.toNat ∧ b.toNat ≤ 0x39 then some (b.toNat - 0x30)
  else if 0x41 ≤ b.toNat ∧ b.toNat ≤ 0x46 then some (b.toNat - 0x41 + 10)
  else if 0x61 ≤ b.toNat ∧ b.toNat ≤ 0x66 then some (b.toNat - 0x61 + 10)
  else none

/-- The number that hexadecimal digits stand for. -/
def hexNum (s : List Byte) : Option Nat := s.foldlM (fun v b => (digitVal b).map (v * 16 + ·)) 0

/-- The number that hexadecimal digits, perhaps after a minus sign, stand for. -/
def hexInt : List Byte → Option Int
  | [] => none
  | b :: s => if b = 0x2D then (hexNum s).map (fun n : Nat => -(n : Int)) else (hexNum (b :: s)).map (fun n : Nat => (n : Int))

/-- The bytes that pairs of hexadecimal digits stand for. -/
def hexBytes : List Byte → Option (List Byte)
  | [] => some []
  | [_] => none
  | a :: b :: s =>
    match digitVal a, digitVal b, hexBytes s with
    | some x, some y, some l => some (BitVec.ofNat 8 (16 * x + y) :: l)
    | _, _, _ => none

/-- The number that decimal digits stand for. -/
def decNum (s : List Byte) : Option Nat :=
  s.foldlM (fun v b => if 0x30 ≤ b.toNat ∧ b.toNat ≤ 0x39 then some (v * 10 + (b.toNat - 0x30)) else none) 0

/-! ### Leaves. `hexInt`, `hexBytes` and `decNum` read the texts back (see C143). -/

def intDoc (e : Env) (i : Int) : Option J := text e (bnHex i)

def bytesDoc (e : Env) (l : List Byte) : Option J := if l = [] then none else text e (hexOf 0x61 l)

def timeDoc (e : Env) (t : ATime) : Option J := t.txt.bind (text e)

def oidDoc (e : Env) (o : Oid) : Option J := text e o.txt

def absentDoc (e : Env) (present : Bool) : Option J := if present then text e notImplemented else some .null

/-- Address, slash, length. -/
def prefixText (e : Env) (af : Fam) (b : Bits) : List Byte :=
  ntop e af (b.data ++ List.replicate (16 - b.data.length) 0) ++ [0x2F] ++ dec (8 * b.data.length - b.left)

/-! ### Documents -/

def nameDoc (e : Env) (n : Name) : Option J :=
  object [("rdnSequence", array (n.map fun (t, v) => object [("type", text e t), ("value", text e v)]))]

def genNameDoc (e : Env) : GenName → Option J
  | .uri s => text e s
  | .other => text e notImplemented

def genNamesDoc (e : Env) (l : List GenName) : Option J := array (l.map (genNameDoc e))

def dpNameDoc (e : Env) : DpName → Option J
  | .relative l => array (l.map fun (o, v) => object [("type", oidDoc e o), ("value", bytesDoc e v)])
  | .full l => genNamesDoc e l

def kuDoc (bits : List Byte) : Option J :=
  if bits.length = 1 ∨ bits.length = 2 then
    -- the first bit is the most significant one of the first byte
    let bit (i : Nat) : Option J := some (.bool (((bits.getD (i / 8) 0).toNat).testBit (7 - i % 8)))
    object [("digitalSignature", bit 0), ("contentCommitment", bit 1), ("keyEncipherment", bit 2), ("dataEncipherment", bit 3), ("keyAgreement", bit 4),
      ("keyCertSign", bit 5), ("cRLSign", bit 6), ("encipherOnly", bit 7), ("decipherOnly", bit 8)]
  else none

/-- Bytes of an address. -/
def Fam.bytes : Fam → Nat
  | .v4 => 4
  | .v6 => 16

/-- A prefix of an address of this family: it's not longer than the address, and doesn't have more unused bits than bits. -/
def Bits.Fits (b : Bits) (af : Fam) : Prop := b.data.length ≤ af.bytes ∧ b.left ≤ 7 ∧ (b.data = [] → b.left = 0)

instance (b : Bits) (af : Fam) : Decidable (b.Fits af) := by unfold Bits.Fits; infer_instance

def ipDoc (e : Env) (af : Fam) : IpAor → Option J
  | .pfx b => if b.Fits af then text e (prefixText e af b) else none
  | .range _ _ => text e notImplemented

def ipChoiceDoc (e : Env) (af : Fam) : IpChoice → Option J
  | .inherit => text e (lit "inherit")
  | .aors l => array (l.map (ipDoc e af))

def ipFamDoc (e : Env) (f : IpFam) : Option J :=
  match famOf f.af with
  | some af => object [("addressFamily", text e (famName af)), ("ipAddressChoice", ipChoiceDoc e af f.choice)]
  | none => none

def asDoc (e : Env) : AsAor → Option J
  | .id i => intDoc e i
  | .range a b => object [("min", intDoc e a), ("max", intDoc e b)]

def asChoiceDoc (e : Env) : AsChoice → Option J
  | .inherit => text e (lit "inherit")
  | .aors l => array (l.map (asDoc e))

/-- What's expected of each extension. Policy qualifiers: their identifiers. RFC 8360's extensions, and those that can't be decoded: nothing can be said but their bytes. -/
def extDoc (e : Env) : ExtVal → Option J
  | .bc ca p => object [("cA", some (.bool ca)), ("pathLenConstraint", orNull (intDoc e) p)]
  | .ski id => bytesDoc e id
  | .aki k i s => object [("keyIdentifier", orNull (bytesDoc e) k), ("authorityCertIssuer", absentDoc e i), ("authorityCertSerialNumber", orNull (intDoc e) s)]
  | .ku b => kuDoc b
  | .cdp l => array (l.map fun d => object [("distributionPoint", orNull (dpNameDoc e) d.name), ("reasons", absentDoc e d.reasons), ("cRLIssuer", orNull (genNamesDoc e) d.issuer)])
  | .aia l => array (l.map fun (o, g) => object [("accessMethod", oidDoc e o), ("accessLocation", genNameDoc e g)])
  | .cp l => array (l.map fun p => object [("policyIdentifier", oidDoc e p.1), ("policyQualifiers", orNull (fun q => array (q.map fun o =>
      object [("policyQualifierId", oidDoc e o), ("qualifier", text e notImplemented)])) p.2)])
  | .ir l => array (l.map (ipFamDoc e))
  | .ar a r => object [("asnum", orNull (asChoiceDoc e) a), ("rdi", orNull (asChoiceDoc e) r)]
  | .amended raw => bytesDoc e raw
  | .cn n => intDoc e n
  | .eku l => array (l.map (oidDoc e))
  | .bad _ => none
  | .unknown raw => bytesDoc e raw

def extsDoc (e : Env) (l : List Ext) : Option J :=
  if l = [] then some .null
  else array (l.map fun x => object [("extnID", oidDoc e x.oid), ("critical", some (.bool x.critical)), ("extnValue", extDoc e x.val)])

def certDoc (e : Env) (c : Cert) : Option J :=
  object [
    ("tbsCertificate", object [
      ("version", some (.int c.version)), ("serialNumber", intDoc e c.serial), ("signature", text e c.sigName), ("issuer", nameDoc e c.issuer),
      ("validity", object [("notBefore", timeDoc e c.notBefore), ("notAfter", timeDoc e c.notAfter)]),
      ("subject", nameDoc e c.subject), ("subjectPublicKeyInfo", object [("algorithm", oidDoc e c.keyAlg), ("subjectPublicKey", c.key.bind (text e))]),
      ("issuerUniqueID", orNull (bytesDoc e) c.issuerUid), ("subjectUniqueID", orNull (bytesDoc e) c.subjectUid), ("extensions", extsDoc e c.exts)]),
    ("signatureAlgorithm", oidDoc e c.sigAlg), ("signatureValue", bytesDoc e c.sig)]

def revokedDoc (e : Env) (r : Revoked) : Option J :=
  object [("userCertificate", intDoc e r.serial), ("revocationDate", timeDoc e r.date), ("crlEntryExtensions", extsDoc e r.exts)]

def crlDoc (e : Env) (c : Crl) : Option J :=
  object [
    ("tbsCertList", object [
      ("version", some (.int c.version)), ("signature", text e c.sigName), ("issuer", nameDoc e c.issuer), ("thisUpdate", timeDoc e c.lastUpdate),
      ("nextUpdate", orNull (timeDoc e) c.nextUpdate), ("revokedCertificates", array (c.revoked.map (revokedDoc e))), ("crlExtensions", extsDoc e c.exts)]),
    ("signatureAlgorithm", oidDoc e c.sigAlg), ("signatureValue", bytesDoc e c.sig)]

/-! ### Conditions -/

/-- No allocation fails. -/
def Env.Plenty (e : Env) : Prop := ∀ n, e.alloc n = true

/-- libc writes addresses as it says: no more than 15 or 45 characters. -/
def Env.Addresses (e : Env) : Prop := (∀ b : List Byte, b.length = 4 → (e.ntop4 b).length ≤ 15) ∧ (∀ b : List Byte, b.length = 16 → (e.ntop6 b).length ≤ 45)

/-- The function returned this, without undefined behaviour. -/
def Returns (b : B) (e : Env) (r : Option J) : Prop := ∃ s : St, b e ⟨0, 0⟩ = .ret r s

/-- All that's asked of a printer: it never does anything undefined, whatever it returns is the document, it returns the document unless memory runs out, and it leaves
nothing allocated other than what it returns. -/
def Prints (b : B) (e : Env) (doc : Option J) : Prop :=
  ∀ s : St, ∃ r s', b e s = .ret r s' ∧ (∀ j, r = some j → doc = some j) ∧ (e.Plenty → r = doc) ∧
    s'.live = s.live + (match r with | some j => (j.nodes : Int) | none => 0)

/-- The object identifier's text fits in Fort's buffer. -/
def Oid.Short (o : Oid) : Prop := o.txt.length < 64

def DpName.Fine : DpName → Prop
  | .relative l => ∀ x ∈ l, x.1.Short
  | .full _ => True

def IpFam.Fine (f : IpFam) : Prop := ∀ af l, famOf f.af = some af → f.choice = .aors l → ∀ b, IpAor.pfx b ∈ l → b.Fits af

/-- The extensions that print mode gets right: short identifiers, prefixes that fit, policies without qualifiers, and not RFC 8360's. -/
def ExtVal.Fine : ExtVal → Prop
  | .cdp l => ∀ d ∈ l, ∀ n, d.name = some n → n.Fine
  | .aia l => ∀ x ∈ l, x.1.Short
  | .cp l => ∀ x ∈ l, x.1.Short ∧ (x.2 = none ∨ x.2 = some [])
  | .ir l => ∀ f ∈ l, f.Fine
  | .amended _ => False
  | .eku l => ∀ o ∈ l, o.Short
  | _ => True

def ExtsFine (l : List Ext) : Prop := ∀ x ∈ l, x.oid.Short ∧ x.val.Fine

def Cert.Fine (c : Cert) : Prop := c.keyAlg.Short ∧ c.sigAlg.Short ∧ ExtsFine c.exts

/-! Conditions that only exclude undefined behaviour: texts of object identifiers that are not longer than the buffer, prefixes of no more than 16 bytes. -/

def Oid.Bounded (o : Oid) : Prop := o.txt.length ≤ 64

def DpName.Bounded : DpName → Prop
  | .relative l => ∀ x ∈ l, x.1.Bounded
  | .full _ => True

def IpFam.Bounded (f : IpFam) : Prop := ∀ l, f.choice = .aors l → ∀ b, IpAor.pfx b ∈ l → b.data.length ≤ 16

def ExtVal.Bounded : ExtVal → Prop
  | .cdp l => ∀ d ∈ l, ∀ n, d.name = some n → n.Bounded
  | .aia l => ∀ x ∈ l, x.1.Bounded
  | .cp l => ∀ x ∈ l, x.1.Bounded ∧ ∀ q, x.2 = some q → ∀ o ∈ q, o.Bounded
  | .ir l => ∀ f ∈ l, f.Bounded
  | .eku l => ∀ o ∈ l, o.Bounded
  | _ => True

def ExtsBounded (l : List Ext) : Prop := ∀ x ∈ l, x.oid.Bounded ∧ x.val.Bounded

def Cert.Bounded (c : Cert) : Prop := c.keyAlg.Bounded ∧ c.sigAlg.Bounded ∧ ExtsBounded c.exts

def Crl.Bounded (c : Crl) : Prop := c.sigAlg.Bounded ∧ ExtsBounded c.exts ∧ ∀ r ∈ c.revoked, ExtsBounded r.exts

def Crl.Fine (c : Crl) : Prop := c.sigAlg.Short ∧ ExtsFine c.exts ∧ ∀ r ∈ c.revoked, ExtsFine r.exts

/-! What can be shown at all. -/

/-- ASCII is UTF-8. -/
def Env.Reads (e : Env) : Prop := ∀ s : List Byte, (∀ b ∈ s, b.toNat < 128) → e.utf8 s = true

/-- libc writes addresses in ASCII. -/
def Env.AsciiAddresses (e : Env) : Prop := (∀ b, ∀ x ∈ e.ntop4 b, x.toNat < 128) ∧ (∀ b, ∀ x ∈ e.ntop6 b, x.toNat < 128)

def NameReadable (e : Env) (n : Name) : Prop := ∀ x ∈ n, e.utf8 x.1 = true ∧ e.utf8 x.2 = true

def GenName.Readable (e : Env) : GenName → Prop
  | .uri s => e.utf8 s = true
  | .other => True

def DpName.Readable (e : Env) : DpName → Prop
  | .relative l => ∀ x ∈ l, e.utf8 x.1.txt = true ∧ x.2 ≠ []
  | .full l => ∀ g ∈ l, g.Readable e

/-- Texts are UTF-8, bytes are not missing, the family of addresses is known, prefixes are prefixes. -/
def ExtVal.Readable (e : Env) : ExtVal → Prop
  | .ski id => id ≠ []
  | .aki k _ _ => k ≠ some []
  | .ku b => b.length = 1 ∨ b.length = 2
  | .cdp l => ∀ d ∈ l, (∀ n, d.name = some n → n.Readable e) ∧ ∀ i, d.issuer = some i → ∀ g ∈ i, g.Readable e
  | .aia l => ∀ x ∈ l, e.utf8 x.1.txt = true ∧ x.2.Readable e
  | .cp l => ∀ x ∈ l, e.utf8 x.1.txt = true ∧ ∀ q, x.2 = some q → ∀ o ∈ q, e.utf8 o.txt = true
  | .ir l => ∀ f ∈ l, ∃ af, famOf f.af = some af ∧ ∀ l, f.choice = .aors l → ∀ b, IpAor.pfx b ∈ l → b.Fits af
  | .amended raw => raw ≠ []
  | .eku l => ∀ o ∈ l, e.utf8 o.txt = true
  | .bad _ => False
  | .unknown raw => raw ≠ []
  | _ => True

def ExtsReadable (e : Env) (l : List Ext) : Prop := ∀ x ∈ l, e.utf8 x.oid.txt = true ∧ x.val.Readable e

def ATime.Readable (e : Env) (t : ATime) : Prop := ∃ s, t.txt = some s ∧ e.utf8 s = true

def Cert.Readable (e : Env) (c : Cert) : Prop :=
  e.utf8 c.sigName = true ∧ NameReadable e c.issuer ∧ c.notBefore.Readable e ∧ c.notAfter.Readable e ∧ NameReadable e c.subject ∧ e.utf8 c.keyAlg.txt = true ∧
    (∃ k, c.key = some k ∧ e.utf8 k = true) ∧ c.issuerUid ≠ some [] ∧ c.subjectUid ≠ some [] ∧ ExtsReadable e c.exts ∧ e.utf8 c.sigAlg.txt = true ∧ c.sig ≠ []

def Crl.Readable (e : Env) (c : Crl) : Prop :=
  e.utf8 c.sigName = true ∧ NameReadable e c.issuer ∧ c.lastUpdate.Readable e ∧ (∀ t, c.nextUpdate = some t → t.Readable e) ∧
    (∀ r ∈ c.revoked, r.date.Readable e ∧ ExtsReadable e r.exts) ∧ ExtsReadable e c.exts ∧ e.utf8 c.sigAlg.txt = true ∧ c.sig ≠ []

end Verif.Print
