import Verif.Print.ModelJson
/-
Print mode's certificates and CRLs: src/libcrypto_util.c, src/extension.c, src/asn1/asn1c/Certificate.c, src/asn1/asn1c/CRL.c.

What libcrypto decoded is data. Optional fields are `Option`; pointers that libcrypto never leaves null are not. The text of an object identifier, of a time and
of a key are libcrypto's: the structures hold them.
-/
namespace Verif.Print
open Verif.Res (Byte)

/-- `ASN1_OBJECT`: what `OBJ_obj2txt(.., 0)` writes (the long name, or numbers and dots). -/
structure Oid where
  txt : List Byte

/-- `ASN1_TIME`: what `ASN1_TIME_print_ex` writes, if it can. -/
structure ATime where
  txt : Option (List Byte)

/-- Text that a library function writes to a buffer of `size` bytes, followed by a zero, truncated if it's too long; the function returns the length of the
whole text, and that's the length given to `json_strn_new`. -/
def bufStr (size : Nat) (txt : List Byte) : B :=
  if txt.length < size then strNew txt
  else if txt.length = size then strNew (txt.take (size - 1) ++ [0])
  else crash

/-- src/libcrypto_util.c:59-66 `oid2json`; `OID_STR_MAXLEN` is 64. -/
def oid2json (oid : Oid) : B := bufStr 64 oid.txt

/-- A hexadecimal digit, with letters from `a`. -/
def hexDigit (a : Nat) (n : Nat) : Byte := BitVec.ofNat 8 (if n < 10 then 0x30 + n else a + (n - 10))

/-- Two hexadecimal digits for each byte. -/
def hexOf (a : Nat) (l : List Byte) : List Byte := l.flatMap (fun b => [hexDigit a (b.toNat / 16), hexDigit a (b.toNat % 16)])

/-- The bytes of a number, most significant first, none for 0. The first argument bounds the recursion. -/
def beBytes : Nat → Nat → List Byte
  | 0, _ => []
  | f + 1, n => if n = 0 then [] else beBytes f (n / 256) ++ [BitVec.ofNat 8 (n % 256)]

/-- libcrypto's `BN_bn2hex`: an even number of upper case digits, "0" for 0. -/
def bnHex (i : Int) : List Byte :=
  if i = 0 then [0x30] else (if i < 0 then [0x2D] else []) ++ hexOf 0x41 (beBytes i.natAbs i.natAbs)

/-- src/libcrypto_util.c:68-87 `asn1int2json` -/
def asn1int2json : Option Int → B
  | none => static .null
  | some i => strNew (bnHex i)

/-- src/libcrypto_util.c:89-110 `asn1str2json`, with src/libcrypto_util.c:45-57 `bio2json`. A memory BIO nothing was written to has no buffer, and jansson refuses a null pointer. -/
def asn1str2json : Option (List Byte) → B
  | none => static .null
  | some [] => fail
  | some l => strNew (hexOf 0x61 l)

/-- src/libcrypto_util.c:112-130 `asn1time2json` -/
def asn1time2json : Option ATime → B
  | none => static .null
  | some ⟨none⟩ => fail
  | some ⟨some t⟩ => strNew t

/-- `X509_NAME`: the long name of each attribute's type, and its value. -/
abbrev Name := List (List Byte × List Byte)

/-- src/libcrypto_util.c:132-172 `name2json` -/
def name2json : Option Name → B
  | none => static .null
  | some l => objArrB [] "rdnSequence" (fun held => fillRows held [] (l.map fun (t, v) => [("type", strNew t), ("value", strNew v)]))

/-- `GENERAL_NAME` -/
inductive GenName where
  | uri (s : List Byte)
  | other

/-- The text of what's not printed. -/
def notImplemented : List Byte := lit "<Not implemented for now>"

/-- src/extension.c:14-18 `unimplemented` -/
def unimplemented (present : Bool) : B := if present then strNew notImplemented else static .null

/-- src/libcrypto_util.c:174-187 `gn2json` -/
def gn2json : GenName → B
  | .uri s => strNew s
  | .other => strNew notImplemented

/-- src/libcrypto_util.c:189-213 `gns2json` -/
def gns2json : Option (List GenName) → B
  | none => static .null
  | some l => arrB (l.map gn2json)

/-- src/libcrypto_util.c:215-232 `pubkey2json`: the PEM text. -/
def pubkey2json : Option (List Byte) → B
  | none => fail
  | some pem => strNew pem

/-! ### Extensions -/

/-- src/extension.c:20-42 `bc2json` -/
def bc2json (ca : Bool) (pathlen : Option Int) : B :=
  objB [("cA", static (.bool ca)), ("pathLenConstraint", asn1int2json pathlen)]

/-- src/extension.c:58-62 `ski2json` -/
def ski2json (id : List Byte) : B := asn1str2json (some id)

/-- src/extension.c:78-103 `aki2json` -/
def aki2json (keyid : Option (List Byte)) (issuer : Bool) (serial : Option Int) : B :=
  objB [("keyIdentifier", asn1str2json keyid), ("authorityCertIssuer", unimplemented issuer), ("authorityCertSerialNumber", asn1int2json serial)]

/-- src/extension.c:119-168 `ku2json` -/
def ku2json (bits : List Byte) : B :=
  if bits.length < 1 ∨ 2 < bits.length then fail
  else
    let d0 := bits.getD 0 0
    let d1 := bits.getD 1 0
    objB [("digitalSignature", static (.bool (d0 &&& 0x80 ≠ 0))), ("contentCommitment", static (.bool (d0 &&& 0x40 ≠ 0))),
      ("keyEncipherment", static (.bool (d0 &&& 0x20 ≠ 0))), ("dataEncipherment", static (.bool (d0 &&& 0x10 ≠ 0))),
      ("keyAgreement", static (.bool (d0 &&& 0x08 ≠ 0))), ("keyCertSign", static (.bool (d0 &&& 0x04 ≠ 0))),
      ("cRLSign", static (.bool (d0 &&& 0x02 ≠ 0))), ("encipherOnly", static (.bool (d0 &&& 0x01 ≠ 0))),
      ("decipherOnly", static (.bool (d1 &&& 0x80 ≠ 0)))]

/-- src/extension.c:184-215 `rdn2json` -/
def rdn2json (l : List (Oid × List Byte)) : B :=
  rowsB (l.map fun (o, v) => [("type", oid2json o), ("value", asn1str2json (some v))])

/-- `DIST_POINT_NAME` -/
inductive DpName where
  | relative (l : List (Oid × List Byte))
  | full (l : List GenName)

/-- src/extension.c:217-225 `dpname2json` -/
def dpname2json : Option DpName → B
  | none => static .null
  | some (.relative l) => rdn2json l
  | some (.full l) => gns2json (some l)

/-- `DIST_POINT` -/
structure DistPoint where
  name : Option DpName
  reasons : Bool
  issuer : Option (List GenName)

/-- src/extension.c:227-262 `cdp2json` -/
def cdp2json (l : List DistPoint) : B :=
  rowsB (l.map fun d => [("distributionPoint", dpname2json d.name), ("reasons", unimplemented d.reasons), ("cRLIssuer", gns2json d.issuer)])

/-- src/extension.c:278-310 `aia2json` -/
def aia2json (l : List (Oid × GenName)) : B :=
  rowsB (l.map fun (o, g) => [("accessMethod", oid2json o), ("accessLocation", gn2json g)])

/-- src/extension.c:334-358 `pq2json`: returns NULL whatever happens, and does not free the object it made. -/
def pq2json (oid : Oid) : B := fun e s =>
  match objB [("policyQualifierId", oid2json oid), ("qualifier", unimplemented true)] e s with
  | .ret (some _) s => .ret none s
  | o => o

/-- src/extension.c:360-384 `pqs2json` -/
def pqs2json : Option (List Oid) → B
  | none => static .null
  | some l => arrB (l.map pq2json)

/-- src/extension.c:386-410 `pi2json`: the policy and the identifiers of its qualifiers. -/
def pi2json (p : Oid × Option (List Oid)) : B :=
  objB [("policyIdentifier", oid2json p.1), ("policyQualifiers", pqs2json p.2)]

/-- src/extension.c:412-434 `cp2json` -/
def cp2json (l : List (Oid × Option (List Oid))) : B := arrB (l.map pi2json)

/-- The decimal digits of a number; the first argument bounds the recursion. -/
def decDigits : Nat → Nat → List Byte
  | 0, n => [BitVec.ofNat 8 (0x30 + n % 10)]
  | f + 1, n => if n < 10 then [BitVec.ofNat 8 (0x30 + n)] else decDigits f (n / 10) ++ [BitVec.ofNat 8 (0x30 + n % 10)]

/-- `%u` -/
def dec (n : Nat) : List Byte := decDigits n n

/-- `ASN1_BIT_STRING`: bytes, and `flags & 7` (libcrypto sets `ASN1_STRING_FLAG_BITS_LEFT` when it decodes). -/
structure Bits where
  data : List Byte
  left : Nat

/-- The address family, `AF_INET` or `AF_INET6`. -/
inductive Fam where
  | v4
  | v6
  deriving DecidableEq

/-- `inet_ntop` of the first bytes of a buffer. -/
def ntop (e : Env) (af : Fam) (bin : List Byte) : List Byte :=
  match af with
  | .v4 => e.ntop4 (bin.take 4)
  | .v6 => e.ntop6 bin

/-- src/extension.c:450-473 `p2json`; `bin` has 16 bytes; `INET6_ADDRSTRLEN` is 46. -/
def p2json (ap : Bits) (af : Fam) : B := fun e s =>
  if ap.data.length > 16 then .ub
  else
    let bin := ap.data ++ List.replicate (16 - ap.data.length) 0
    let length : Nat := (((8 * ap.data.length : Nat) : Int) - ap.left).emod (2 ^ 32) |>.toNat
    bufStr 50 (ntop e af bin ++ [0x2F] ++ dec length) e s

/-- `IPAddressOrRange` -/
inductive IpAor where
  | pfx (b : Bits)
  | range (min max : Bits)

/-- src/extension.c:475-489 `iaor2json` -/
def iaor2json (af : Fam) : IpAor → B
  | .pfx b => p2json b af
  | .range _ _ => unimplemented true

/-- `IPAddressChoice` -/
inductive IpChoice where
  | inherit
  | aors (l : List IpAor)

/-- src/extension.c:517-531 `iac2json`, with src/extension.c:491-515 `iaors2json`. -/
def iac2json (af : Fam) : IpChoice → B
  | .inherit => strNew (lit "inherit")
  | .aors l => arrB (l.map (iaor2json af))

/-- `IPAddressFamily` -/
structure IpFam where
  af : List Byte
  choice : IpChoice

/-- The name of a family. -/
def famName : Fam → List Byte
  | .v4 => lit "IPv4"
  | .v6 => lit "IPv6"

/-- The family that the two bytes stand for. -/
def famOf (af : List Byte) : Option Fam :=
  if af = [0, 1] then some .v4 else if af = [0, 2] then some .v6 else none

/-- src/extension.c:533-574 `iaf2json`. An object without members is made and freed if the family is unknown. -/
def iaf2json (f : IpFam) : B :=
  match famOf f.af with
  | some af => objB [("addressFamily", strNew (famName af)), ("ipAddressChoice", iac2json af f.choice)]
  | none => objB [("addressFamily", fail)]

/-- src/extension.c:576-598 `ir2json` -/
def ir2json (l : List IpFam) : B := arrB (l.map iaf2json)

/-- `ASIdOrRange` -/
inductive AsAor where
  | id (i : Int)
  | range (min max : Int)

/-- src/extension.c:636-650 `aor2json`, with src/extension.c:614-634 `asr2json`. -/
def aor2json : AsAor → B
  | .id i => asn1int2json (some i)
  | .range a b => objB [("min", asn1int2json (some a)), ("max", asn1int2json (some b))]

/-- `ASIdentifierChoice` -/
inductive AsChoice where
  | inherit
  | aors (l : List AsAor)

/-- src/extension.c:677-691 `asidc2json`, with src/extension.c:652-675 `aior2json`. -/
def asidc2json : Option AsChoice → B
  | none => static .null
  | some .inherit => strNew (lit "inherit")
  | some (.aors l) => arrB (l.map aor2json)

/-- src/extension.c:693-714 `ar2json` -/
def ar2json (asnum rdi : Option AsChoice) : B := objB [("asnum", asidc2json asnum), ("rdi", asidc2json rdi)]

/-- src/extension.c:746-750 `cn2json` -/
def cn2json (n : Int) : B := asn1int2json (some n)

/-- src/extension.c:766-788 `eku2json` -/
def eku2json (l : List Oid) : B := arrB (l.map oid2json)

/-- The value of an extension, decoded according to its identifier (src/extension.c:826-836 `ext_metadatas`). `amended`: RFC 8360's, which libcrypto has no decoder for.
`bad`: an extension of another known type that libcrypto can't decode. `unknown`: any other extension; not decoded. -/
inductive ExtVal where
  | bc (ca : Bool) (pathlen : Option Int)
  | ski (id : List Byte)
  | aki (keyid : Option (List Byte)) (issuer : Bool) (serial : Option Int)
  | ku (bits : List Byte)
  | cdp (l : List DistPoint)
  | aia (l : List (Oid × GenName))
  | cp (l : List (Oid × Option (List Oid)))
  | ir (l : List IpFam)
  | ar (asnum rdi : Option AsChoice)
  | amended (raw : List Byte)
  | cn (n : Int)
  | eku (l : List Oid)
  | bad (raw : List Byte)
  | unknown (raw : List Byte)

/-- src/libcrypto_util.c:256-275 `ext2json`, with src/libcrypto_util.c:234-248 `ext2json_known` and src/libcrypto_util.c:250-254 `ext2json_unknown`. -/
def ext2json : ExtVal → B
  | .bc ca p => bc2json ca p
  | .ski id => ski2json id
  | .aki k i s => aki2json k i s
  | .ku b => ku2json b
  | .cdp l => cdp2json l
  | .aia l => aia2json l
  | .cp l => cp2json l
  | .ir l => ir2json l
  | .ar a r => ar2json a r
  | .amended _ => fail
  | .cn n => cn2json n
  | .eku l => eku2json l
  | .bad _ => fail
  | .unknown raw => asn1str2json (some raw)

/-- `X509_EXTENSION` -/
structure Ext where
  oid : Oid
  critical : Bool
  val : ExtVal

/-- src/libcrypto_util.c:277-314 `exts2json` -/
def exts2json : List Ext → B
  | [] => static .null
  | l => rowsB (l.map fun x => [("extnID", oid2json x.oid), ("critical", static (.bool x.critical)), ("extnValue", ext2json x.val)])

/-! ### Certificates -/

/-- `X509`. `key`: the algorithm, and the key as PEM text, if libcrypto can decode it. -/
structure Cert where
  version : Int
  serial : Int
  sigName : List Byte
  issuer : Name
  notBefore : ATime
  notAfter : ATime
  subject : Name
  keyAlg : Oid
  key : Option (List Byte)
  issuerUid : Option (List Byte)
  subjectUid : Option (List Byte)
  exts : List Ext
  sigAlg : Oid
  sig : List Byte

/-- src/asn1/asn1c/Certificate.c:9-30 `validity2json` -/
def validity2json (c : Cert) : B := objB [("notBefore", asn1time2json (some c.notBefore)), ("notAfter", asn1time2json (some c.notAfter))]

/-- src/asn1/asn1c/Certificate.c:32-61 `pk2json` -/
def pk2json (c : Cert) : B := objB [("algorithm", oid2json c.keyAlg), ("subjectPublicKey", pubkey2json c.key)]

/-- src/asn1/asn1c/Certificate.c:79-124 `tbsCert2json`, with src/asn1/asn1c/Certificate.c:63-69 `iuid2json` and src/asn1/asn1c/Certificate.c:71-77 `suid2json`. -/
def tbsCert2json (c : Cert) : B :=
  objB [("version", intNew c.version), ("serialNumber", asn1int2json (some c.serial)), ("signature", strNew c.sigName), ("issuer", name2json (some c.issuer)),
    ("validity", validity2json c), ("subject", name2json (some c.subject)), ("subjectPublicKeyInfo", pk2json c), ("issuerUniqueID", asn1str2json c.issuerUid),
    ("subjectUniqueID", asn1str2json c.subjectUid), ("extensions", exts2json c.exts)]

/-- src/asn1/asn1c/Certificate.c:146-170 `x509_to_json`, with src/asn1/asn1c/Certificate.c:126-136 `sigAlgorithm2json` and src/asn1/asn1c/Certificate.c:138-144 `sigValue2json`. -/
def x509ToJson (c : Cert) : B :=
  objB [("tbsCertificate", tbsCert2json c), ("signatureAlgorithm", oid2json c.sigAlg), ("signatureValue", asn1str2json (some c.sig))]

/-! ### CRLs -/

/-- `X509_REVOKED` -/
structure Revoked where
  serial : Int
  date : ATime
  exts : List Ext

/-- `X509_CRL` -/
structure Crl where
  version : Int
  sigName : List Byte
  issuer : Name
  lastUpdate : ATime
  nextUpdate : Option ATime
  revoked : List Revoked
  exts : List Ext
  sigAlg : Oid
  sig : List Byte

/-- src/asn1/asn1c/CRL.c:8-43 `revokedCerts2json` -/
def revokedCerts2json (l : List Revoked) : B :=
  rowsB (l.map fun r => [("userCertificate", asn1int2json (some r.serial)), ("revocationDate", asn1time2json (some r.date)), ("crlEntryExtensions", exts2json r.exts)])

/-- src/asn1/asn1c/CRL.c:45-81 `tbsCertList2json` -/
def tbsCertList2json (c : Crl) : B :=
  objB [("version", intNew c.version), ("signature", strNew c.sigName), ("issuer", name2json (some c.issuer)), ("thisUpdate", asn1time2json (some c.lastUpdate)),
    ("nextUpdate", asn1time2json c.nextUpdate), ("revokedCertificates", revokedCerts2json c.revoked), ("crlExtensions", exts2json c.exts)]

/-- src/asn1/asn1c/CRL.c:103-127 `crl2json` -/
def crl2json (c : Crl) : B :=
  objB [("tbsCertList", tbsCertList2json c), ("signatureAlgorithm", oid2json c.sigAlg), ("signatureValue", asn1str2json (some c.sig))]

end Verif.Print
