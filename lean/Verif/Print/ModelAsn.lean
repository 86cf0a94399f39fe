import Verif.Print.Model
import Verif.Mft.ModelTime
/-
How print mode makes JSON documents out of signed objects: the JSON encoders of asn1c's types.

The BER decoder (`ber_decode`), libcrypto's table of object identifiers and its X.509 decoder are outside of the model (`Lib`). What's decoded is modelled as a tree;
`struct`s that are embedded are always there, pointers (OPTIONAL) might be null. A member that's given by the decoder has a buffer, even if it's empty.
-/
namespace Verif.Print
open Verif.Res (Byte BitStr prefix4Decode prefix6Decode)
open Verif.Mft (Tm gt2time)

/-! ### Leaves -/

/-- The loop of src/asn1/asn1c/INTEGER.c:285-334 `asn_INTEGER2imax` that skips the bytes that only extend the sign. -/
def skipSign : List Byte → List Byte
  | [] => []
  | [b] => [b]
  | b :: c :: r =>
    if b = 0x00 then (if c &&& 0x80 = 0 then skipSign (c :: r) else b :: c :: r)
    else if b = 0xFF then (if c &&& 0x80 ≠ 0 then skipSign (c :: r) else b :: c :: r)
    else b :: c :: r

/-- src/asn1/asn1c/INTEGER.c:265-283 `asn__integer_convert`; `uintmax_t` has 64 bits. -/
def integerConvert (l : List Byte) : BitVec 64 :=
  l.foldl (fun v b => v <<< 8 ||| b.setWidth 64) (if (l.headD 0) >>> 7 ≠ 0 then BitVec.allOnes 64 else 0)

/-- src/asn1/asn1c/INTEGER.c:285-334 `asn_INTEGER2imax` -/
def integer2imax (l : List Byte) : Option Int :=
  let l := if l.length > 8 then skipSign l else l
  if l.length > 8 then none
  else if l = [] then some 0
  else some (integerConvert l).toInt

/-- src/asn1/asn1c/INTEGER.c:223-244 `INTEGER_encode_json`; none of the types that are printed is unsigned. -/
def integerJson : Option (List Byte) → B
  | none => fail
  | some l =>
    match integer2imax l with
    | none => fail
    | some i => intNew i

/-- src/asn1/asn1c/OCTET_STRING.c:590-614 `OCTET_STRING_encode_json`; also for ANY and BIT STRING. -/
def octetsJson (l : List Byte) : B := strNew (hexOf 0x61 l)

/-- src/asn1/asn1c/OCTET_STRING.c:616-622 `OCTET_STRING_encode_json_utf8` -/
def utf8Json (l : List Byte) : B := strNew l

/-- src/asn1/asn1c/GeneralizedTime.c:207-219 `asn_tm2str`, one number: `%0nd`. (`snprintf` pads negative numbers too.) -/
def padded (n : Nat) (i : Int) : List Byte :=
  let d := dec i.natAbs
  if i < 0 then 0x2D :: (List.replicate (n - 1 - d.length) 0x30 ++ d) else List.replicate (n - d.length) 0x30 ++ d

/-- src/asn1/asn1c/GeneralizedTime.c:207-219 `asn_tm2str`, before the assertion. -/
def tmText (tm : Tm) : List Byte :=
  padded 4 (tm.year + 1900) ++ [0x2D] ++ padded 2 (tm.mon + 1) ++ [0x2D] ++ padded 2 tm.mday ++ [0x20] ++
    padded 2 tm.hour ++ [0x3A] ++ padded 2 tm.min ++ [0x3A] ++ padded 2 tm.sec ++ [0x5A]

/-- src/asn1/asn1c/GeneralizedTime.c:142-155 `GeneralizedTime_encode_json`, with src/asn1/asn1c/GeneralizedTime.c:85-94 `GeneralizedTime2str`; the assertion of `asn_tm2str` is taken for
undefined behaviour, and so are reads after the end of the text. -/
def gtJson (s : List Byte) : B :=
  match gt2time s with
  | .oob => crash
  | .garbage => fail
  | .ok tm => if (tmText tm).length = 20 then strNew (tmText tm) else crash

/-- src/asn1/asn1c/UTCTime.c:148-173 `asn_UT2time`: the text is copied after a century. -/
def utAsGt (s : List Byte) : Option (List Byte) :=
  if s.length < 11 ∨ s.length ≥ 22 then none
  else some ((if (s.headD 0).toNat > 0x35 then [0x31, 0x39] else [0x32, 0x30]) ++ s)

/-- src/asn1/asn1c/UTCTime.c:133-146 `UTCTime_encode_json`, with src/asn1/asn1c/UTCTime.c:104-113 `UTCTime2str`. It's undefined if `asn_UT2time` looked at the first
character of an empty text, or copied it to more than the 24 bytes of its buffer. -/
def utcJson (s : List Byte) : B :=
  match utAsGt s with
  | none => fail
  | some g => if s = [] ∨ 24 < g.length then crash else gtJson g

/-! ### Types without encoders of their own -/

/-- A decoded value of a type whose encoders are all generic. Members of sequences that are `none` are OPTIONAL, and absent. -/
inductive Val where
  | int (l : List Byte)
  | octets (l : List Byte)
  | utf8 (l : List Byte)
  | oid (l : List Byte)
  | bool (b : Bool)
  | null
  | utc (l : List Byte)
  | gt (l : List Byte)
  | seq (l : List (String × Option Val))
  | list (l : List Val)
  | choice (v : Option Val)

/-- `AlgorithmIdentifier` -/
structure AlgId where
  algorithm : List Byte
  parameters : Option (List Byte)

/-- `CMSAttribute` -/
structure Attr where
  type : List Byte
  values : List (List Byte)

/-- `SignerIdentifier` -/
inductive Sid where
  | none
  | issuer (v : Val)
  | ski (l : List Byte)

/-- `SignerInfo` -/
structure Signer where
  version : List Byte
  sid : Sid
  digestAlgorithm : AlgId
  signedAttrs : Option (List Attr)
  signatureAlgorithm : AlgId
  signature : List Byte
  unsignedAttrs : Option (List Attr)

/-- `SignedData` -/
structure Signed where
  version : List Byte
  digestAlgorithms : List AlgId
  eContentType : List Byte
  eContent : Option (List Byte)
  certificates : Option (List (List Byte))
  crls : Option (List Val)
  signerInfos : List Signer

/-- `ROAIPAddress` -/
structure RoaAddr where
  address : BitStr
  maxLength : Option (List Byte)

/-- `ROAIPAddressFamily` -/
structure RoaFam where
  family : List Byte
  addresses : List RoaAddr

/-- `RouteOriginAttestation` -/
structure Roa where
  version : Option (List Byte)
  asId : List Byte
  blocks : List RoaFam

/-- `FileAndHash` -/
structure FileHash where
  file : List Byte
  hash : BitStr

/-- `Manifest` -/
structure Manifest where
  version : Option (List Byte)
  number : List Byte
  thisUpdate : List Byte
  nextUpdate : List Byte
  hashAlg : List Byte
  files : List FileHash

/-- `Time` -/
inductive TimeVal where
  | none
  | utc (l : List Byte)
  | gt (l : List Byte)

/-- The outside: libcrypto's table (`OBJ_obj2nid`, `OBJ_nid2sn`, the numbers of the RPKI's types), and decoders, which might reject the bytes. -/
structure Lib where
  nid : List Byte → Nat
  sn : Nat → List Byte
  signedData : Nat
  contentType : Nat
  messageDigest : Nat
  signingTime : Nat
  mft : Nat
  roa : Nat
  gbr : Nat
  decSigned : List Byte → Option Signed
  decRoa : List Byte → Option Roa
  decMft : List Byte → Option Manifest
  decOid : List Byte → Option (List Byte)
  decDigest : List Byte → Option (List Byte)
  decTime : List Byte → Option TimeVal
  decAny : List Byte → Option (List Byte)
  x509 : List Byte → Option Cert

/-- src/asn1/asn1c/OBJECT_IDENTIFIER.c:280-290 `OBJECT_IDENTIFIER_encode_json`, with src/asn1/asn1c/OBJECT_IDENTIFIER.c:268-278 `OBJECT_IDENTIFIER_to_string` and
src/asn1/asn1c/OBJECT_IDENTIFIER.c:224-238 `OBJECT_IDENTIFIER_to_nid`. `OBJ_nid2sn` doesn't return NULL for the numbers `OBJ_obj2nid` returns: `NID_undef`'s is "UNDEF". -/
def oidJson (d : Lib) (l : List Byte) : B := strNew (d.sn (d.nid l))

/-- The members of a sequence that are there. -/
def present {α : Type} (f : α → B) (k : String) : Option α → List (String × B)
  | none => []
  | some a => [(k, f a)]

mutual
/-- src/asn1/asn1c/constr_SEQUENCE.c:620-654 `SEQUENCE_encode_json`, src/asn1/asn1c/constr_SET_OF.c:498-527 `SET_OF_encode_json`, src/asn1/asn1c/constr_CHOICE.c:526-551 `CHOICE_encode_json`,
src/asn1/asn1c/BOOLEAN.c:137-142 `BOOLEAN_encode_json`, src/asn1/asn1c/NULL.c:113-117 `NULL_encode_json`, and the leaves above. -/
def valJson (d : Lib) : Val → B
  | .int l => integerJson (some l)
  | .octets l => octetsJson l
  | .utf8 l => utf8Json l
  | .oid l => oidJson d l
  | .bool b => static (.bool b)
  | .null => static .null
  | .utc l => utcJson l
  | .gt l => gtJson l
  | .seq l => objB (fieldsJson d l)
  | .list l => arrB (valsJson d l)
  | .choice v => choiceJson d v
def choiceJson (d : Lib) : Option Val → B
  | none => static .null
  | some v => valJson d v
def fieldsJson (d : Lib) : List (String × Option Val) → List (String × B)
  | [] => []
  | (_, none) :: l => fieldsJson d l
  | (k, some v) :: l => (k, valJson d v) :: fieldsJson d l
def valsJson (d : Lib) : List Val → List B
  | [] => []
  | v :: l => valJson d v :: valsJson d l
end

/-! ### ROAs and manifests -/

/-- src/asn1/asn1c/ROAIPAddressFamily.c:14-31 `prefix2json`; `length` is a `uint8_t`. -/
def prefix2json (txt : List Byte) (len : Nat) : B := objB [("prefix", strNew txt), ("length", intNew (len % 256 : Nat))]

/-- src/asn1/asn1c/ROAIPAddressFamily.c:33-45 `prefix4_to_json`. `prefix4_decode` copies the bytes to the address (after clearing it). -/
def prefix4ToJson (a : RoaAddr) : B := fun e =>
  match prefix4Decode a.address with
  | none => fail e
  | some p => prefix2json (e.ntop4 (a.address.buf ++ List.replicate (4 - a.address.buf.length) 0)) p.len e

/-- src/asn1/asn1c/ROAIPAddressFamily.c:47-59 `prefix6_to_json` -/
def prefix6ToJson (a : RoaAddr) : B := fun e =>
  match prefix6Decode a.address with
  | none => fail e
  | some p => prefix2json (e.ntop6 p.addr) p.len e

/-- The loop of src/asn1/asn1c/ROAIPAddressFamily.c:61-96 `AddrBlock2json`: each prefix is added to the array before its maximum length is added to it. -/
def fillAddrs (pf : RoaAddr → B) (held : Nat) : List J → List RoaAddr → B
  | done, [] => fun _ s => .ret (some (.arr done)) s
  | done, a :: rest => fun e s =>
    match pf a e s with
    | .ub => .ub
    | .ret none s => drop held (.arr done) s
    | .ret (some j) s =>
      if e.alloc s.n then
        match j with
        | .obj ms =>
          match fillObj (held + (J.arr done).nodes) ms [("maxLength", integerJson a.maxLength)] e ⟨s.n + 1, s.live⟩ with
          | .ret (some j) s => fillAddrs pf held (done ++ [j]) rest e s
          | o => o
        | _ => .ub
      else drop held (.arr done) ⟨s.n + 1, s.live - j.nodes⟩

/-- src/asn1/asn1c/ROAIPAddressFamily.c:61-96 `AddrBlock2json` -/
def addrBlock2json (f : RoaFam) (name : List Byte) (pf : RoaAddr → B) : B :=
  objArrB [("addressFamily", strNew name)] "addresses" (fun held => fillAddrs pf held [] f.addresses)

/-- The generic encoder, for `ROAIPAddress`. -/
def roaAddrSeq (a : RoaAddr) : B :=
  objB (("address", octetsJson a.address.buf) :: present (fun l => integerJson (some l)) "maxLength" a.maxLength)

/-- src/asn1/asn1c/ROAIPAddressFamily.c:98-114 `ROAIPAddressFamily_encode_json` -/
def roaFamJson (f : RoaFam) : B :=
  if f.family = [0, 1] then addrBlock2json f (lit "IPv4") prefix4ToJson
  else if f.family = [0, 2] then addrBlock2json f (lit "IPv6") prefix6ToJson
  else objB [("addressFamily", octetsJson f.family), ("addresses", arrB (f.addresses.map roaAddrSeq))]

/-- `RouteOriginAttestation` (src/asn1/asn1c/RouteOriginAttestation.c:99-127 `asn_MBR_RouteOriginAttestation_1`), with the generic encoder. -/
def roaJson (r : Roa) : B :=
  objB (present (fun l => integerJson (some l)) "version" r.version ++ [("asId", integerJson (some r.asId)), ("ipAddrBlocks", arrB (r.blocks.map roaFamJson))])

/-- `FileAndHash` (src/asn1/asn1c/FileAndHash.c:10-29 `asn_MBR_FileAndHash_1`), with the generic encoder. -/
def fileHashJson (f : FileHash) : B := objB [("file", utf8Json f.file), ("hash", octetsJson f.hash.buf)]

/-- `Manifest` (src/asn1/asn1c/Manifest.c:119-174 `asn_MBR_Manifest_1`), with the generic encoder. -/
def mftJson (d : Lib) (m : Manifest) : B :=
  objB (present (fun l => integerJson (some l)) "version" m.version ++
    [("manifestNumber", integerJson (some m.number)), ("thisUpdate", gtJson m.thisUpdate), ("nextUpdate", gtJson m.nextUpdate),
      ("fileHashAlg", oidJson d m.hashAlg), ("fileList", arrB (m.files.map fileHashJson))])

/-! ### CMS -/

/-- src/asn1/asn1c/json_encoder.c:17-31 `ber2json`: NULL if the bytes can't be decoded. -/
def ber2json {α : Type} (dec : Option α) (f : α → B) : B :=
  match dec with
  | none => fail
  | some a => f a

/-- `AlgorithmIdentifier` (src/asn1/asn1c/AlgorithmIdentifier.c:10-29 `asn_MBR_AlgorithmIdentifier_1`), with the generic encoder. -/
def algIdJson (d : Lib) (a : AlgId) : B := objB (("algorithm", oidJson d a.algorithm) :: present octetsJson "parameters" a.parameters)

/-- `Time`, with the generic encoder. -/
def timeJson : TimeVal → B
  | .none => static .null
  | .utc l => utcJson l
  | .gt l => gtJson l

/-- The types of the values, src/asn1/asn1c/CMSAttribute.c:18-65 `CMSAttribute_encode_json`. -/
def attrValueJson (d : Lib) (type : List Byte) (v : List Byte) : B :=
  if d.nid type = d.contentType then ber2json (d.decOid v) (oidJson d)
  else if d.nid type = d.messageDigest then ber2json (d.decDigest v) octetsJson
  else if d.nid type = d.signingTime then ber2json (d.decTime v) timeJson
  else ber2json (d.decAny v) octetsJson

/-- src/asn1/asn1c/CMSAttribute.c:18-65 `CMSAttribute_encode_json` -/
def attrJson (d : Lib) (a : Attr) : B :=
  objArrB [("attrType", oidJson d a.type)] "attrValues" (fun held => fillArr held [] (a.values.map (attrValueJson d a.type)))

/-- `SignerIdentifier`, with the generic encoder. -/
def sidJson (d : Lib) : Sid → B
  | .none => static .null
  | .issuer v => valJson d v
  | .ski l => octetsJson l

/-- `SignerInfo` (src/asn1/asn1c/SignerInfo.c:10-73 `asn_MBR_SignerInfo_1`), with the generic encoder. -/
def signerJson (d : Lib) (s : Signer) : B :=
  objB ([("version", integerJson (some s.version)), ("sid", sidJson d s.sid), ("digestAlgorithm", algIdJson d s.digestAlgorithm)] ++
    present (fun l => arrB (l.map (attrJson d))) "signedAttrs" s.signedAttrs ++
    [("signatureAlgorithm", algIdJson d s.signatureAlgorithm), ("signature", octetsJson s.signature)] ++
    present (fun l => arrB (l.map (attrJson d))) "unsignedAttrs" s.unsignedAttrs)

/-- src/asn1/asn1c/Certificate.c:172-198 `Certificate_any2json` -/
def certAny2json (d : Lib) (l : List Byte) : B :=
  match d.x509 l with
  | none => fail
  | some c => x509ToJson c

/-- src/asn1/asn1c/EncapsulatedContentInfo.c:15-58 `EncapsulatedContentInfo_encode_json`. `eContent` is a null pointer if it's absent. -/
def encapJson (d : Lib) (type : List Byte) (content : Option (List Byte)) : B :=
  objB [("eContentType", oidJson d type),
    ("eContent",
      match content with
      | none => crash
      | some l =>
        if d.nid type = d.mft then ber2json (d.decMft l) (mftJson d)
        else if d.nid type = d.roa then ber2json (d.decRoa l) roaJson
        else if d.nid type = d.gbr then utf8Json l
        else octetsJson l)]

/-- `SignedData` (src/asn1/asn1c/SignedData.c:10-65 `asn_MBR_SignedData_1`), with the generic encoder, and src/asn1/asn1c/CertificateSet.c:13-41 `CertificateSet_encode_json`. -/
def signedJson (d : Lib) (s : Signed) : B :=
  objB ([("version", integerJson (some s.version)), ("digestAlgorithms", arrB (s.digestAlgorithms.map (algIdJson d))),
      ("encapContentInfo", encapJson d s.eContentType s.eContent)] ++
    present (fun l => arrB (l.map (certAny2json d))) "certificates" s.certificates ++
    present (fun l => arrB (valsJson d l)) "crls" s.crls ++
    [("signerInfos", arrB (s.signerInfos.map (signerJson d)))])

/-- src/asn1/asn1c/ContentInfo.c:15-48 `ContentInfo_encode_json` -/
def contentInfoJson (d : Lib) (type content : List Byte) : B :=
  objB [("contentType", oidJson d type),
    ("content", if d.nid type = d.signedData then ber2json (d.decSigned content) (signedJson d) else octetsJson content)]

end Verif.Print
