import Verif.Print.ModelAsn
import Verif.Print.Spec
import Verif.Mft.SpecTime
/-
What print mode should show of signed objects.
-/
namespace Verif.Print
open Verif.Res (Byte BitStr be)
open Verif.Mft (gt2time)

/-! ### Documents -/

/-- The number some bytes stand for: two's complement, most significant first. -/
def twos : List Byte → Int
  | [] => 0
  | b :: l => (be (b :: l) : Int) - (if b.toNat ≥ 128 then 256 ^ (l.length + 1) else 0)

/-- It's one of C's largest integers. -/
def Whole (l : List Byte) : Prop := -2 ^ 63 ≤ twos l ∧ twos l < 2 ^ 63

/-- `n` decimal digits. -/
def digits : Nat → Nat → List Byte
  | 0, _ => []
  | n + 1, v => digits n (v / 10) ++ [BitVec.ofNat 8 (0x30 + v % 10)]

/-- "YYYY-MM-DD hh:mm:ssZ" -/
def stamp (y m d h mi s : Nat) : List Byte :=
  digits 4 y ++ [0x2D] ++ digits 2 m ++ [0x2D] ++ digits 2 d ++ [0x20] ++ digits 2 h ++ [0x3A] ++ digits 2 mi ++ [0x3A] ++ digits 2 s ++ [0x5A]

def numDoc (l : List Byte) : Option J := some (.int (twos l))
def hexDoc (e : Env) (l : List Byte) : Option J := text e (hexOf 0x61 l)
def nameOfOid (e : Env) (d : Lib) (l : List Byte) : Option J := text e (d.sn (d.nid l))

/-- The time, as it was understood (C149 tells how that is). -/
def gtDoc (e : Env) (s : List Byte) : Option J :=
  match gt2time s with
  | .ok tm => text e (stamp (tm.year + 1900).toNat (tm.mon + 1).toNat tm.mday.toNat tm.hour.toNat tm.min.toNat tm.sec.toNat)
  | _ => none

def utcDoc (e : Env) (s : List Byte) : Option J := (utAsGt s).bind (gtDoc e)

/-- A member that's absent isn't shown. -/
def given {α : Type} (f : α → Option J) (k : String) : Option α → List (String × Option J)
  | none => []
  | some a => [(k, f a)]

mutual
def valDoc (e : Env) (d : Lib) : Val → Option J
  | .int l => numDoc l
  | .octets l => hexDoc e l
  | .utf8 l => text e l
  | .oid l => nameOfOid e d l
  | .bool b => some (.bool b)
  | .null => some .null
  | .utc l => utcDoc e l
  | .gt l => gtDoc e l
  | .seq l => object (fieldsDoc e d l)
  | .list l => array (valsDoc e d l)
  | .choice v => choiceDoc e d v
def choiceDoc (e : Env) (d : Lib) : Option Val → Option J
  | none => some .null
  | some v => valDoc e d v
def fieldsDoc (e : Env) (d : Lib) : List (String × Option Val) → List (String × Option J)
  | [] => []
  | (_, none) :: l => fieldsDoc e d l
  | (k, some v) :: l => (k, valDoc e d v) :: fieldsDoc e d l
def valsDoc (e : Env) (d : Lib) : List Val → List (Option J)
  | [] => []
  | v :: l => valDoc e d v :: valsDoc e d l
end

/-- The bits are a prefix of an address of `w` bits: they fit, and those that aren't used are zeros. -/
def IsPrefix (w : Nat) (s : BitStr) : Prop :=
  8 * s.buf.length ≤ w ∧ 0 ≤ s.unused ∧ s.unused ≤ 7 ∧ s.unused ≤ 8 * s.buf.length ∧
    2 ^ (w - (8 * s.buf.length - s.unused).toNat) ∣ be s.buf * 2 ^ (w - 8 * s.buf.length)

instance (w : Nat) (s : BitStr) : Decidable (IsPrefix w s) := by unfold IsPrefix; infer_instance

/-- A prefix of a ROA: the address filled with zeros, the length, and the maximum length if there's one. -/
def roaAddrDoc (e : Env) (w : Nat) (ntop : List Byte → List Byte) (a : RoaAddr) : Option J :=
  if IsPrefix w a.address then
    object ([("prefix", text e (ntop (a.address.buf ++ List.replicate (w / 8 - a.address.buf.length) 0))),
      ("length", some (.int (8 * a.address.buf.length - a.address.unused)))] ++ given numDoc "maxLength" a.maxLength)
  else none

def roaFamDoc (e : Env) (f : RoaFam) : Option J :=
  if f.family = [0, 1] then object [("addressFamily", text e (lit "IPv4")), ("addresses", array (f.addresses.map (roaAddrDoc e 32 e.ntop4)))]
  else if f.family = [0, 2] then object [("addressFamily", text e (lit "IPv6")), ("addresses", array (f.addresses.map (roaAddrDoc e 128 e.ntop6)))]
  else object [("addressFamily", hexDoc e f.family),
    ("addresses", array (f.addresses.map (fun a => object (("address", hexDoc e a.address.buf) :: given numDoc "maxLength" a.maxLength))))]

def roaDoc (e : Env) (r : Roa) : Option J :=
  object (given numDoc "version" r.version ++ [("asId", numDoc r.asId), ("ipAddrBlocks", array (r.blocks.map (roaFamDoc e)))])

def mftDoc (e : Env) (d : Lib) (m : Manifest) : Option J :=
  object (given numDoc "version" m.version ++ [("manifestNumber", numDoc m.number), ("thisUpdate", gtDoc e m.thisUpdate), ("nextUpdate", gtDoc e m.nextUpdate),
    ("fileHashAlg", nameOfOid e d m.hashAlg), ("fileList", array (m.files.map (fun f => object [("file", text e f.file), ("hash", hexDoc e f.hash.buf)])))])

def algIdDoc (e : Env) (d : Lib) (a : AlgId) : Option J := object (("algorithm", nameOfOid e d a.algorithm) :: given (hexDoc e) "parameters" a.parameters)

def timeValDoc (e : Env) : TimeVal → Option J
  | .none => some .null
  | .utc l => utcDoc e l
  | .gt l => gtDoc e l

def attrValueDoc (e : Env) (d : Lib) (type v : List Byte) : Option J :=
  if d.nid type = d.contentType then (d.decOid v).bind (nameOfOid e d)
  else if d.nid type = d.messageDigest then (d.decDigest v).bind (hexDoc e)
  else if d.nid type = d.signingTime then (d.decTime v).bind (timeValDoc e)
  else (d.decAny v).bind (hexDoc e)

def attrDoc (e : Env) (d : Lib) (a : Attr) : Option J := object [("attrType", nameOfOid e d a.type), ("attrValues", array (a.values.map (attrValueDoc e d a.type)))]

def sidDoc (e : Env) (d : Lib) : Sid → Option J
  | .none => some .null
  | .issuer v => valDoc e d v
  | .ski l => hexDoc e l

def signerDoc (e : Env) (d : Lib) (s : Signer) : Option J :=
  object ([("version", numDoc s.version), ("sid", sidDoc e d s.sid), ("digestAlgorithm", algIdDoc e d s.digestAlgorithm)] ++
    given (fun l => array (l.map (attrDoc e d))) "signedAttrs" s.signedAttrs ++
    [("signatureAlgorithm", algIdDoc e d s.signatureAlgorithm), ("signature", hexDoc e s.signature)] ++
    given (fun l => array (l.map (attrDoc e d))) "unsignedAttrs" s.unsignedAttrs)

/-- The content, by its type. -/
def eContentDoc (e : Env) (d : Lib) (type l : List Byte) : Option J :=
  if d.nid type = d.mft then (d.decMft l).bind (mftDoc e d)
  else if d.nid type = d.roa then (d.decRoa l).bind (roaDoc e)
  else if d.nid type = d.gbr then text e l
  else hexDoc e l

def signedDoc (e : Env) (d : Lib) (s : Signed) : Option J :=
  object ([("version", numDoc s.version), ("digestAlgorithms", array (s.digestAlgorithms.map (algIdDoc e d))),
      ("encapContentInfo", object (("eContentType", nameOfOid e d s.eContentType) :: given (eContentDoc e d s.eContentType) "eContent" s.eContent))] ++
    given (fun l => array (l.map (fun c => (d.x509 c).bind (certDoc e)))) "certificates" s.certificates ++
    given (fun l => array (valsDoc e d l)) "crls" s.crls ++
    [("signerInfos", array (s.signerInfos.map (signerDoc e d)))])

def contentInfoDoc (e : Env) (d : Lib) (type content : List Byte) : Option J :=
  object [("contentType", nameOfOid e d type),
    ("content", if d.nid type = d.signedData then (d.decSigned content).bind (signedDoc e d) else hexDoc e content)]

/-! ### Conditions -/

mutual
/-- All the integers are small. -/
def Val.Small : Val → Prop
  | .int l => Whole l
  | .seq l => fieldsSmall l
  | .list l => valsSmall l
  | .choice v => choiceSmall v
  | _ => True
def choiceSmall : Option Val → Prop
  | none => True
  | some v => v.Small
def fieldsSmall : List (String × Option Val) → Prop
  | [] => True
  | (_, none) :: l => fieldsSmall l
  | (_, some v) :: l => v.Small ∧ fieldsSmall l
def valsSmall : List Val → Prop
  | [] => True
  | v :: l => v.Small ∧ valsSmall l
end

def OptWhole (o : Option (List Byte)) : Prop := ∀ l, o = some l → Whole l

/-- Numbers are small, and all the prefixes (of known families) have a maximum length. -/
def Roa.Fine (r : Roa) : Prop :=
  OptWhole r.version ∧ Whole r.asId ∧
    ∀ f ∈ r.blocks, ∀ a ∈ f.addresses, OptWhole a.maxLength ∧ (f.family = [0, 1] ∨ f.family = [0, 2] → a.maxLength ≠ none)

def Manifest.Fine (m : Manifest) : Prop := OptWhole m.version ∧ Whole m.number

def Signer.Fine (s : Signer) : Prop := Whole s.version ∧ ∀ v, s.sid = .issuer v → v.Small

def Signed.Fine (d : Lib) (s : Signed) : Prop :=
  Whole s.version ∧
    (∃ l, s.eContent = some l ∧ (∀ m, d.decMft l = some m → m.Fine) ∧ (∀ r, d.decRoa l = some r → r.Fine)) ∧
    (∀ l, s.certificates = some l → ∀ c ∈ l, ∀ x, d.x509 c = some x → x.Fine) ∧ (∀ l, s.crls = some l → valsSmall l) ∧ ∀ i ∈ s.signerInfos, i.Fine

end Verif.Print
