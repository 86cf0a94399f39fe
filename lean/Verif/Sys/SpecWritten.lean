import Verif.Sys.SpecBytes
import Verif.Obj.ManifestProps
/-
A repository in which issuers wrote manifests and ROAs, as the RFCs prescribe.
-/
namespace Verif.Sys
open Verif.Tree Verif.Res
open Verif.Mft (Uri HasExt extCer extRoa extGbr extCrl)
open Verif.Sd (Object toBeSigned)
open Verif.Cms (IsOid oidManifest oidRoa)
open Verif.Asn (DEls)
open Verif.Obj (RoaSpec MftSpec FileSpec VrpSpec width)
variable {σ W X C S E : Type}

/-- An issuer put this content into a signed object (with the attributes in some order, and possibly more octets behind it), and signed it with the key of the certificate `e`, which is
accepted, with this CRL and below these certificates. -/
def WrittenObject (q : Repo σ W X C S E) (s : σ) (c : C) (xs : List X) (oid : List Nat) (file content : List Byte) (e : E) : Prop :=
  ∃ (o : Object) (as : List (List Byte × List Byte)) (rest : List Byte), file = o.file as ++ rest ∧ o.content = content ∧ as.Perm o.attrList ∧ IsOid o.type oid ∧ DEls .one o.cert ∧
    o.digest = q.sha256 content ∧ (q.crypto s c xs).decodeCert o.cert = some e ∧ (q.crypto s c xs).chainOk e = true ∧ (q.crypto s c xs).profileOk e = true ∧
    (q.crypto s c xs).extensionsOk e o.keyId = true ∧ (q.crypto s c xs).verify e (toBeSigned as) o.signature = true

/-- The file is a manifest that an issuer wrote. The files that it lists are there, with the hashes that it lists; one of them is a CRL. It is valid now, and its certificate names it and
the CRL. -/
def WrittenMft (q : Repo σ W X C S E) (s s' : σ) (u : Uri × W) (lists : Lists (Uri × W)) (c : C) (xs : List X) (e : E) : Prop :=
  ∃ (m : MftSpec) (file more : List Byte) (us : List Uri) (crl : Uri) (t0 t1 n : Int), q.read s u = .content file ∧ WrittenObject q s' c xs oidManifest file (m.enc ++ more) e ∧
    m.files ≠ [] ∧ m.number < 2 ^ 159 ∧ Mft.Denotes m.thisUpdate t0 ∧ Mft.Denotes m.nextUpdate t1 ∧ Mft.IsAt (q.now s') n ∧ t0 ≤ n ∧ n ≤ t1 ∧
    List.Forall₂ (FileSpec.There (q.siblings s u)) m.files us ∧ us.filter (HasExt extCrl ·) = [crl] ∧
    lists = ⟨(us.filter (HasExt extCer ·)).map (·, u.2), (crl, u.2), (us.filter (HasExt extRoa ·)).map (·, u.2), (us.filter (HasExt extGbr ·)).map (·, u.2)⟩ ∧
    (q.eeRefs e).crldp = some crl ∧ (q.eeRefs e).signedObject = some u.1

/-- The addresses of the VRP are among these. -/
def VrpIn (v : VrpSpec) (r : Vals) : Prop :=
  ∀ n, v.addr ≤ n → n ≤ v.addr + (2 ^ (width v.v6 - v.len) - 1) → Covered (if v.v6 then r.ip6 else r.ip4) n

/-- The publication point of the first certificate lists a ROA that an issuer wrote, whose certificate has the prefixes of the ROA. -/
def WrittenRoa (q : Repo σ W X C S E) (chain : List (Anc (Uri × W) X Vals)) (pp : Point (Uri × W) C) (r : RoaSpec) : Prop :=
  ∃ u s file more e ee a, u ∈ pp.lists.roas ∧ chain.head? = some a ∧ q.read s u = .content file ∧
    WrittenObject q s pp.crl (chain.map Anc.x) oidRoa file (r.enc ++ more) e ∧ r.Valid ∧
    GrantsAll (some a.r) (q.eePolicy e) false true (q.eeExts e) ee ∧ ∀ v ∈ r.vrps, VrpIn v ee

end Verif.Sys
