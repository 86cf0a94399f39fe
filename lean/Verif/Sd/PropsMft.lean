import Verif.Sd.PropsRoa
import Verif.Sd.ModelMft
import Verif.Obj.ManifestProps
/-
C188: from the file of a manifest to the publication point.
-/
namespace Verif.Sd
open Verif.Res (Byte)
open Verif.Asn
open Verif.Obj
open Verif.Cms (IsOid oidManifest Names C86_accepts)
open Verif.Mft (EeRefs Env Tm Rpp Uri HasExt extCrl extCer extRoa extGbr)

/-- **C188.** From the file to the publication point. The issuer wrote a manifest, put it into a signed object with a certificate, and signed it. Unless the configuration
tolerates missing, different or old files, the file is accepted if and only if all files that the issuer listed are in the cache with the listed hashes, exactly one of them is
a CRL and it is good, the digest is the content's, the certificate is accepted (according to that CRL), its key signed the attributes, it names the CRL and the manifest,
and it is neither too soon nor too late. The certificates, ROAs and Ghostbusters records that the program goes on with are those that were listed. -/
theorem C188_manifest {C : Type} (y : Uri → Crypto C) (refs : C → EeRefs) (nuls : Nuls) (m : MftSpec) (hf : m.files ≠ []) (hc : m.files.length < 2 ^ 31) (hnum : m.number < 2 ^ 159)
    (t0 t1 n : Int) (h0 : Mft.Denotes m.thisUpdate t0) (h1 : Mft.Denotes m.nextUpdate t1) (now : Tm) (hn : Mft.IsAt now n)
    (env : Env) (s1 : env.notFound = .error) (s2 : env.mismatch = .error) (s3 : env.stale = .error) (rnd : Nat → Nat) (crlOk : Uri → Bool) (uri : Uri)
    (more : List Byte) (o : Object) (hcontent : o.content = m.enc ++ more) (ho : IsOid o.type oidManifest) (hcert : DEls .one o.cert)
    (as : List (List Byte × List Byte)) (hp : as.Perm o.attrList) (hl : (o.file as).length < 2 ^ 30) (rest : List Byte) (us : List Uri) :
    let handle := handleMftFile y refs nuls env rnd (some now) crlOk uri (o.file as ++ rest)
    ((∃ pp, handle = .ok pp) ↔ ∃ us crl cert, List.Forall₂ (FileSpec.There env) m.files us ∧ us.filter (HasExt extCrl ·) = [crl] ∧ crlOk crl = true ∧
      o.digest = (y crl).sha256 o.content ∧ (y crl).decodeCert o.cert = some cert ∧ (y crl).chainOk cert = true ∧ (y crl).profileOk cert = true ∧
      (y crl).extensionsOk cert o.keyId = true ∧ (y crl).resourcesOk cert = true ∧ (y crl).verify cert (toBeSigned as) o.signature = true ∧
      (refs cert).crldp = some crl ∧ (refs cert).signedObject = some uri ∧ t0 ≤ n ∧ n ≤ t1) ∧
    (∀ pp, handle = .ok pp → List.Forall₂ (FileSpec.There env) m.files us →
      pp.certs.Perm (us.filter (HasExt extCer ·)) ∧ pp.roas.Perm (us.filter (HasExt extRoa ·)) ∧ pp.gbrs.Perm (us.filter (HasExt extGbr ·)) ∧
      ∃ crl, pp.crl = some crl ∧ us.filter (HasExt extCrl ·) = [crl]) := by
  intro handle
  have hff : Obj.Fits (o.file as) := Nat.lt_trans hl (by decide)
  have hd := file_decoded (nuls := nuls) hff hcert (attrs_good hff hp) rest
  have hfc : Obj.Fits (m.enc ++ more) := by
    have h1 : Obj.Fits (o.signedData as) := Fits.tl (Obj.Fits.right (Fits.tl hff))
    have h2 := Obj.Fits.left (Obj.Fits.right (Obj.Fits.right (Fits.tl h1)))
    have h3 := Fits.tl (Fits.tl (Obj.Fits.right (Fits.tl h2)))
    rwa [hcontent] at h3
  have hco : mftContent nuls (o.file as ++ rest) = (decodeMft (nuls manifestTy (m.enc ++ more)) (m.enc ++ more)).toOption := by
    unfold mftContent
    rw [hd]
    simp only [sdC]
    rw [hcontent]
  have hsg : ∀ crl r, mftSigned y refs nuls (o.file as ++ rest) crl = some r ↔ ∃ cert, o.digest = (y crl).sha256 o.content ∧ (y crl).decodeCert o.cert = some cert ∧
      (y crl).chainOk cert = true ∧ (y crl).profileOk cert = true ∧ (y crl).extensionsOk cert o.keyId = true ∧ (y crl).resourcesOk cert = true ∧
      (y crl).verify cert (toBeSigned as) o.signature = true ∧ r = refs cert := by
    intro crl r
    have key := validate_enc (y crl) nuls oidManifest o as hp ho (by decide) hl
    have e : certOf (y crl) (sdC o as) = (y crl).decodeCert o.cert := rfl
    unfold mftSigned
    rw [hd]
    simp only
    constructor
    · intro h
      cases hv : Cms.signedObjectValidate ((y crl).env nuls) oidManifest (o.signedData as) (sdC o as) with
      | ok =>
        rw [hv] at h
        simp only at h
        obtain ⟨k1, c, k2, k3, k4, k5, k6, k7⟩ := key.1 hv
        rw [e, k2] at h
        simp only [Option.map_some, Option.some.injEq] at h
        exact ⟨c, k1, k2, k3, k4, k5, k6, k7, h.symm⟩
      | err => rw [hv] at h; cases h
      | crash => rw [hv] at h; cases h
    · rintro ⟨c, k1, k2, k3, k4, k5, k6, k7, rfl⟩
      rw [key.2 ⟨k1, c, k2, k3, k4, k5, k6, k7⟩]
      simp only
      rw [e, k2]
      rfl
  have main := C181_manifest m hf hc hnum (Obj.Fits.left hfc) t0 t1 n h0 h1 now hn env s1 s2 s3 rnd crlOk (mftSigned y refs nuls (o.file as ++ rest)) uri
    (nuls manifestTy (m.enc ++ more)) more us
  simp only at main
  rw [← hco] at main
  refine ⟨?_, main.2⟩
  refine main.1.trans ⟨?_, ?_⟩
  · rintro ⟨us, crl, r, a1, a2, a3, a4, a5, a6, a7, a8⟩
    obtain ⟨c, k1, k2, k3, k4, k5, k6, k7, rfl⟩ := (hsg crl r).1 a4
    exact ⟨us, crl, c, a1, a2, a3, k1, k2, k3, k4, k5, k6, k7, a5, a6, a7, a8⟩
  · rintro ⟨us, crl, c, a1, a2, a3, k1, k2, k3, k4, k5, k6, k7, a5, a6, a7, a8⟩
    exact ⟨us, crl, refs c, a1, a2, a3, (hsg crl _).2 ⟨c, k1, k2, k3, k4, k5, k6, k7, rfl⟩, a5, a6, a7, a8⟩

/-- **C188.** Whatever the file is: if it is accepted, then it holds a manifest that lists the files of the publication point, and the key of an accepted certificate signed its
digest, as a manifest's. (Except for signed attributes of indefinite length, see C182.) -/
theorem C188_authentic_partial {C : Type} (y : Uri → Crypto C) (refs : C → EeRefs) (nuls : Nuls) (env : Env) (rnd : Nat → Nat) (now : Tm) (crlOk : Uri → Bool) (uri : Uri)
    (file : List Byte) (hlen : file.length < 2 ^ 30) (pp : Rpp) (h : handleMftFile y refs nuls env rnd (some now) crlOk uri file = .ok pp) :
    ∃ crl b type cert x v bs rest mft, Signed (y crl) b ∧ SignedBy (y crl) b cert ∧ Names type oidManifest ∧ (Says b type ((y crl).sha256 x) ∨ b = [0x31]) ∧ pp.crl = some crl ∧ crlOk crl = true ∧
      (refs cert).crldp = some crl ∧ (refs cert).signedObject = some uri ∧ x = bs ++ rest ∧ Ber manifestTy .own v bs ∧ mftOf v = some mft ∧
      Mft.buildRpp env rnd mft.files = .ok pp ∧ Mft.Sound env.stale now mft := by
  obtain ⟨m, crl, r, e, k1, k2, k3, k4, k5, k6, k7⟩ := (Mft.C89_used env rnd now crlOk _ uri _ pp).1 h
  unfold mftContent at e
  unfold mftSigned at k4
  cases hd : signedObjectDecode nuls file with
  | hang => rw [hd] at e; cases e
  | bad => rw [hd] at e; cases e
  | error => rw [hd] at e; cases e
  | ok p =>
    obtain ⟨c, sd⟩ := p
    rw [hd] at e k4
    simp only at e k4
    cases hx : sd.eContent with
    | none => rw [hx] at e; cases e
    | some x =>
      rw [hx] at e
      simp only at e
      cases hv : Cms.signedObjectValidate ((y crl).env nuls) oidManifest c sd with
      | err => rw [hv] at k4; cases k4
      | crash => rw [hv] at k4; cases k4
      | ok =>
        rw [hv] at k4
        simp only at k4
        obtain ⟨si, cert, sid, content, cc, b, hp, v1, v2, v3, v4, v5, v6, v7⟩ := (C86_accepts _ _ _ _).1 hv
        have hcert : certOf (y crl) sd = some cc := by
          unfold certOf
          rw [hp.certificate]
          exact v1
        rw [hcert] at k4
        simp only [Option.map_some, Option.some.injEq] at k4
        subst k4
        obtain ⟨type, n1, n2⟩ : ∃ type, Names type oidManifest ∧ (Says b type ((y crl).sha256 x) ∨ b = [0x31]) := ⟨_, hp.type, says_of hlen hd hp v6 hx⟩
        unfold decodeMft at e
        cases hy : asn1Decode (nuls manifestTy x) manifestTy manifestCon x with
        | error => rw [hy] at e; cases e
        | hang => rw [hy] at e; cases e
        | crash => rw [hy] at e; cases e
        | abort => rw [hy] at e; cases e
        | ok v =>
          rw [hy] at e
          simp only [got] at e
          cases hm : mftOf v with
          | none => rw [hm] at e; cases e
          | some m' =>
            rw [hm] at e
            simp only [Got.toOption, Option.some.injEq] at e
            subst e
            obtain ⟨bs, rest, a1, a2⟩ := C171_ber _ mft_root _ _ _ hy
            exact ⟨crl, b, type, cc, x, v, bs, rest, m', ⟨cert, cc, sid, si.signature, v1, v2, v3, v4, v5, v7⟩, ⟨cert, sid, si.signature, v1, v2, v3, v4, v7⟩, n1, n2, k2, k3, k6, k7, a1, a2, hm, k1, k5⟩

namespace Ex

def mftType : List Byte := [0x2a, 0x86, 0x48, 0x86, 0xf7, 0x0d, 0x01, 0x09, 0x10, 0x01, 0x1a]

theorem mft_is : IsOid mftType oidManifest := ⟨1, 2, _, rfl, Cms.Ex.subs_tail [26] 26 (Cms.Ex.sub1 26 [] [] (by decide) .nil), by decide, by decide⟩

def mftObj : Object := ⟨mftType, Obj.Ex.mft.enc ++ [], derSeq (derOctets [0xCE]), [0xAA, 0xBB], crypto.sha256 (Obj.Ex.mft.enc ++ []), [], [0]⟩

end Ex

/-- Three files in the cache, as in the example of C181, in a file with a signature: accepted, and the certificate is found. -/
example : ∃ pp, handleMftFile (fun _ => Ex.anySig) (fun _ => ⟨some ([1] ++ extCrl), some [9]⟩) Ex.nuls Mft.Ex.env (fun _ => 5) (some ⟨124, 2, 10, 0, 0, 0⟩) (fun _ => true) [9]
    (Ex.mftObj.file Ex.mftObj.attrList ++ []) = .ok pp ∧ pp.certs.Perm [[3] ++ extCer] := by
  have hus : List.Forall₂ (FileSpec.There Mft.Ex.env) Obj.Ex.mft.files [[1] ++ extCrl, [2] ++ extRoa, [3] ++ extCer] :=
    .cons ⟨rfl, [1], rfl, rfl⟩ (.cons ⟨rfl, [2], rfl, rfl⟩ (.cons ⟨rfl, [3], rfl, rfl⟩ .nil))
  have h := C188_manifest (fun _ => Ex.anySig) (fun _ => ⟨some ([1] ++ extCrl), some [9]⟩) Ex.nuls Obj.Ex.mft (by decide) (by decide) (by decide) _ _ (Mft.instant 2024 3 10 0 0 0)
    Obj.Ex.mft_dates.1 Obj.Ex.mft_dates.2 ⟨124, 2, 10, 0, 0, 0⟩ ⟨by decide, rfl⟩ Mft.Ex.env rfl rfl rfl (fun _ => 5) (fun _ => true) [9] [] Ex.mftObj rfl Ex.mft_is
    (Ex.obj_cert 0) Ex.mftObj.attrList (.refl _) (by decide +kernel) [] [[1] ++ extCrl, [2] ++ extRoa, [3] ++ extCer]
  obtain ⟨pp, hpp⟩ := h.1.2 ⟨_, [1] ++ extCrl, 0xCE, hus, by decide, rfl, rfl, by decide +kernel, by decide, rfl, by decide, rfl, rfl, rfl, rfl, by decide, by decide⟩
  exact ⟨pp, hpp, (h.2 pp hpp hus).1⟩

end Verif.Sd
