import Verif.Sd.PropsEnc
import Verif.Sd.ModelRoa
import Verif.Obj.RoaProps
import Verif.Obj.CertProps
/-
C187: from the file of a ROA to the VRPs.
-/
namespace Verif.Sd
open Verif.Res (Byte Heap Resources VReach Vrp RoaFile Ext Policy)
open Verif.Asn
open Verif.Obj
open Verif.Cms (IsOid oidRoa Names C86_accepts)

/-- As in `Signed`, except that the resources of the certificate are another matter. -/
def SignedBy {C : Type} (y : Crypto C) (b : List Byte) (cert : C) : Prop :=
  ∃ der sid sig, y.decodeCert der = some cert ∧ y.chainOk cert = true ∧ y.profileOk cert = true ∧ y.extensionsOk cert sid = true ∧ y.verify cert b sig = true

theorem roaFile_ok {C : Type} (y : Crypto C) (ee : Ee C) {nuls : Nuls} (crlOk : Bool) {file c : List Byte} {sd : Cms.SignedData} (hd : signedObjectDecode nuls file = .ok (c, sd)) :
    roaFile y ee nuls crlOk file =
      { content := match sd.eContent with
          | none => none
          | some x => (decodeRoa (nuls Asn.routeOriginAttestationTy x) x).toOption
        envelopeOk := crlOk && decide (Cms.signedObjectValidate (({ y with resourcesOk := fun _ => true } : Crypto C).env nuls) oidRoa c sd = .ok)
        policy := match certOf y sd with | some c => ee.policy c | none => .rfc6484
        exts := match certOf y sd with | some c => ee.exts c | none => []
        refsOk := match certOf y sd with | some c => ee.refs c | none => false } := by
  unfold roaFile
  rw [hd]
  rfl

theorem roaTraverse_needs {h : Heap} {top : Resources} {f : RoaFile} (he : (Res.roaTraverse h top f).2.2 = .ok) : f.envelopeOk = true ∧ f.refsOk = true := by
  unfold Res.roaTraverse at he
  cases hc : f.content with
  | none => rw [hc] at he; cases he
  | some x =>
    rw [hc] at he
    simp only at he
    cases ho : f.envelopeOk with
    | false => rw [ho] at he; cases he
    | true =>
      rw [ho] at he
      simp only [Bool.not_true, Bool.false_eq_true, if_false] at he
      rcases hg : Res.certificateGetResources h (Resources.create f.policy false) (some top) f.exts .ee with ⟨h1, r1, o1⟩
      rw [hg] at he
      cases o1 with
      | ok =>
        simp only at he
        rcases hh : Res.handleRoa h1 r1 x with ⟨vs, b⟩
        rw [hh] at he
        cases b with
        | false => cases he
        | true =>
          simp only at he
          cases hf : f.refsOk with
          | true => exact ⟨rfl, rfl⟩
          | false => rw [hf] at he; cases he
      | err => cases he
      | crit => cases he

/-- **C187.** VRPs that routers are told are in a ROA, as the octets say; and they are the hashed content that the key of an accepted certificate signed, as a ROA. (Except
for signed attributes of indefinite length, see C182.) -/
theorem C187_authentic_partial {C : Type} (y : Crypto C) (ee : Ee C) (nuls : Nuls) (crlOk : Bool) (file : List Byte) (hlen : file.length < 2 ^ 30) (h h' : Heap) (top : Resources)
    (st : List Resources) (hr : VReach (h, top :: st)) (vs : List Vrp) (he : Res.roaTraverse h top (roaFile y ee nuls crlOk file) = (h', vs, .ok)) :
    ∃ b type cert x v bs rest roa, crlOk = true ∧ SignedBy y b cert ∧ ee.refs cert = true ∧ Names type oidRoa ∧ (Says b type (y.sha256 x) ∨ b = [0x31]) ∧
      x = bs ++ rest ∧ Ber routeOriginAttestationTy .own v bs ∧ roaOf v = some roa ∧
      (0 ≤ Res.intVal roa.asId → (∀ x ∈ roa.addrs, ∀ m, x.2.maxLength = some m → 0 ≤ Res.intVal m) →
        List.Forall₂ (fun (x : Byte × Res.RoaAddr) v => Res.Denotes roa.asId x.1 x.2 v) roa.addrs vs) := by
  cases hd : signedObjectDecode nuls file with
  | hang => unfold roaFile at he; rw [hd] at he; simp [Res.roaTraverse] at he
  | bad => unfold roaFile at he; rw [hd] at he; simp [Res.roaTraverse] at he
  | error => unfold roaFile at he; rw [hd] at he; simp [Res.roaTraverse] at he
  | ok p =>
    obtain ⟨c, sd⟩ := p
    have e := roaFile_ok y ee crlOk hd
    cases hx : sd.eContent with
    | none =>
      rw [hx] at e
      rw [e] at he
      simp [Res.roaTraverse] at he
    | some x =>
      rw [hx] at e
      simp only at e
      obtain ⟨v, bs, rest, roa, a1, a2, a3, a4⟩ := C177_ber_partial h h' top st hr (nuls routeOriginAttestationTy x) x (roaFile y ee nuls crlOk file) (by rw [e]) vs he
      have henv : (roaFile y ee nuls crlOk file).envelopeOk = true ∧ (roaFile y ee nuls crlOk file).refsOk = true := by
        exact roaTraverse_needs (by rw [he])
      rw [e] at henv
      simp only [Bool.and_eq_true, decide_eq_true_eq] at henv
      obtain ⟨⟨hcrl, hval⟩, hrefs⟩ := henv
      have hok : signedObject { y with resourcesOk := fun _ => true } nuls oidRoa file = .ok x := by
        unfold signedObject
        rw [hd]
        simp only
        rw [hval]
        simp only
        rw [hx]
      obtain ⟨si, cert, sid, content, cc, b, hp, v1, v2, v3, v4, v5, v6, v7⟩ := (C86_accepts _ _ _ _).1 hval
      have hcert : certOf y sd = some cc := by
        unfold certOf
        rw [hp.certificate]
        exact v1
      rw [hcert] at hrefs
      simp only at hrefs
      obtain ⟨type, n1, n2⟩ : ∃ type, Names type oidRoa ∧ (Says b type (y.sha256 x) ∨ b = [0x31]) := ⟨_, hp.type, says_of (y := { y with resourcesOk := fun _ => true }) hlen hd hp v6 hx⟩
      exact ⟨b, type, cc, x, v, bs, rest, roa, hcrl, ⟨cert, sid, si.signature, v1, v2, v3, v4, v7⟩, hrefs, n1, n2, a1, a2, a3, a4⟩

/-- **C187.** From the file to the VRPs. The issuer wrote a ROA, put it into a signed object with a certificate, and signed it. The file is accepted if and only if the CRL of
the publication point could be loaded, the digest is the content's, the certificate is accepted (chain, profile, extensions), its key signed the attributes, it points to the files that
it should, the issuer of the certificate has the resources that it lists, and they include the prefixes of the ROA. Then the VRPs are the ones that the
issuer wrote. -/
theorem C187_roa {C : Type} (y : Crypto C) (ee : Ee C) (nuls : Nuls) (crlOk : Bool) (h : Heap) (top : Resources) (st : List Resources) (hr : VReach (h, top :: st))
    (r : RoaSpec) (hv : r.Valid) (more : List Byte) (o : Object) (hcontent : o.content = r.enc ++ more) (ho : IsOid o.type oidRoa) (hcert : DEls .one o.cert)
    (as : List (List Byte × List Byte)) (hp : as.Perm o.attrList) (hl : (o.file as).length < 2 ^ 30) (rest : List Byte)
    (cert : C) (hdec : y.decodeCert o.cert = some cert) (cr : CertRes) (hcr : cr.Valid) (hs : cr.Small) (hpol : ee.policy cert = .rfc6484)
    (hext : ((ee.exts cert).filter (· ≠ .other)).Perm cr.exts) :
    let good := crlOk = true ∧ o.digest = y.sha256 o.content ∧ y.chainOk cert = true ∧ y.profileOk cert = true ∧ y.extensionsOk cert o.keyId = true ∧
      y.verify cert (toBeSigned as) o.signature = true ∧ ee.refs cert = true ∧ cr.Within h top ∧
      ∀ v ∈ r.vrps, ∀ n, v.addr ≤ n → n ≤ v.addr + (2 ^ (width v.v6 - v.len) - 1) → cr.addrs v.v6 (if v.v6 then h.ip6s top else h.ip4s top) n
    (good → ∃ h' vs, Res.roaTraverse h top (roaFile y ee nuls crlOk (o.file as ++ rest)) = (h', vs, .ok) ∧ vs.map plain = r.vrps) ∧
    (¬ good → (Res.roaTraverse h top (roaFile y ee nuls crlOk (o.file as ++ rest))).2.2 ≠ .ok) := by
  intro good
  have hf : Obj.Fits (o.file as) := Nat.lt_trans hl (by decide)
  have hd := file_decoded (nuls := nuls) hf hcert (attrs_good hf hp) rest
  have e := roaFile_ok y ee crlOk hd
  have key := validate_enc { y with resourcesOk := fun _ => true } nuls oidRoa o as hp ho (by decide) hl
  have hco : certOf y (sdC o as) = some cert := hdec
  have hfc : Obj.Fits (r.enc ++ more) := by
    have h1 : Obj.Fits (o.signedData as) := Fits.tl (Obj.Fits.right (Fits.tl hf))
    have h2 := Obj.Fits.left (Obj.Fits.right (Obj.Fits.right (Fits.tl h1)))
    have h3 := Fits.tl (Fits.tl (Obj.Fits.right (Fits.tl h2)))
    rwa [hcontent] at h3
  have hrl : r.enc.length < 2 ^ 62 := Obj.Fits.left hfc
  have happ : Approved { y with resourcesOk := fun _ => true } o (toBeSigned as) ↔ y.chainOk cert = true ∧ y.profileOk cert = true ∧ y.extensionsOk cert o.keyId = true ∧
      y.verify cert (toBeSigned as) o.signature = true := by
    constructor
    · rintro ⟨c, a1, a2, a3, a4, a5, a6⟩
      have : c = cert := Option.some.inj (a1.symm.trans hdec)
      subst this
      exact ⟨a2, a3, a4, a6⟩
    · rintro ⟨a2, a3, a4, a6⟩
      exact ⟨cert, hdec, a2, a3, a4, rfl, a6⟩
  generalize hfile : roaFile y ee nuls crlOk (o.file as ++ rest) = f at *
  have f1 : f.content = (decodeRoa (nuls routeOriginAttestationTy (r.enc ++ more)) (r.enc ++ more)).toOption := by rw [e, ← hcontent]; rfl
  have f2 : f.policy = .rfc6484 := by rw [e]; simp only; rw [hco]; exact hpol
  have f3 : f.exts = ee.exts cert := by rw [e]; simp only; rw [hco]
  have f4 : f.refsOk = ee.refs cert := by rw [e]; simp only; rw [hco]
  have f5 : f.envelopeOk = true ↔ crlOk = true ∧ o.digest = y.sha256 o.content ∧ y.chainOk cert = true ∧ y.profileOk cert = true ∧ y.extensionsOk cert o.keyId = true ∧
      y.verify cert (toBeSigned as) o.signature = true := by
    rw [e]
    simp only [Bool.and_eq_true, decide_eq_true_eq]
    rw [key, happ]
  by_cases hen : f.envelopeOk = true
  · by_cases href : f.refsOk = true
    · obtain ⟨c1, c2⟩ := C179_roa h top st hr cr hcr hs r hv hrl _ more f f1 f2 (by rw [f3]; exact hext) hen href
      obtain ⟨g1, g2, g3, g4, g5, g6⟩ := f5.1 hen
      exact ⟨fun hg => c1 ⟨hg.2.2.2.2.2.2.2.1, hg.2.2.2.2.2.2.2.2⟩, fun hg => c2 fun hc => hg ⟨g1, g2, g3, g4, g5, g6, f4 ▸ href, hc.1, hc.2⟩⟩
    · exact ⟨fun hg => absurd (f4.trans hg.2.2.2.2.2.2.1) href, fun _ hk => href (roaTraverse_needs hk).2⟩
  · exact ⟨fun hg => absurd (f5.2 ⟨hg.1, hg.2.1, hg.2.2.1, hg.2.2.2.1, hg.2.2.2.2.1, hg.2.2.2.2.2.1⟩) hen, fun _ hk => hen (roaTraverse_needs hk).1⟩

namespace Ex

/-- AS 5 may announce 10.1.0.0/16, up to /24. -/
def roa : RoaSpec := ⟨5, [⟨false, [⟨0x0A010000, 16, some 24⟩]⟩]⟩

theorem roa_valid : roa.Valid := by
  refine ⟨by decide, by decide, ?_⟩
  intro f hf
  simp only [roa, List.mem_singleton] at hf
  subst hf
  refine ⟨by decide, ?_⟩
  intro p hp
  simp only [List.mem_singleton] at hp
  subst hp
  exact ⟨by decide, by decide, by decide, by simp [width]⟩

def roaObj : Object := ⟨roaType, roa.enc ++ [], derSeq (derOctets [0xCE]), [0xAA, 0xBB], crypto.sha256 roa.enc, [], [0]⟩

/-- All signatures are good. -/
def anySig : Crypto Byte := { crypto with verify := fun _ _ _ => true }

def eeCert : Ee Byte := ⟨fun _ => .rfc6484, fun _ => Obj.Ex.ta.exts, fun _ => true⟩

end Ex

/-- A trust anchor with 10.0.0.0/8, a ROA with a certificate of the same resources: the VRP. -/
example : ∃ h top h' vs, VReach (h, [top]) ∧ Res.roaTraverse h top (roaFile Ex.anySig Ex.eeCert Ex.nuls true (Ex.roaObj.file Ex.roaObj.attrList ++ [])) = (h', vs, .ok) ∧
    vs.map plain = [⟨5, false, 0x0A010000, 16, 24⟩] := by
  have hfil : (Obj.Ex.ta.exts.filter (· ≠ .other)).Perm Obj.Ex.ta.exts := by
    rw [List.filter_eq_self.2]
    intro x hx
    simp only [Obj.Ex.ta, CertRes.exts] at hx
    simp at hx
    rcases hx with rfl | rfl <;> simp
  obtain ⟨h, r, e, n4, n6, na⟩ := C180_trustAnchor ⟨[], [], []⟩ .init Obj.Ex.ta Obj.Ex.ta_valid Obj.Ex.ta_small (by simp [Obj.Ex.ta]) (by decide) Obj.Ex.ta.exts hfil
  have hreach : VReach (h, [r]) := .step .init (.push e)
  have hmem : ∀ n, 0x0A000000 ≤ n → n ≤ 0x0AFFFFFF → ∀ i, Obj.Ex.ta.addrs false i n := by
    intro n h1 h2 i
    refine ⟨_, List.mem_singleton.2 rfl, rfl, ⟨_, List.mem_singleton.2 rfl, ?_⟩⟩
    constructor <;> simp [IpRes.rng, width] <;> omega
  have hget : ∀ n i, Obj.Ex.ta.addrs false i n → 0x0A000000 ≤ n ∧ n ≤ 0x0AFFFFFF := by
    rintro n i ⟨f, hf, h6, hn⟩
    simp only [Obj.Ex.ta, List.mem_singleton] at hf
    subst hf
    obtain ⟨x, hx, hn⟩ := hn
    simp only [List.map_cons, List.map_nil, List.mem_singleton] at hx
    subst hx
    obtain ⟨u, v⟩ := hn
    simp [IpRes.rng, width] at u v
    omega
  obtain ⟨c1, -⟩ := C187_roa Ex.anySig Ex.eeCert Ex.nuls true h r [] hreach Ex.roa Ex.roa_valid [] Ex.roaObj rfl Cms.Ex.roa_is (Ex.obj_cert 0) Ex.roaObj.attrList (.refl _)
    (by decide +kernel) [] 0xCE (by decide +kernel) Obj.Ex.ta Obj.Ex.ta_valid Obj.Ex.ta_small rfl hfil
  obtain ⟨h', vs, a, b⟩ := c1 (by
    refine ⟨rfl, by decide +kernel, by decide, rfl, by decide, rfl, rfl, ⟨fun n hn => ?_, fun n hn => ?_, fun n hn => ?_⟩, ?_⟩
    · rw [n4]; exact hmem n (hget n _ hn).1 (hget n _ hn).2 _
    · obtain ⟨f, hf, h6, -⟩ := hn
      simp only [Obj.Ex.ta, List.mem_singleton] at hf
      subst hf
      cases h6
    · rw [na]; exact hn
    · intro v hv n h1 h2
      simp only [RoaSpec.vrps, Ex.roa, List.flatMap_cons, List.map_cons, List.map_nil, List.flatMap_nil, List.append_nil, List.mem_singleton] at hv
      subst hv
      simp [width] at h1 h2
      exact hmem n (by omega) (by omega) _)
  exact ⟨h, r, h', vs, hreach, a, b⟩

end Verif.Sd
