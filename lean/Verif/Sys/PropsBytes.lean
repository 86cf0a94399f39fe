import Verif.Sys.BytesLemmas
import Verif.Sys.Props
/-
C189: which VRPs a trust anchor yields, in terms of the bytes of its manifests and ROAs.
-/
namespace Verif.Sys
open Verif.Tree Verif.Res
open Verif.Mft (Uri FileRes Tm Manifest)
open Verif.Sd (signedObjectDecode certOf)
open Verif.Cms (oidRoa signedObjectValidate)
variable {σ W X C S E : Type}

theorem keep_eq {α : Type} {f : σ → σ × α} {s s' : Loaded σ} {a : α} (h : keep f s = (s', a)) : f s.rest = (s'.rest, a) ∧ s'.file = s.file := by
  cases h
  exact ⟨rfl, rfl⟩

theorem caOk_bytes {q : Repo σ W X C S E} (hlen : ∀ s u b, q.read s u = .content b → b.length < 2 ^ 30) {issuers : List (Anc (Uri × W) X Vals)} {parent : Option (Point (Uri × W) C)}
    {u : Uri × W} {a : Anc (Uri × W) X Vals} {pp : Point (Uri × W) C} (h : CaOk q.pki issuers parent u a pp) : CaBy q (Manifested q) issuers parent u a pp := by
  obtain ⟨s₀, s₁, s₂, s₃, s₄, s₅, s₆, s₇, s₈, t, sia, d, f, h0, h1, h2, h2', h3, h4, h5, h6, h7, h8, h9, h10, h11, h12, v, h13⟩ := h
  simp only [Repo.pki] at h1 h2 h5 h6 h7 h9 h10 h11
  have k1 := keep_eq h1
  have k5 := keep_eq h5
  have k6 := keep_eq h6
  have k7 := keep_eq h7
  have k10 := keep_eq h10
  obtain ⟨w, e, m1, m2, m3, m4, m5⟩ := manifest_inv hlen h9 k10.2 h11 h12
  refine ⟨s₀.rest, s₁.rest, s₂.rest, s₃.rest, s₄.rest, s₅.rest, s₇.rest, t, sia, d, w, e, h0, k1.1, fun p hp => (keep_eq (h2 p hp)).1, fun hp => by rw [h2' hp], h3, h4, k5.1, k6.1,
    k7.1, h8, m1, ?_, m3, v, ?_⟩
  · rw [← m2]
    exact k10.1
  · rw [← m4, ← m5]
    exact h13

theorem certified_bytes {q : Repo σ W X C S E} (hlen : ∀ s u b, q.read s u = .content b → b.length < 2 ^ 30) {root : Uri × W} {chain : List (Anc (Uri × W) X Vals)}
    {pp : Point (Uri × W) C} (h : Certified q.pki root chain pp) : CertifiedBy q (Manifested q) root chain pp := by
  induction h with
  | root h => exact .root (caOk_bytes hlen h)
  | listed _ hu h ih => exact .listed ih hu (caOk_bytes hlen h)

theorem asserted_bytes {q : Repo σ W X C S E} (hlen : ∀ s u b, q.read s u = .content b → b.length < 2 ^ 30) {chain : List (Anc (Uri × W) X Vals)} {pp : Point (Uri × W) C} {v : Vrp}
    {exts : List Ext} {ee : Vals} (h : Asserted q.pki chain pp v exts ee) : ∃ e, exts = q.eeExts e ∧ AssertedB q chain pp v e ee := by
  obtain ⟨u, s₀, s₁, s₂, f, roa, a, h1, h2, h3, h4, h5, h6, h7, h8, h9⟩ := h
  simp only [Repo.pki, Repo.roaDecode, Repo.readFile, Repo.roaFile, Prod.mk.injEq] at h3 h4
  cases hr : q.read s₀.rest u with
  | missing => rw [hr] at h3; cases h3
  | error => rw [hr] at h3; cases h3
  | content b =>
    rw [hr] at h3
    simp only [Prod.mk.injEq] at h3
    obtain ⟨rfl, h3⟩ := h3
    obtain ⟨-, h4⟩ := h4
    simp only at h4 h3
    cases hd : signedObjectDecode q.nuls b with
    | hang => rw [hd] at h3; cases h3
    | bad => rw [hd] at h3; cases h3
    | error => rw [hd] at h3; cases h3
    | ok p =>
      obtain ⟨enc, sd⟩ := p
      rw [Sd.roaFile_ok _ _ _ hd] at h4
      cases hx : sd.eContent with
      | none => rw [hd] at h3; simp only [hx] at h3; cases h3
      | some x =>
        rw [hx] at h4
        subst h4
        simp only [Bool.true_and, decide_eq_true_eq] at h5 h6 h7 h8
        obtain ⟨si, cert, sid, content, cc, bb, hp, v1, -⟩ := (Cms.C86_accepts _ _ _ _).1 h6
        have hc : certOf (q.lib s₀.rest pp.crl (chain.map Anc.x)) sd = some cc := by
          unfold certOf
          rw [hp.certificate]
          exact v1
        rw [hc] at h7 h8
        simp only at h7 h8
        refine ⟨cc, h7.symm, u, s₀.rest, b, x, roa, a, h1, h2, hr, signed_file (hlen _ _ _ hr) hd h6 hc hx, ?_, ?_, h9⟩
        · cases hg : Obj.decodeRoa (q.nuls Asn.routeOriginAttestationTy x) x with
          | hang => rw [hg] at h5; cases h5
          | bad => rw [hg] at h5; cases h5
          | error => rw [hg] at h5; cases h5
          | ok r =>
            rw [hg] at h5
            cases h5
            obtain ⟨v, k1, k2⟩ := Sd.got_ok hg
            obtain ⟨bs, rest, a1, a2⟩ := Asn.C171_ber _ Asn.Ex.roa_root _ _ _ k1
            exact ⟨v, bs, rest, a1, a2, k2⟩
        · rw [h7]
          exact h8

/-- **C189.** Every VRP that a trust anchor yields is stated by a ROA whose octets are in a signed object, below an unbroken chain of certificates that are accepted, each one a file of the manifest of
the next, up to the trust anchor's; the manifests are decoded from octets in signed objects too. The certificates of the signed objects are accepted, with the CRL of the publication
point, and their keys have signed the types and the hashes of the contents. The VRP's addresses are held by the certificates, from the ROA's to the trust anchor's.
Missing: signed objects whose attributes have an indefinite length, see C182 (their key has signed one octet, and nothing about the content). -/
theorem C189_bytes_partial (q : Repo σ W X C S E) (hlen : ∀ s u b, q.read s u = .content b → b.length < 2 ^ 30) {fuel : Nat} {s : Loaded σ} {root : Uri × W}
    {st : St (Mem (Loaded σ)) (Uri × W) X C Resources} {r : TalRes} (h : validateTa q.pki fuel s root = .done (st, r)) {v : Vrp} (hv : v ∈ st.s.vrps) :
    ∃ chain pp e ee, CertifiedBy q (Manifested q) root chain pp ∧ chain.length ≤ q.maxDepth ∧ AssertedB q chain pp v e ee ∧
      v.WellFormed ∧ Vrp.In ee v ∧ (∀ a ∈ chain, Vrp.In a.r v) ∧ Vrp.HeldBy (q.eeExts e :: chain.map fun a => q.exts a.x) v := by
  obtain ⟨chain, pp, exts, ee, h1, h2, h3, h4, h5, h6, h7⟩ := C165_authorised q.pki h hv
  obtain ⟨e, rfl, h8⟩ := asserted_bytes hlen h3
  exact ⟨chain, pp, e, ee, certified_bytes hlen h1, h2, h8, h4, h5, h6, h7⟩

end Verif.Sys
