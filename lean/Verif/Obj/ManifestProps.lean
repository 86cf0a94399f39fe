import Verif.Obj.ManifestLemmas
import Mathlib.Data.List.Perm.Basic
/-
C181: a manifest vouches for the files that its issuer listed.
-/
namespace Verif.Obj
open Verif.Res (Byte)
open Verif.Asn (Nul)
open Verif.Mft (Env Uri HasExt extCer extRoa extGbr extCrl)

/-- The listed file is in the cache, and its SHA-256 is the one that is listed. -/
def FileSpec.There (env : Env) (f : FileSpec) (u : Uri) : Prop :=
  env.mkUri f.name = some u ∧ ∃ b, env.read u = .content b ∧ f.hash = env.sha256 b

/-- From the bytes of the manifest to the publication point. Unless the configuration tolerates missing, different or old files, the manifest
(with at most 20 octets of number) is accepted if and only if all the files that the issuer listed are in the cache with the listed hashes,
exactly one of them is a CRL, the CRL is good, the manifest is properly signed according to that CRL, the certificate names the CRL and
the manifest, and it is neither too soon nor too late. The certificates, ROAs and Ghostbusters records that the program goes on with are
those that were listed. -/
theorem C181_manifest (m : MftSpec) (hf : m.files ≠ []) (hc : m.files.length < 2 ^ 31) (hnum : m.number < 2 ^ 159) (hl : m.enc.length < 2 ^ 62)
    (t0 t1 n : Int) (h0 : Mft.Denotes m.thisUpdate t0) (h1 : Mft.Denotes m.nextUpdate t1) (now : Mft.Tm) (hn : Mft.IsAt now n)
    (env : Env) (s1 : env.notFound = .error) (s2 : env.mismatch = .error) (s3 : env.stale = .error)
    (rnd : Nat → Nat) (crlOk : Uri → Bool) (signed : Uri → Option Mft.EeRefs) (uri : Uri) (nul : Nul) (rest : List Byte) (us : List Uri) :
    let handle := Mft.handleManifest env rnd (some now) crlOk signed uri (decodeMft nul (m.enc ++ rest)).toOption
    ((∃ pp, handle = .ok pp) ↔ ∃ us crl refs, List.Forall₂ (FileSpec.There env) m.files us ∧ us.filter (HasExt extCrl ·) = [crl] ∧
      crlOk crl = true ∧ signed crl = some refs ∧ refs.crldp = some crl ∧ refs.signedObject = some uri ∧ t0 ≤ n ∧ n ≤ t1) ∧
    (∀ pp, handle = .ok pp → List.Forall₂ (FileSpec.There env) m.files us →
      pp.certs.Perm (us.filter (HasExt extCer ·)) ∧ pp.roas.Perm (us.filter (HasExt extRoa ·)) ∧ pp.gbrs.Perm (us.filter (HasExt extGbr ·)) ∧
      ∃ crl, pp.crl = some crl ∧ us.filter (HasExt extCrl ·) = [crl]) := by
  intro handle
  have hd : handle = Mft.handleManifest env rnd (some now) crlOk signed uri (some m.c) := by
    show Mft.handleManifest env rnd (some now) crlOk signed uri _ = _
    rw [decodeMft_enc h0 hl]; rfl
  have hthere : ∀ f u, FileSpec.There env f u ↔ Mft.Matches env f.c u := by
    intro f u
    unfold FileSpec.There Mft.Matches FileSpec.c
    simp
  have hall : ∀ us, List.Forall₂ (FileSpec.There env) m.files us ↔ List.Forall₂ (Mft.Matches env) m.c.files us := by
    intro us
    unfold MftSpec.c
    simp only [List.forall₂_map_left_iff]
    constructor <;> (intro h; exact h.imp fun f u => (by first | exact (hthere f u).1 | exact (hthere f u).2))
  have hc' : m.c.files.length < 2 ^ 31 := by simpa [MftSpec.c] using hc
  have hne : m.c.files ≠ [] := by simpa [MftSpec.c] using hf
  have hsound : Mft.Sound env.stale now m.c ↔ t0 ≤ n ∧ n ≤ t1 := by
    have hw := Mft.C50_window (stale := env.stale) hn h0 h1
    constructor
    · intro h
      have := hw.1 h.dates
      rw [s3] at this
      exact ⟨this.2.1, this.2.2.resolve_right fun h => h rfl⟩
    · intro h
      refine ⟨(fun v hv => nomatch hv), intOctets_length hnum, rfl, hw.2 ?_⟩
      exact ⟨by omega, h.1, Or.inl h.2⟩
  have hbuild : ∀ pp, Mft.buildRpp env rnd m.c.files = .ok pp → ∃ us, List.Forall₂ (FileSpec.There env) m.files us ∧
      pp.certs.Perm (us.filter (HasExt extCer ·)) ∧ pp.roas.Perm (us.filter (HasExt extRoa ·)) ∧ pp.gbrs.Perm (us.filter (HasExt extGbr ·)) ∧
      ∃ crl, pp.crl = some crl ∧ us.filter (HasExt extCrl ·) = [crl] := by
    intro pp h
    obtain ⟨order, us, -, hp, hu, hh⟩ := (Mft.C49_rpp env rnd hc' pp).1 h
    rw [usable_all s1 s2] at hu
    obtain ⟨us', k1, k2⟩ := List.perm_comp_forall₂ hp.symm hu
    obtain ⟨c, e1, e2⟩ := hh.crl
    refine ⟨us', (hall _).2 k1, ?_, ?_, ?_, c, e1, ?_⟩
    · rw [hh.certs]; exact (k2.filter _).symm
    · rw [hh.roas]; exact (k2.filter _).symm
    · rw [hh.gbrs]; exact (k2.filter _).symm
    · have := k2.filter (fun u => decide (HasExt extCrl u))
      rw [e2] at this
      exact List.perm_singleton.1 this
  have huniq : ∀ us vs, List.Forall₂ (FileSpec.There env) m.files us → List.Forall₂ (FileSpec.There env) m.files vs → us = vs := by
    generalize m.files = fs
    intro us vs h
    induction h generalizing vs with
    | nil => intro h; cases h; rfl
    | cons hx _ ih =>
      intro h
      cases h with
      | cons hy h =>
        rw [ih _ h, Option.some.inj (hx.1.symm.trans hy.1)]
  rw [hd]
  constructor
  · constructor
    · rintro ⟨pp, h⟩
      obtain ⟨m', crl, refs, e, k1, k2, k3, k4, k5, k6, k7⟩ := (Mft.C89_used env rnd now crlOk signed uri _ pp).1 h
      cases e
      obtain ⟨us, q1, -, -, -, c, q2, q3⟩ := hbuild pp k1
      rw [k2] at q2
      cases q2
      exact ⟨us, crl, refs, q1, q3, k3, k4, k6, k7, (hsound.1 k5).1, (hsound.1 k5).2⟩
    · rintro ⟨us, crl, refs, k1, k2, k3, k4, k5, k6, k7, k8⟩
      obtain ⟨order, hs, hp⟩ := Mft.C48_partial rnd hne hc'
      obtain ⟨us', q1, q2⟩ := List.perm_comp_forall₂ hp ((hall _).1 k1)
      have hcrl : us'.filter (HasExt extCrl ·) = [crl] := by
        have := q2.filter (fun u => decide (HasExt extCrl u))
        rw [k2] at this
        exact List.perm_singleton.1 this
      refine ⟨⟨us'.filter (HasExt extCer ·), some crl, us'.filter (HasExt extRoa ·), us'.filter (HasExt extGbr ·)⟩, ?_⟩
      rw [Mft.C89_used]
      refine ⟨m.c, crl, refs, rfl, ?_, rfl, k3, k4, hsound.2 ⟨k7, k8⟩, k5, k6⟩
      rw [Mft.C49_rpp env rnd hc']
      exact ⟨order, us', hs, hp, (usable_all s1 s2).2 q1, ⟨rfl, rfl, rfl, crl, rfl, hcrl⟩⟩
  · intro pp h hus
    obtain ⟨m', crl, refs, e, k1, -⟩ := (Mft.C89_used env rnd now crlOk signed uri _ pp).1 h
    cases e
    obtain ⟨us', q1, q2⟩ := hbuild pp k1
    rw [huniq us us' hus q1]
    exact q2

/-! The hypotheses are met: three files, valid in March 2024. -/

def Ex.mft : MftSpec := ⟨7, Mft.Ex.text [2, 0, 2, 4, 0, 2, 2, 9, 2, 3, 5, 9, 5, 9] ++ [0x5A], Mft.Ex.text [2, 0, 2, 4, 0, 3, 2, 9, 2, 3, 5, 9, 5, 9] ++ [0x5A],
  [⟨[1] ++ extCrl, [1]⟩, ⟨[2] ++ extRoa, [2]⟩, ⟨[3] ++ extCer, [3]⟩]⟩

theorem Ex.mft_enc : Ex.mft.enc.length = 91 := by
  have : octets 7 = [7] := by simp [octets]
  simp only [MftSpec.enc, Ex.mft, derInt, intOctets, this, tlv, derSeq]
  decide +kernel

theorem Ex.mft_dates : Mft.Denotes Ex.mft.thisUpdate (Mft.instant 2024 2 29 23 59 59) ∧ Mft.Denotes Ex.mft.nextUpdate (Mft.instant 2024 3 29 23 59 59) := by
  constructor
  · exact ⟨2024, 2, 29, 23, 59, 59, ⟨Mft.Ex.text [2, 0, 2, 4], Mft.Ex.text [0, 2], Mft.Ex.text [2, 9], Mft.Ex.text [2, 3], Mft.Ex.text [5, 9], Mft.Ex.text [5, 9], [],
      by decide, by unfold Mft.Dec; decide, by unfold Mft.Dec; decide, by unfold Mft.Dec; decide, by unfold Mft.Dec; decide, by unfold Mft.Dec; decide,
      by unfold Mft.Dec; decide, .inl rfl⟩, by decide, rfl⟩
  · exact ⟨2024, 3, 29, 23, 59, 59, ⟨Mft.Ex.text [2, 0, 2, 4], Mft.Ex.text [0, 3], Mft.Ex.text [2, 9], Mft.Ex.text [2, 3], Mft.Ex.text [5, 9], Mft.Ex.text [5, 9], [],
      by decide, by unfold Mft.Dec; decide, by unfold Mft.Dec; decide, by unfold Mft.Dec; decide, by unfold Mft.Dec; decide, by unfold Mft.Dec; decide,
      by unfold Mft.Dec; decide, .inl rfl⟩, by decide, rfl⟩

/-- In a cache with these files it is accepted, and yields the certificate. -/
theorem Ex.mft_accepted : ∃ pp, Mft.handleManifest Mft.Ex.env (fun _ => 5) (some ⟨124, 2, 10, 0, 0, 0⟩) (fun _ => true) Mft.Ex.signed [9]
    (decodeMft .never (Ex.mft.enc ++ [])).toOption = .ok pp ∧ pp.certs.Perm [[3] ++ extCer] := by
  have hus : List.Forall₂ (FileSpec.There Mft.Ex.env) Ex.mft.files [[1] ++ extCrl, [2] ++ extRoa, [3] ++ extCer] :=
    .cons ⟨rfl, [1], rfl, rfl⟩ (.cons ⟨rfl, [2], rfl, rfl⟩ (.cons ⟨rfl, [3], rfl, rfl⟩ .nil))
  have h := C181_manifest Ex.mft (by decide) (by decide) (by decide) (by rw [Ex.mft_enc]; decide) _ _ (Mft.instant 2024 3 10 0 0 0) Ex.mft_dates.1
    Ex.mft_dates.2 ⟨124, 2, 10, 0, 0, 0⟩ ⟨by decide, rfl⟩ Mft.Ex.env rfl rfl rfl (fun _ => 5) (fun _ => true) Mft.Ex.signed [9] .never [] [[1] ++ extCrl, [2] ++ extRoa, [3] ++ extCer]
  obtain ⟨pp, hpp⟩ := h.1.2 ⟨_, [1] ++ extCrl, ⟨some ([1] ++ extCrl), some [9]⟩, hus, by decide, rfl, rfl, rfl, rfl, by decide, by decide⟩
  exact ⟨pp, hpp, (h.2 pp hpp hus).1⟩

end Verif.Obj
