import Verif.Mft.RppProps
import Verif.Mft.TimeProps
import Verif.Res.TrimProps
/-
C89: which manifests are used.
-/
namespace Verif.Mft
open Verif.Res (Byte be integer2ulong integer2ulong_iff)

/-- RFC 6486's checks of a manifest, besides its files'. -/
structure Sound (stale : Action) (now : Tm) (m : Manifest) : Prop where
  version : ∀ v, m.version = some v → be v = 0
  number : m.number.length ≤ 20
  hashAlg : m.hashAlg = [0x60, 0x86, 0x48, 0x01, 0x65, 0x03, 0x04, 0x02, 0x01]
  dates : validateDates stale (some now) m.thisUpdate m.nextUpdate = .ok ()

theorem validateManifest_iff (stale : Action) (now : Tm) (m : Manifest) :
    validateManifest stale (some now) m = .ok () ↔ Sound stale now m := by
  have hv : (m.version.isSome ∧ m.version.bind integer2ulong ≠ some 0) ↔ ¬ ∀ v, m.version = some v → be v = 0 := by
    cases h : m.version with
    | none => simp
    | some v =>
      have hx : integer2ulong v = some 0 ↔ be v = 0 := by
        rw [integer2ulong_iff]
        constructor
        · rintro ⟨h, -⟩; exact h.symm
        · intro h; exact ⟨h.symm, by omega⟩
      simp [hx]
  unfold validateManifest
  constructor
  · intro h
    split at h
    · cases h
    · rename_i h1
      split at h
      · cases h
      · rename_i h2
        split at h
        · rename_i h3
          split at h
          · rename_i h4
            exact ⟨Classical.not_not.1 (fun hc => h1 (hv.2 hc)), by omega, by simpa [Cms.hashOidOk] using h4, h3⟩
          · cases h
        · rename_i hno
          exact absurd h hno
  · rintro ⟨h1, h2, h3, h4⟩
    rw [if_neg (fun hc => hv.1 hc h1), if_neg (by omega), h4]
    simp only
    rw [if_pos (by unfold Cms.hashOidOk; exact decide_eq_true h3)]

theorem refs_iff (refs : EeRefs) (pp : Rpp) (uri : Uri) : refsValidateEe refs pp uri = .ok () ↔
    ∃ c, pp.crl = some c ∧ refs.crldp = some c ∧ refs.signedObject = some uri := by
  unfold refsValidateEe
  constructor
  · intro h
    split at h
    · cases h
    · rename_i d hd
      split at h
      · cases h
      · rename_i c hc
        split at h
        · cases h
        · rename_i e
          have e : d = c := by simpa using e
          subst e
          split at h
          · cases h
          · rename_i s hs
            split at h
            · cases h
            · rename_i e
              have e : s = uri := by simpa using e
              subst e
              exact ⟨d, hc, hd, hs⟩
  · rintro ⟨c, h1, h2, h3⟩
    simp [h1, h2, h3]

/-- **C89.** A manifest is used, as the publication point `pp`, if and only if its files make `pp` up (see C49), `pp`'s CRL can be loaded,
the manifest is properly signed according to that CRL, its own fields are sound, and its certificate names that CRL and the manifest. -/
theorem C89_used (env : Env) (rnd : Nat → Nat) (now : Tm) (crlOk : Uri → Bool) (signed : Uri → Option EeRefs) (uri : Uri)
    (decoded : Option Manifest) (pp : Rpp) :
    handleManifest env rnd (some now) crlOk signed uri decoded = .ok pp ↔
    ∃ m crl refs, decoded = some m ∧ buildRpp env rnd m.files = .ok pp ∧ pp.crl = some crl ∧ crlOk crl = true ∧ signed crl = some refs ∧
      Sound env.stale now m ∧ refs.crldp = some crl ∧ refs.signedObject = some uri := by
  unfold handleManifest
  constructor
  · intro h
    split at h
    · cases h
    · rename_i m
      split at h
      · rename_i pp' hb
        split at h
        · cases h
        · rename_i crl hc
          split at h
          · cases h
          · rename_i hok
            split at h
            · cases h
            · rename_i refs hs
              split at h
              · rename_i hv
                split at h
                · rename_i hr
                  cases h
                  obtain ⟨c, h1, h2, h3⟩ := (refs_iff _ _ _).1 hr
                  rw [hc] at h1
                  cases h1
                  exact ⟨m, crl, refs, rfl, hb, hc, by simpa using hok, hs, (validateManifest_iff _ _ _).1 hv, h2, h3⟩
                · cases h
                · cases h
                · cases h
              · cases h
              · cases h
              · cases h
      · rename_i hno
        exact absurd h (hno pp)
  · rintro ⟨m, crl, refs, rfl, hb, hc, hok, hs, hv, h2, h3⟩
    simp only [hb, hc, hok, hs, (validateManifest_iff _ _ _).2 hv]
    rw [if_neg (by simp), (refs_iff refs pp uri).2 ⟨crl, hc, h2, h3⟩]

theorem filesLoop_not (env : Env) : ∀ (fs : List FileAndHash) (pp : Rpp), filesLoop env pp fs ≠ .crash := by
  intro fs
  induction fs with
  | nil => intro pp h; cases h
  | cons f fs ih =>
    intro pp
    unfold filesLoop
    cases hu : env.mkUri f.file with
    | none => intro h; cases h
    | some u =>
      simp only
      rcases hashValidate_cases hu with ⟨e, -⟩ | ⟨e, -⟩ | ⟨e, -⟩
      · rw [e]
        simp only
        split
        · intro h; cases h
        · exact ih _
      · rw [e]; exact ih _
      · rw [e]; intro h; cases h

/-- **C89, safety.** Unless it lists no files (see C48), no manifest makes the program crash. (Certificates have both references when their
extensions were validated.) -/
theorem C89_safe_partial {env : Env} {rnd : Nat → Nat} {now : Option Tm} {crlOk : Uri → Bool} {signed : Uri → Option EeRefs} {uri : Uri}
    {decoded : Option Manifest} (hrefs : ∀ c r, signed c = some r → r.crldp ≠ none ∧ r.signedObject ≠ none)
    (hf : ∀ m, decoded = some m → m.files ≠ [] ∧ m.files.length < 2 ^ 31) :
    handleManifest env rnd now crlOk signed uri decoded ≠ .crash := by
  unfold handleManifest
  cases decoded with
  | none => intro h; cases h
  | some m =>
    obtain ⟨hne, hl⟩ := hf m rfl
    obtain ⟨order, hs, -⟩ := C48_partial rnd hne hl
    have hb : buildRpp env rnd m.files ≠ .crash := by
      unfold buildRpp
      rw [hs]
      simp only
      split
      · split <;> (intro h; cases h)
      · exact filesLoop_not env _ _
    have hc : ∀ pp, buildRpp env rnd m.files = .ok pp → pp.crl ≠ none := by
      intro pp h
      obtain ⟨_, us, -, -, -, hh⟩ := (C49_rpp env rnd hl pp).1 h
      obtain ⟨c, h, -⟩ := hh.crl
      rw [h]; exact fun h => by cases h
    simp only
    split
    · rename_i pp hpp
      split
      · rename_i h; exact absurd h (hc pp hpp)
      · rename_i crl hcrl
        split
        · intro h; cases h
        · split
          · intro h; cases h
          · rename_i refs hsig
            obtain ⟨r1, r2⟩ := hrefs _ _ hsig
            split
            · split
              · intro h; cases h
              · rename_i hr
                unfold refsValidateEe at hr
                split at hr
                · rename_i h; exact absurd h r1
                · rw [hcrl] at hr
                  simp only at hr
                  split at hr
                  · cases hr
                  · split at hr
                    · rename_i h; exact absurd h r2
                    · split at hr <;> cases hr
              · intro h; cases h
              · intro h; cases h
            · rename_i hv
              unfold validateManifest at hv
              split at hv
              · cases hv
              · split at hv
                · cases hv
                · split at hv
                  · split at hv <;> cases hv
                  · exact absurd hv (C50_safe _ _ _ _).1
            · intro h; cases h
            · intro h; cases h
    · exact hb

namespace Ex
def mft : Manifest := ⟨none, [7], text [2, 0, 2, 4, 0, 2, 2, 9, 2, 3, 5, 9, 5, 9] ++ [0x5A], text [2, 0, 2, 4, 0, 3, 2, 9, 2, 3, 5, 9, 5, 9] ++ [0x5A],
  [0x60, 0x86, 0x48, 0x01, 0x65, 0x03, 0x04, 0x02, 0x01], files⟩
def signed (c : Uri) : Option EeRefs := some ⟨some c, some [9]⟩
end Ex

/-- The hypotheses are met. -/
example : handleManifest Ex.env (fun _ => 5) (some ⟨124, 2, 1, 0, 0, 0⟩) (fun _ => true) Ex.signed [9] (some Ex.mft) =
    .ok ⟨[[3] ++ extCer], some ([1] ++ extCrl), [[2] ++ extRoa], []⟩ := by decide +kernel

end Verif.Mft
