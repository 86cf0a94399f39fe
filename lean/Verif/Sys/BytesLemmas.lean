import Verif.Sys.SpecBytes
import Verif.Asn.LeafLemmas
import Verif.Mft.RppProps
/-
Lemmas about `Repo.pki`.
-/
namespace Verif.Sys
open Verif.Tree Verif.Res
open Verif.Mft (Uri FileRes Tm Manifest Usable Sound HasExt extCer extRoa extGbr extCrl EeRefs)
open Verif.Sd (Carries SignedBy signedObjectDecode mftContent certOf Complies)
open Verif.Cms (Names oidManifest oidRoa signedObjectValidate)
open Verif.Asn (Ber manifestTy routeOriginAttestationTy Leaf ber_leaf list_length)
open Verif.Obj (mftOf roaOf Got got)
variable {σ W X C S E : Type}

/-- The content of a file is not longer than the file. -/
theorem carries_length {tol : Bool} {file type digest x : List Byte} (h : Carries tol file type digest x) : x.length ≤ file.length := by
  obtain ⟨t, c, f, r, rfl, h1, -, s, rest, v, cert, keyId, sig, attrs, rfl, -, h⟩ := h
  have k1 := ber_leaf _ _ _ _ h1 (Leaf.seq (v := .bytes (s ++ rest)) (by simp) .bytes)
  have leaf : ∀ {z : List Byte}, Complies tol v type z cert keyId sig attrs → Leaf z v := by
    intro z hc
    obtain ⟨_, _, _, _, _, _, _, rfl, -⟩ := hc
    exact .seq (v := .seq [some (.bytes type), some (.bytes z)]) (by simp) (.seq (v := .bytes z) (by simp) .bytes)
  have k2 : x.length ≤ s.length := by
    rcases h with ⟨hc, hb⟩ | ⟨a, o, more, hc, hb, rfl, ho⟩
    · exact ber_leaf _ _ _ _ hb (leaf hc)
    · have h1 := ber_leaf _ _ _ _ hb (leaf hc)
      have h2 := ber_leaf _ _ _ _ ho .bytes
      rw [List.length_append] at h1
      omega
  simp only [List.length_append] at k1 ⊢
  omega

/-- A manifest does not list more files than it has bytes. -/
theorem mft_files {x : List Byte} {m : Manifest} (h : IsMft x m) : m.files.length ≤ x.length := by
  obtain ⟨v, b, rest, rfl, h1, h2⟩ := h
  have hl : ∃ ver n t1 t2 a l, v = .seq [ver, n, t1, t2, a, some (.list l)] ∧ l.length = m.files.length := by
    unfold mftOf at h2
    split at h2
    · split at h2
      · rename_i q1 q2
        cases h2
        exact ⟨_, _, _, _, _, _, rfl, (Sd.all_length q2).symm⟩
      · cases h2
    · cases h2
  obtain ⟨ver, n, t1, t2, a, l, rfl, e⟩ := hl
  rw [← e, List.length_append]
  obtain ⟨c, vs, k1, k2, k3⟩ := h1
  cases k2
  have := k1.length
  have last : l.length ≤ c.length := by
    have step : ∀ {hd ty rest o os c}, Asn.BerMems (.cons hd ty rest) (o :: os) c → ∃ d, Asn.BerMems rest os d ∧ d.length ≤ c.length := by
      intro hd ty rest o os c h
      rcases h with ⟨-, ws, e, h⟩ | ⟨x, ws, d, e', e, rfl, -, h⟩
      · cases e; exact ⟨c, h, Nat.le_refl _⟩
      · cases e; exact ⟨e', h, by simp⟩
    obtain ⟨c1, k3, g1⟩ := step k3
    obtain ⟨c2, k3, g2⟩ := step k3
    obtain ⟨c3, k3, g3⟩ := step k3
    obtain ⟨c4, k3, g4⟩ := step k3
    obtain ⟨c5, k3, g5⟩ := step k3
    rcases k3 with ⟨-, ws, e, -⟩ | ⟨x, ws, d, e', e, rfl, h, -⟩
    · cases e
    · cases e
      have := list_length h
      rw [List.length_append] at g5
      omega
  omega

theorem signed_file {q : Repo σ W X C S E} {s : σ} {c : C} {xs : List X} {oid : List Nat} {file enc x : List Byte} {sd : Cms.SignedData} {e : E} (hlen : file.length < 2 ^ 30)
    (hd : signedObjectDecode q.nuls file = .ok (enc, sd)) (hv : signedObjectValidate ((q.lib s c xs).env q.nuls) oid enc sd = .ok) (he : certOf (q.lib s c xs) sd = some e)
    (hx : sd.eContent = some x) : SignedFile q s c xs oid file x e := by
  obtain ⟨si, cert, sid, content, cc, b, hp, v1, v2, v3, v4, v5, v6, v7⟩ := (Cms.C86_accepts _ _ _ _).1 hv
  have : cc = e := by
    unfold certOf at he
    rw [hp.certificate] at he
    exact Option.some.inj (Eq.trans (Eq.symm v1) he)
  subst this
  exact ⟨_, b, hp.type, Sd.carries_of hd hp hx, ⟨cert, sid, si.signature, v1, v2, v3, v4, v7⟩, Sd.says_of hlen hd hp v6 hx⟩

theorem eeFile_inv {q : Repo σ W X C S E} {s : Loaded σ} {oid : List Nat} {c : C} {xs : List X} {more : EeRefs → Bool} (h : (q.eeFile s oid c xs more).ok = true) :
    ∃ enc sd e, signedObjectDecode q.nuls s.file = .ok (enc, sd) ∧ certOf (q.lib s.rest c xs) sd = some e ∧
      signedObjectValidate ((q.lib s.rest c xs).env q.nuls) oid enc sd = .ok ∧ more (q.eeRefs e) = true ∧
      (q.eeFile s oid c xs more).policy = q.eePolicy e ∧ (q.eeFile s oid c xs more).exts = q.eeExts e := by
  unfold Repo.eeFile at h ⊢
  cases hd : signedObjectDecode q.nuls s.file with
  | hang => rw [hd] at h; cases h
  | bad => rw [hd] at h; cases h
  | error => rw [hd] at h; cases h
  | ok p =>
    obtain ⟨enc, sd⟩ := p
    rw [hd] at h
    simp only at h ⊢
    cases he : certOf (q.lib s.rest c xs) sd with
    | none => rw [he] at h; cases h
    | some e =>
      rw [he] at h
      simp only [Bool.and_eq_true, decide_eq_true_eq] at h ⊢
      exact ⟨enc, sd, e, rfl, he, h.1, h.2, rfl, rfl⟩

theorem refsOk_iff {refs : EeRefs} {crl uri : Uri} : refsOk refs crl uri = true ↔ refs.crldp = some crl ∧ refs.signedObject = some uri := by
  obtain ⟨d, o⟩ := refs
  unfold refsOk Mft.refsValidateEe
  rw [decide_eq_true_eq]
  cases d with
  | none => simp
  | some d =>
    cases o with
    | none => by_cases h : d = crl <;> simp [h]
    | some o => by_cases h : d = crl <;> by_cases h' : o = uri <;> simp [h, h']

theorem mftContent_inv {nuls : Sd.Nuls} {file : List Byte} {m : Manifest} (h : mftContent nuls file = some m) :
    ∃ enc sd x, signedObjectDecode nuls file = .ok (enc, sd) ∧ sd.eContent = some x ∧ IsMft x m := by
  unfold mftContent at h
  cases hd : signedObjectDecode nuls file with
  | hang => rw [hd] at h; cases h
  | bad => rw [hd] at h; cases h
  | error => rw [hd] at h; cases h
  | ok p =>
    obtain ⟨enc, sd⟩ := p
    rw [hd] at h
    simp only at h
    cases hx : sd.eContent with
    | none => rw [hx] at h; cases h
    | some x =>
      rw [hx] at h
      simp only at h
      refine ⟨enc, sd, x, rfl, hx, ?_⟩
      unfold Obj.decodeMft at h
      cases hg : got mftOf (Asn.asn1Decode (nuls manifestTy x) manifestTy Asn.manifestCon x) with
      | hang => rw [hg] at h; cases h
      | bad => rw [hg] at h; cases h
      | error => rw [hg] at h; cases h
      | ok m' =>
        rw [hg] at h
        cases h
        obtain ⟨v, k1, k2⟩ := Sd.got_ok hg
        obtain ⟨b, rest, a1, a2⟩ := Asn.C171_ber _ Obj.mft_root _ _ _ k1
        exact ⟨v, b, rest, a1, a2, k2⟩

/-- What an accepted manifest is. -/
theorem manifest_inv {q : Repo σ W X C S E} (hlen : ∀ s u b, q.read s u = .content b → b.length < 2 ^ 30) {s s₆ s₇ s₈ : Loaded σ} {sia : S} {d : Uri × W} {lists : Lists (Uri × W)}
    {c : C} {xs : List X} {f : EeFile} (h1 : q.mftDecode s sia d = (s₆, some lists)) (h2 : s₇.file = s₆.file) (h3 : q.mftFile s₇ sia d lists c xs = (s₈, f)) (h4 : f.ok = true) :
    ∃ u e, q.manifest sia d = some u ∧ s₆.rest = s.rest ∧ Manifested q s.rest s₇.rest u lists c xs e ∧ f.policy = q.eePolicy e ∧ f.exts = q.eeExts e := by
  unfold Repo.mftDecode at h1
  cases hu : q.manifest sia d with
  | none => rw [hu] at h1; cases h1
  | some u =>
    rw [hu] at h1
    simp only at h1
    cases hr : q.read s.rest u with
    | missing => rw [hr] at h1; cases h1
    | error => rw [hr] at h1; cases h1
    | content b =>
      rw [hr] at h1
      simp only [Prod.mk.injEq] at h1
      obtain ⟨rfl, h1⟩ := h1
      cases hm : mftContent q.nuls b with
      | none => rw [hm] at h1; cases h1
      | some m =>
        rw [hm] at h1
        simp only at h1
        cases hb : Mft.buildRpp (q.mftEnv s.rest u) (q.rnd s.rest) m.files with
        | crash => rw [hb] at h1; cases h1
        | err => rw [hb] at h1; cases h1
        | skip => rw [hb] at h1; cases h1
        | ok pp =>
          rw [hb] at h1
          simp only at h1
          cases hcrl : pp.crl with
          | none => rw [hcrl] at h1; cases h1
          | some crl =>
            rw [hcrl] at h1
            simp only [Option.map_some, Option.some.injEq] at h1
            subst h1
            simp only [Repo.mftFile, Prod.mk.injEq] at h3
            obtain ⟨rfl, rfl⟩ := h3
            obtain ⟨enc, sd, e, g1, g2, g3, g4, g5, g6⟩ := eeFile_inv h4
            simp only at h2
            rw [h2] at g1
            rw [hu, h2, hm] at g4
            simp only [Bool.and_eq_true, decide_eq_true_eq] at g4
            obtain ⟨g4, g7⟩ := g4
            obtain ⟨r1, r2⟩ := refsOk_iff.1 g7
            obtain ⟨enc', sd', x, k1, k2, k3⟩ := mftContent_inv hm
            rw [g1] at k1
            cases k1
            have hl := hlen _ _ _ hr
            have hsf : SignedFile q s₇.rest c xs oidManifest b x e := signed_file hl g1 g3 g2 k2
            obtain ⟨type, b', -, hcar, -⟩ := id hsf
            have hfl : m.files.length < 2 ^ 31 := by
              have h1 := mft_files k3
              have h2 := carries_length hcar
              omega
            obtain ⟨order, us, -, p1, p2, p3⟩ := (Mft.C49_rpp _ _ hfl pp).1 hb
            obtain ⟨crl', c1, c2⟩ := p3.crl
            rw [hcrl] at c1
            cases c1
            refine ⟨u, e, rfl, rfl, ⟨m, b, x, order, us, crl, hr, hsf, k3, p1, p2, (Mft.validateManifest_iff _ _ _).1 g4, ?_, ?_, ?_, c2, rfl, r1, r2⟩, g5, g6⟩
            · rw [p3.certs]
            · rw [p3.roas]
            · rw [p3.gbrs]

end Verif.Sys
