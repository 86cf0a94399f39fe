import Verif.Sys.PropsWritten
import Verif.Sd.PropsMft
/-
A trust anchor whose manifests and whose ROA are bytes.
-/
namespace Verif.Sys.BytesEx
open Verif.Tree Verif.Res
open Verif.Mft (Uri FileRes extCrl extCer extRoa)
open Verif.Sd (Object)
open Verif.Obj (derSeq derOctets MftSpec)

/-- AS 5 may announce 10.1.0.0/16, up to /24. -/
def roaFile : List Byte := Sd.Ex.roaObj.file Sd.Ex.roaObj.attrList
/-- There are more octets behind it. -/
def roaBytes : List Byte := roaFile ++ [1, 2]

def sum (l : List Byte) : List Byte := Sd.Ex.crypto.sha256 l

/-- The manifest of the trust anchor: a CRL, and the certificate of 3. -/
def mft0 : MftSpec := { Obj.Ex.mft with files := [⟨[1] ++ extCrl, [1]⟩, ⟨[3] ++ extCer, [3]⟩] }
/-- The manifest of 3: a CRL, and the ROA. -/
def mft3 : MftSpec := { Obj.Ex.mft with files := [⟨[2] ++ extRoa, sum roaBytes⟩, ⟨[4] ++ extCrl, [4]⟩] }

/-- The signed object of a manifest, whose certificate says who it is. -/
def mftObj (m : MftSpec) (n : Byte) : Object := ⟨Sd.Ex.mftType, m.enc, derSeq (derOctets [n]), [0xAA, 0xBB], sum m.enc, [], [0]⟩
def mftBytes (m : MftSpec) (n : Byte) : List Byte := (mftObj m n).file (mftObj m n).attrList

/-- The files. -/
def files : List (Uri × List Byte) :=
  [([90], mftBytes mft0 90), ([93], mftBytes mft3 93), ([1] ++ extCrl, [1]), ([3] ++ extCer, [3]), ([4] ++ extCrl, [4]), ([2] ++ extRoa, roaBytes)]

/-- The trust anchor's certificate is 0; 3 is another one. The certificate of a signed object names the manifest and the CRL. -/
def repo : Repo Nat Unit Nat Uri Nat Byte where
  maxDepth := 3
  isCert := fun _ => true
  crlLoad := fun s u => (s + 1, some u.1)
  load := fun s u => (s + 1, some (u.1.headD 0).toNat)
  chainOk := fun s _ _ _ => (s, true)
  certType := fun _ ta => some (if ta then .ta else .ca)
  profileOk := fun s _ _ => (s, true)
  keyState := fun _ => .valid
  extensions := fun s x _ _ => (s, some x)
  download := fun s _ => (s, some ([100], ()))
  policy := fun _ => .rfc6484
  exts := fun _ => Obj.Ex.ta.exts
  manifest := fun x _ => some ([BitVec.ofNat 8 (90 + x)], ())
  read := fun _ u => match files.lookup u.1 with | some b => .content b | none => .missing
  mkUri := fun _ n => some n
  sha256 := sum
  notFound := .error
  mismatch := .error
  stale := .error
  rnd := fun s n => s * n + 5
  now := fun _ => ⟨124, 2, 10, 0, 0, 0⟩
  nuls := Sd.Ex.nuls
  crypto := fun _ _ _ => { Sd.Ex.crypto with chainOk := fun _ => true, verify := fun _ _ _ => true }
  eePolicy := fun _ => .rfc6484
  eeExts := fun _ => Obj.Ex.ta.exts
  eeRefs := fun e => ⟨some (if e = 90 then [1] ++ extCrl else [4] ++ extCrl), some (if e = 0xCE then [2] ++ extRoa else [e])⟩

/-- What a run yields, if it ended. -/
def vrpsOf {ρ U X C R : Type} (x : Run (St (Mem ρ) U X C R × TalRes)) : Option (List Vrp × TalRes) :=
  match x with
  | .done (st, r) => some (st.s.vrps, r)
  | _ => none

theorem repo_run : vrpsOf (validateTa repo.pki 20 ⟨0, []⟩ ([0], ())) = some ([.v4 5 ⟨0x0A010000, 16⟩ 24], .ok) := by decide +kernel

theorem repo_short : ∀ s u b, repo.read s u = .content b → b.length < 2 ^ 30 := by
  intro s u b h
  have key : ∀ p ∈ files, p.2.length < 2 ^ 30 := by decide +kernel
  simp only [repo] at h
  cases hl : files.lookup u.1 with
  | none => rw [hl] at h; cases h
  | some b' =>
    rw [hl] at h
    cases h
    rw [List.lookup_eq_some_iff] at hl
    obtain ⟨l₁, l₂, e, -⟩ := hl
    exact key (u.1, b) (by rw [e]; simp)

/-- The hypotheses of `C189_bytes_partial` are met. -/
example : ∃ st r v, validateTa repo.pki 20 ⟨0, []⟩ ([0], ()) = .done (st, r) ∧ v ∈ st.s.vrps := by
  have h := repo_run
  unfold vrpsOf at h
  split at h
  · rename_i st r e
    simp only [Option.some.injEq, Prod.mk.injEq] at h
    exact ⟨st, r, _, e, by rw [h.1]; exact List.mem_singleton.2 rfl⟩
  · cases h

/-! ### C190 -/

theorem repo_steady : SteadyRepo repo where
  crlLoad _ _ _ := rfl
  load _ _ _ := rfl
  chainOk _ _ _ _ _ := rfl
  profileOk _ _ _ _ := rfl
  extensions _ _ _ _ _ := rfl
  download _ _ _ := rfl
  read _ _ _ := rfl
  now _ _ := rfl
  crypto _ _ _ _ := rfl

theorem ta_exts : Obj.Ex.ta.exts = [.ip true (some [⟨[0, 1], .aors [.pfx ⟨[10], 0⟩]⟩]), .asn true (some ⟨some (.list [.range [1] [10]]), false⟩)] := by decide +kernel

def vals : Vals := ⟨[⟨0x0A000000, 0x0AFFFFFF⟩], [], [⟨1, 10⟩]⟩

theorem grants {l : List Rng} {issuer : Option (List Rng)} (h : issuer = none ∨ issuer = some l) (hne : l ≠ []) (hc : Canonical l) : Grants issuer .rfc6484 false l (.lists (l.map some)) := by
  have hall : ∀ x ∈ l, Has issuer x := by
    intro x hx m hm n hn
    rcases h with h | h
    · rw [h] at hm; cases hm
    · rw [h] at hm; cases hm; exact ⟨x, hx, hn⟩
  refine ⟨rfl, by simpa using hne, ?_, l, rfl, ?_, fun _ => rfl, hc⟩
  · rcases h with rfl | rfl
    · simp
    · simpa using hne
  · rw [List.filter_eq_self.2]
    intro x hx
    simpa using hall x hx

theorem granted {issuer : Option Vals} (h : issuer = none ∨ issuer = some vals) : GrantsAll issuer .rfc6484 false true Obj.Ex.ta.exts vals := by
  have e : ∀ {α : Type} (f : Vals → α), issuer.map f = none ∨ issuer.map f = some (f vals) := by
    rintro α f
    rcases h with rfl | rfl
    · exact .inl rfl
    · exact .inr rfl
  rw [ta_exts]
  refine ⟨by simp, .inl (by simp [ips]), .inr ⟨_, rfl, .inl ⟨_, _, rfl, rfl, ?_, rfl⟩⟩, .inr ⟨_, rfl, rfl, _, _, rfl, rfl, ?_⟩⟩
  · exact grants (l := vals.ip4) (e (·.ip4)) (by simp [vals]) (by simp [vals, Canonical])
  · exact grants (l := vals.asn) (e (·.asn)) (by simp [vals]) (by simp [vals, Canonical])

/-- The chain, and the publication points. -/
def anc0 : Anc (Uri × Unit) Nat Vals := ⟨0, ([0], ()), vals⟩
def anc3 : Anc (Uri × Unit) Nat Vals := ⟨3, ([3] ++ extCer, ()), vals⟩
def pp0 : Point (Uri × Unit) Uri := ⟨⟨[([3] ++ extCer, ())], ([1] ++ extCrl, ()), [], []⟩, [1] ++ extCrl⟩
def pp3 : Point (Uri × Unit) Uri := ⟨⟨[], ([4] ++ extCrl, ()), [([2] ++ extRoa, ())], []⟩, [4] ++ extCrl⟩


theorem mft0_written : WrittenMft repo 1 2 ([90], ()) pp0.lists pp0.crl [0] 90 :=
  ⟨mft0, mftBytes mft0 90, [], [[1] ++ extCrl, [3] ++ extCer], [1] ++ extCrl, _, _, Mft.instant 2024 3 10 0 0 0, by decide +kernel,
    ⟨mftObj mft0 90, (mftObj mft0 90).attrList, [], by simp [mftBytes], by simp [mftObj], .refl _, Sd.Ex.mft_is,
      Sd.els_constr (tag := 64) (by decide) (by unfold Obj.Fits; decide +kernel) (Sd.els_last (Sd.els_prim (tag := 16) (t := 4) (by decide) (by unfold Obj.Fits; decide +kernel))),
      by simp [mftObj, repo], by decide +kernel, rfl, rfl, rfl, rfl⟩,
    by decide, by decide, Obj.Ex.mft_dates.1, Obj.Ex.mft_dates.2, ⟨by decide, rfl⟩, by decide, by decide,
    .cons ⟨rfl, [1], by decide +kernel, by decide +kernel⟩ (.cons ⟨rfl, [3], by decide +kernel, by decide +kernel⟩ .nil), by decide, by decide, by decide, by decide⟩

theorem mft3_written : WrittenMft repo 1 2 ([93], ()) pp3.lists pp3.crl [3, 0] 93 :=
  ⟨mft3, mftBytes mft3 93, [], [[2] ++ extRoa, [4] ++ extCrl], [4] ++ extCrl, _, _, Mft.instant 2024 3 10 0 0 0, by decide +kernel,
    ⟨mftObj mft3 93, (mftObj mft3 93).attrList, [], by simp [mftBytes], by simp [mftObj], .refl _, Sd.Ex.mft_is,
      Sd.els_constr (tag := 64) (by decide) (by unfold Obj.Fits; decide +kernel) (Sd.els_last (Sd.els_prim (tag := 16) (t := 4) (by decide) (by unfold Obj.Fits; decide +kernel))),
      by simp [mftObj, repo], by decide +kernel, rfl, rfl, rfl, rfl⟩,
    by decide, by decide, Obj.Ex.mft_dates.1, Obj.Ex.mft_dates.2, ⟨by decide, rfl⟩, by decide, by decide,
    .cons ⟨rfl, roaBytes, by decide +kernel, by decide +kernel⟩ (.cons ⟨rfl, [4], by decide +kernel, by decide +kernel⟩ .nil), by decide, by decide, by decide, by decide⟩

theorem chain_written : CertifiedBy repo (WrittenMft repo) ([0], ()) [anc3, anc0] pp3 := by
  refine .listed (p := pp0) (u := ([3] ++ extCer, ())) (.root ?_) (by simp [pp0]) ?_
  · exact ⟨0, 1, 1, 1, 1, 1, 2, .ta, 0, ([100], ()), ([90], ()), 90, rfl, rfl, by simp, fun _ => rfl, rfl, .inl rfl, rfl, rfl, rfl, ⟨granted (.inl rfl), by simp [anc0, vals]⟩, rfl, rfl, mft0_written,
      vals, granted (.inr rfl)⟩
  · exact ⟨0, 1, 1, 1, 1, 1, 2, .ca, 3, ([100], ()), ([93], ()), 93, rfl, rfl, fun _ _ => rfl, fun _ => rfl, rfl, .inr rfl, rfl, rfl, rfl, ⟨granted (.inr rfl), by simp⟩, rfl, rfl, mft3_written,
      vals, granted (.inr rfl)⟩

theorem roa_written : WrittenRoa repo [anc3, anc0] pp3 Sd.Ex.roa := by
  refine ⟨([2] ++ extRoa, ()), 0, roaBytes, [], 0xCE, vals, anc3, by simp [pp3], rfl, by decide +kernel, ?_, Sd.Ex.roa_valid, granted (.inr rfl), ?_⟩
  · exact ⟨Sd.Ex.roaObj, Sd.Ex.roaObj.attrList, [1, 2], rfl, rfl, .refl _, Cms.Ex.roa_is, Sd.Ex.obj_cert 0, by decide +kernel, by decide +kernel, rfl, rfl, rfl, rfl⟩
  · intro v hv n h1 h2
    simp only [Obj.RoaSpec.vrps, Sd.Ex.roa, List.flatMap_cons, List.map_cons, List.map_nil, List.flatMap_nil, List.append_nil, List.mem_singleton] at hv
    subst hv
    simp [Obj.width] at h1 h2
    exact ⟨⟨0x0A000000, 0x0AFFFFFF⟩, by simp [vals], by constructor <;> simp <;> omega⟩

/-- The hypotheses of `C190_written` are met. -/
example : ∃ st r, validateTa repo.pki 20 ⟨0, []⟩ ([0], ()) = .done (st, r) ∧ ∃ w ∈ st.s.vrps, Obj.plain w = ⟨5, false, 0x0A010000, 16, 24⟩ := by
  have h := repo_run
  unfold vrpsOf at h
  split at h
  · rename_i st r e
    exact ⟨st, r, e, C190_written repo repo_short repo_steady rfl rfl rfl rfl e chain_written (by decide) roa_written (by simp [Obj.RoaSpec.vrps, Sd.Ex.roa])⟩
  · cases h

end Verif.Sys.BytesEx
