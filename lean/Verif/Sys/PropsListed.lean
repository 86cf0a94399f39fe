import Verif.Sys.BytesExample
/-
C191: what is used is what the manifest lists.
-/
namespace Verif.Sys
open Verif.Tree Verif.Res
open Verif.Mft (Uri FileRes Tm Manifest Usable HasExt extCer extRoa extGbr extCrl FileAndHash)
open Verif.Sd (signedObjectDecode mftContent)
open Verif.Cms (oidRoa)
variable {σ W X C S E : Type}

/-- The VRP is stated by a ROA below a chain of accepted certificates; the manifest of the last of them lists the ROA's file, with the hash of these very octets. -/
def Vouched (q : Repo σ W X C S E) (root : Uri × W) (v : Vrp) : Prop :=
  ∃ chain pp, CertifiedBy q (Manifested q) root chain pp ∧
    ∃ m s s' w e', ManifestedAs q m s s' w pp.lists pp.crl (chain.map Anc.x) e' ∧
    ∃ u t file x e roa ee, u ∈ pp.lists.roas ∧ q.read t u = .content file ∧ ListsFile q m w u file ∧
      SignedFile q t pp.crl (chain.map Anc.x) oidRoa file x e ∧ IsRoa x roa ∧ v ∈ roaVrps ee roa

theorem usable_matches {env : Mft.Env} (hm : env.mismatch = .error) {l : List FileAndHash} {us : List Uri} (h : Usable env l us) {u : Uri} (hu : u ∈ us) :
    ∃ f ∈ l, Mft.Matches env f u := by
  induction h with
  | nil => cases hu
  | take hf _ ih =>
    rcases List.mem_cons.1 hu with rfl | hu
    · rcases hf with hf | hf
      · exact ⟨_, List.mem_cons_self, hf⟩
      · exact absurd hm hf.2.2.2
    · obtain ⟨f, h1, h2⟩ := ih hu
      exact ⟨f, List.mem_cons_of_mem _ h1, h2⟩
  | skip _ _ ih =>
    obtain ⟨f, h1, h2⟩ := ih hu
    exact ⟨f, List.mem_cons_of_mem _ h1, h2⟩

/-- If no file changes during the validation, and hash mismatches are not tolerated, every VRP is vouched for by a manifest. -/
theorem C191_listed_partial (q : Repo σ W X C S E) (hlen : ∀ s u b, q.read s u = .content b → b.length < 2 ^ 30) (hsteady : ∀ s s' u, q.read s u = q.read s' u) (hm : q.mismatch = .error)
    {fuel : Nat} {s : Loaded σ} {root : Uri × W} {st : St (Mem (Loaded σ)) (Uri × W) X C Resources} {r : TalRes} (h : validateTa q.pki fuel s root = .done (st, r)) {v : Vrp}
    (hv : v ∈ st.s.vrps) : Vouched q root v := by
  obtain ⟨chain, pp, e, ee, h1, -, h3, -⟩ := C189_bytes_partial q hlen h hv
  obtain ⟨u, t, file, x, roa, a, a1, a2, a3, a4, a5, a6, a7⟩ := h3
  refine ⟨chain, pp, h1, ?_⟩
  have key : ∃ m s s' w e', ManifestedAs q m s s' w pp.lists pp.crl (chain.map Anc.x) e' := by
    cases h1 with
    | root h =>
      obtain ⟨_, _, _, _, _, _, _, _, _, _, _, _, _, _, _, _, _, _, _, _, _, _, _, _, ⟨m, hM⟩, _⟩ := h
      exact ⟨m, _, _, _, _, hM⟩
    | listed _ _ h =>
      obtain ⟨_, _, _, _, _, _, _, _, _, _, _, _, _, _, _, _, _, _, _, _, _, _, _, _, ⟨m, hM⟩, _⟩ := h
      exact ⟨m, _, _, _, _, hM⟩
  obtain ⟨m, s1, s2, w, e', hM⟩ := key
  refine ⟨m, s1, s2, w, e', hM, u, t, file, x, e, roa, ee, a1, a3, ?_, a4, a5, a7⟩
  obtain ⟨_, _, order, us, _, _, _, _, m1, m2, _, _, m3, _⟩ := hM
  rw [m3, List.mem_map] at a1
  obtain ⟨y, hy, rfl⟩ := a1
  obtain ⟨f, hf, k1, k2, b, k3, k4⟩ := usable_matches hm m2 (List.mem_filter.1 hy).1
  refine ⟨rfl, f, m1.subset hf, k1, k2, ?_⟩
  have : q.read s1 (y, w.2) = .content b := k3
  rw [hsteady s1 t, a3] at this
  cases this
  exact k4

/-- The hypotheses are met. -/
example : ∃ st r v, validateTa BytesEx.repo.pki 20 ⟨0, []⟩ ([0], ()) = .done (st, r) ∧ v ∈ st.s.vrps ∧ Vouched BytesEx.repo ([0], ()) v := by
  have h := BytesEx.repo_run
  unfold BytesEx.vrpsOf at h
  split at h
  · rename_i st r e
    simp only [Option.some.injEq, Prod.mk.injEq] at h
    have hv : Vrp.v4 5 ⟨0x0A010000, 16⟩ 24 ∈ st.s.vrps := by rw [h.1]; exact List.mem_singleton.2 rfl
    exact ⟨st, r, _, e, hv, C191_listed_partial _ BytesEx.repo_short (fun _ _ _ => rfl) rfl e hv⟩
  · cases h

namespace BytesEx
/-- Another ROA, of AS 6. -/
def roa6 : List Byte := (⟨Sd.Ex.roaType, { Sd.Ex.roa with asn := 6 }.enc, Obj.derSeq (Obj.derOctets [0xCE]), [0xAA, 0xBB], sum { Sd.Ex.roa with asn := 6 }.enc, [], [0]⟩ : Sd.Object).file
  (⟨Sd.Ex.roaType, { Sd.Ex.roa with asn := 6 }.enc, Obj.derSeq (Obj.derOctets [0xCE]), [0xAA, 0xBB], sum { Sd.Ex.roa with asn := 6 }.enc, [], [0]⟩ : Sd.Object).attrList

/-- It takes the place of the other one, after the manifest was checked. -/
def moving : Repo Nat Unit Nat Uri Nat Byte :=
  { repo with read := fun s u => if u.1 = [2] ++ extRoa ∧ 4 ≤ s then .content roa6 else repo.read s u }

theorem moving_run : vrpsOf (validateTa moving.pki 20 ⟨0, []⟩ ([0], ())) = some ([.v4 6 ⟨0x0A010000, 16⟩ 24], .ok) := by decide +kernel

/-- The AS of the ROA in the file. -/
def roaAs (file : List Byte) : Option (List Byte) :=
  match signedObjectDecode Sd.Ex.nuls file with
  | .ok (_, sd) => sd.eContent.bind fun x => (Obj.decodeRoa (Sd.Ex.nuls Asn.routeOriginAttestationTy x) x).toOption.map (·.asId)
  | _ => none

theorem moving_files : ∀ s u b, moving.read s u = .content b → b ∈ roa6 :: files.map Prod.snd := by
  intro s u b h
  simp only [moving] at h
  split at h
  · cases h; simp
  · simp only [repo] at h
    cases hl : files.lookup u.1 with
    | none => rw [hl] at h; cases h
    | some b' =>
      rw [hl] at h
      cases h
      rw [List.lookup_eq_some_iff] at hl
      obtain ⟨l₁, l₂, e, -⟩ := hl
      exact List.mem_cons_of_mem _ (List.mem_map.2 ⟨(u.1, b), by rw [e]; simp, rfl⟩)
end BytesEx

/-- But files can change between the moment in which they are compared with their hashes and the moment in which they are read again, to be used. Here is a VRP of AS 6, though no manifest lists
the hash of a ROA of AS 6. -/
theorem C191_refuted : ∃ st r v, validateTa BytesEx.moving.pki 20 ⟨0, []⟩ ([0], ()) = .done (st, r) ∧ v = .v4 6 ⟨0x0A010000, 16⟩ 24 ∧ v ∈ st.s.vrps ∧
    (∃ s u file, BytesEx.moving.read s u = .content file ∧ BytesEx.roaAs file = some [6]) ∧
    ∀ s u file, BytesEx.moving.read s u = .content file → BytesEx.roaAs file = some [6] →
    ∀ s' w mft m, BytesEx.moving.read s' w = .content mft → mftContent BytesEx.moving.nuls mft = some m → ∀ f ∈ m.files, f.hash ≠ BytesEx.moving.sha256 file := by
  have h := BytesEx.moving_run
  unfold BytesEx.vrpsOf at h
  split at h
  · rename_i st r e
    simp only [Option.some.injEq, Prod.mk.injEq] at h
    refine ⟨st, r, _, e, rfl, by rw [h.1]; exact List.mem_singleton.2 rfl, ⟨4, ([2] ++ extRoa, ()), BytesEx.roa6, rfl, by decide +kernel⟩, ?_⟩
    intro s u file hf has s' w mft m hw hc f hfm
    have key : ∀ file ∈ BytesEx.roa6 :: BytesEx.files.map Prod.snd, BytesEx.roaAs file = some [6] → ∀ mft ∈ BytesEx.roa6 :: BytesEx.files.map Prod.snd,
        ∀ f ∈ ((mftContent BytesEx.moving.nuls mft).map (·.files)).getD [], f.hash ≠ BytesEx.moving.sha256 file := by decide +kernel
    exact key _ (BytesEx.moving_files _ _ _ hf) has _ (BytesEx.moving_files _ _ _ hw) f (by rw [hc]; exact hfm)
  · cases h

end Verif.Sys
