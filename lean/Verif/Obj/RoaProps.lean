import Verif.Obj.RoaLemmas
import Verif.Obj.ShapeProps
/-
C176: routers are told what the issuers of ROAs say. C177: bits after the length of a prefix.
-/
namespace Verif.Obj
open Verif.Res (Byte be Heap Resources Vrp VReach RoaFile roaTraverse certificateGetResources)
open Verif.Asn (Nul)

/-! ### C176 -/

/-- From the bytes in the file to the VRPs. The ROA of a correct signed object, whose certificate has resources, is accepted if (and only if) all
its prefixes belong to the certificate; and then it yields exactly one VRP for each prefix, in order, with the AS number, the prefix and the
maximum length that the issuer wrote. -/
theorem C176_roa (h : Heap) (top : Resources) (st : List Resources) (hr : VReach (h, top :: st)) (o : RoaSpec) (hv : o.Valid)
    (hl : o.enc.length < 2 ^ 62) (nul : Nul) (rest : List Byte) (f : RoaFile) (hf : f.content = (decodeRoa nul (o.enc ++ rest)).toOption)
    (henv : f.envelopeOk = true) (hrefs : f.refsOk = true) (h' : Heap) (ee : Resources)
    (hee : certificateGetResources h (Resources.create f.policy false) (some top) f.exts .ee = (h', ee, .ok)) :
    ((∀ v ∈ o.vrps, v.CoveredBy h' ee) → ∃ vs, roaTraverse h top f = (h', vs, .ok) ∧ vs.map plain = o.vrps) ∧
    ((¬ ∀ v ∈ o.vrps, v.CoveredBy h' ee) → (roaTraverse h top f).2.2 ≠ .ok) := by
  have hg := (Res.getResources_out (Res.reach_inv hr) hee).1.goodHeap
  rw [decodeRoa_enc hv hl] at hf
  simp only [Got.toOption] at hf
  obtain ⟨a1, a2⟩ := handleRoa_enc hg (r := ee) hv
  unfold roaTraverse
  rw [hf]
  simp only [henv, Bool.not_true, Bool.false_eq_true, if_false, hee, hrefs, if_true]
  constructor
  · intro hc
    obtain ⟨vs, e1, e2⟩ := a1 hc
    exact ⟨vs, by rw [e1], e2⟩
  · intro hc
    have := a2 hc
    cases hx : Res.handleRoa h' ee o.c with
    | mk vs b =>
      rw [hx] at this
      simp only at this
      simp [this]

/-- AS 64496 may originate 10.1.0.0/16 and what is in it, up to /24; and 10.2.0.0/16. -/
def Ex.roa : RoaSpec := ⟨64496, [⟨false, [⟨0x0A010000, 16, some 24⟩, ⟨0x0A020000, 16, none⟩]⟩]⟩

theorem Ex.roa_valid : Ex.roa.Valid := by
  refine ⟨by decide, by decide, fun f hf => ?_⟩
  simp only [Ex.roa, List.mem_singleton] at hf
  subst hf
  refine ⟨by decide, fun p hp => ?_⟩
  simp only [List.mem_cons, List.not_mem_nil, or_false] at hp
  rcases hp with rfl | rfl <;> exact ⟨by decide, by decide, by decide, by simp [width]⟩

theorem Ex.octets_64496 : octets 64496 = [0xFB, 0xF0] := by simp [octets]
theorem Ex.octets_24 : octets 24 = [24] := by simp [octets]

theorem Ex.roa_enc : Ex.roa.enc = [0x30, 32, 2, 3, 0, 0xFB, 0xF0, 0x30, 25, 0x30, 23, 4, 2, 0, 1, 0x30, 17,
    0x30, 8, 3, 3, 0, 10, 1, 2, 1, 24, 0x30, 5, 3, 3, 0, 10, 2] := by
  unfold RoaSpec.enc Ex.roa derInt intOctets
  rw [Ex.octets_64496]
  simp only [List.flatMap_cons, List.flatMap_nil, RoaFamily.enc, RoaPrefix.enc, derInt, intOctets, Ex.octets_24]
  decide

theorem Ex.roa_vrps : Ex.roa.vrps = [⟨64496, false, 0x0A010000, 16, 24⟩, ⟨64496, false, 0x0A020000, 16, 16⟩] := rfl

def Ex.roaFile (r : List Byte) : RoaFile := ⟨(decodeRoa .never r).toOption, true, .rfc6484, Res.exEe, true⟩

/-- The end entity certificate inherits 10.0.0.0/8, so it covers both prefixes. -/
theorem Ex.roa_covered : ∀ v ∈ Ex.roa.vrps, v.CoveredBy Res.exCa.1 ⟨some 0, none, none, .rfc6484, false⟩ := by
  rw [Ex.roa_vrps]
  intro v hv n h1 h2
  have key : 0x0A000000 ≤ n ∧ n ≤ 0x0AFFFFFF := by
    simp only [List.mem_cons, List.not_mem_nil, or_false] at hv
    rcases hv with rfl | rfl <;> simp [width] at h1 h2 <;> omega
  have : v.v6 = false := by
    simp only [List.mem_cons, List.not_mem_nil, or_false] at hv
    rcases hv with rfl | rfl <;> rfl
  rw [this]
  refine ⟨[⟨0x0A000000, 0x0AFFFFFF⟩], rfl, ?_⟩
  simpa [Res.Covered, Res.Rng.Has, Res.R32.rng] using key

theorem Ex.roa_accepted : ∃ vs, roaTraverse Res.exCa.1 Res.exCa.2 (Ex.roaFile (Ex.roa.enc ++ [])) = (Res.exCa.1, vs, .ok) ∧
    vs.map plain = [⟨64496, false, 0x0A010000, 16, 24⟩, ⟨64496, false, 0x0A020000, 16, 16⟩] :=
  (C176_roa _ _ _ Res.ex_reach Ex.roa Ex.roa_valid (by rw [Ex.roa_enc]; decide) .never [] (Ex.roaFile (Ex.roa.enc ++ []))
    rfl rfl rfl _ _ (Res.exEe_res _)).1 Ex.roa_covered

/-! ### C177 -/

/-- A ROA of AS 2 whose prefix is 10.1.0.0/15: the last bit of 10.1 is not part of the prefix, but it is set. -/
def Ex.dirty : List Byte := derSeq (derInt 2 ++ derSeq (derSeq (derOctets [0, 1] ++ derSeq (derSeq (tlv 3 [1, 10, 1])))))

theorem Ex.dirty_bytes : Ex.dirty = [0x30, 20, 2, 1, 2, 0x30, 15, 0x30, 13, 4, 2, 0, 1, 0x30, 7, 0x30, 5, 3, 3, 1, 10, 1] := by
  have : octets 2 = [2] := by simp [octets]
  unfold Ex.dirty derInt intOctets
  rw [this]
  decide

/-- C177 is false: this ROA is accepted, as 10.0.0.0/15. -/
theorem C177_refuted : ∃ h top st, VReach (h, top :: st) ∧ roaTraverse h top (Ex.roaFile Ex.dirty) =
    (h, [.v4 2 ⟨0x0A000000, 15⟩ 15], .ok) := by
  refine ⟨_, _, _, Res.ex_reach, ?_⟩
  have hd : decodeRoa .never Ex.dirty = .ok ⟨none, [2], [⟨[0, 1], [⟨⟨[10, 0], 1⟩, none⟩]⟩]⟩ := by
    rw [Ex.dirty_bytes]
    unfold decodeRoa
    have : Asn.asn1Decode .never Asn.routeOriginAttestationTy Asn.routeOriginAttestationCon
        [0x30, 20, 2, 1, 2, 0x30, 15, 0x30, 13, 4, 2, 0, 1, 0x30, 7, 0x30, 5, 3, 3, 1, 10, 1] =
        .ok (.seq [none, some (.bytes [2]), some (.list [.seq [some (.bytes [0, 1]), some (.list [.seq [some (.bits [10, 0] 1), none]])]])]) :=
      Asn.asn1Decode_of (Asn.R.eq_ex (by decide +kernel)) rfl
    rw [this]
    rfl
  have hv : Res.handleRoaAddr Res.exCa.1 ⟨some 0, none, none, .rfc6484, false⟩ 2 1 ⟨⟨[10, 0], 1⟩, none⟩ = some (.v4 2 ⟨0x0A000000, 15⟩ 15) := by
    have hp : Res.prefix4Decode ⟨[10, 0], 1⟩ = some ⟨0x0A000000, 15⟩ := by decide
    have hm : Res.roaMaxLength 32 15 none = some 15 := by decide
    have hc : Res.resourcesContains4 Res.exCa.1 ⟨some 0, none, none, .rfc6484, false⟩ ⟨0x0A000000, 15⟩ = some true := by
      rw [Res.exContains _ _ rfl]; decide
    simp only [Res.handleRoaAddr, Res.handleRoaV4, hp, hm, hc, if_true]
    rfl
  have hb : Res.handleRoa Res.exCa.1 ⟨some 0, none, none, .rfc6484, false⟩ ⟨none, [2], [⟨[0, 1], [⟨⟨[10, 0], 1⟩, none⟩]⟩]⟩ =
      ([.v4 2 ⟨0x0A000000, 15⟩ 15], true) := by
    have hi : Res.integer2ulong [2] = some 2 := by decide
    have ha : Res.roaAddrs Res.exCa.1 ⟨some 0, none, none, .rfc6484, false⟩ 2 (([0, 1] : List Byte).getD 1 0) [⟨⟨[10, 0], 1⟩, none⟩] =
        ([.v4 2 ⟨0x0A000000, 15⟩ 15], true) := by
      change (match Res.handleRoaAddr Res.exCa.1 ⟨some 0, none, none, .rfc6484, false⟩ 2 1 ⟨⟨[10, 0], 1⟩, none⟩ with | none => _ | some v => _) = _
      rw [hv]
      rfl
    simp only [Res.handleRoa, Res.roaVersionBad, hi, Res.roaBlocks, ha]
    simp
  simp only [roaTraverse, Ex.roaFile, hd, Got.toOption, Bool.not_true, Bool.false_eq_true, if_false, Res.exEe_res, hb, if_true]

/-- What holds: an accepted ROA begins with an encoding of a ROA (BER: the bits after the length of a BIT STRING can be anything, and count as
zeros), and each of the VRPs is what one prefix of that ROA says, in order (unless a number is negative: C71). -/
theorem C177_ber_partial (h h' : Heap) (top : Resources) (st : List Resources) (hr : VReach (h, top :: st)) (nul : Nul) (s : List Byte) (f : RoaFile)
    (hf : f.content = (decodeRoa nul s).toOption) (vs : List Vrp) (he : roaTraverse h top f = (h', vs, .ok)) :
    ∃ v b rest roa, s = b ++ rest ∧ Asn.Ber Asn.routeOriginAttestationTy .own v b ∧ roaOf v = some roa ∧
      (0 ≤ Res.intVal roa.asId → (∀ x ∈ roa.addrs, ∀ m, x.2.maxLength = some m → 0 ≤ Res.intVal m) →
        List.Forall₂ (fun (x : Byte × Res.RoaAddr) v => Res.Denotes roa.asId x.1 x.2 v) roa.addrs vs) := by
  obtain ⟨roa, hroa, hd⟩ := Res.C71_meaning_partial h h' top st hr f vs he
  rw [hf] at hroa
  unfold decodeRoa at hroa
  cases hx : Asn.asn1Decode nul Asn.routeOriginAttestationTy Asn.routeOriginAttestationCon s with
  | ok v =>
    rw [hx] at hroa
    simp only [got] at hroa
    cases hy : roaOf v with
    | none => rw [hy] at hroa; cases hroa
    | some r =>
      rw [hy] at hroa
      cases hroa
      obtain ⟨b, rest, e, hb⟩ := Asn.C171_ber _ Asn.Ex.roa_root nul s v hx
      exact ⟨v, b, rest, roa, e, hb, hy, hd⟩
  | _ => rw [hx] at hroa; cases hroa

example : ∃ v b rest roa, Ex.roa.enc ++ [] = b ++ rest ∧ Asn.Ber Asn.routeOriginAttestationTy .own v b ∧ roaOf v = some roa :=
  Ex.roa_accepted.elim fun vs he =>
    let ⟨v, b, rest, roa, h1, h2, h3, _⟩ := C177_ber_partial _ _ _ _ Res.ex_reach .never _ (Ex.roaFile (Ex.roa.enc ++ [])) rfl vs he.1
    ⟨v, b, rest, roa, h1, h2, h3⟩

end Verif.Obj
