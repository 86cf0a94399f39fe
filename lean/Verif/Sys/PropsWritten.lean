import Verif.Sys.SpecWritten
import Verif.Sys.SteadyBytes
import Verif.Sys.PropsBytes
import Verif.Sd.PropsMft
/-
C190: what issuers write is published.
-/
namespace Verif.Sys
open Verif.Tree Verif.Res
open Verif.Mft (Uri HasExt extCer extRoa extGbr extCrl)
open Verif.Sd (Object toBeSigned signedObjectDecode mftContent certOf sdC)
open Verif.Cms (IsOid oidManifest oidRoa signedObjectValidate)
open Verif.Obj (RoaSpec MftSpec FileSpec VrpSpec RoaPrefix RoaFamily width plain vrpOf familyOctets intOctets bitOctets)
variable {σ W X C S E : Type}

/-- A signed object that was written is decoded and accepted. -/
theorem written_ok {q : Repo σ W X C S E} {s : σ} {c : C} {xs : List X} {oid : List Nat} {file content : List Byte} {e : E} (hlen : file.length < 2 ^ 30) (hs : ∀ a ∈ oid, a < 2 ^ 32 - 80)
    (h : WrittenObject q s c xs oid file content e) :
    ∃ enc sd, signedObjectDecode q.nuls file = .ok (enc, sd) ∧ sd.eContent = some content ∧ certOf (q.lib s c xs) sd = some e ∧
      signedObjectValidate ((q.lib s c xs).env q.nuls) oid enc sd = .ok := by
  obtain ⟨o, as, rest, rfl, rfl, hp, ho, hc, k1, k2, k3, k4, k5, k6⟩ := h
  have hl : (o.file as).length < 2 ^ 30 := by rw [List.length_append] at hlen; omega
  have hf : Obj.Fits (o.file as) := Nat.lt_trans hl (by decide)
  exact ⟨_, _, Sd.file_decoded (nuls := q.nuls) hf hc (Sd.attrs_good hf hp) rest, rfl, k2, (Sd.validate_enc (q.lib s c xs) q.nuls oid o as hp ho hs hl).2 ⟨k1, e, k2, k3, k4, k5, rfl, k6⟩⟩

/-! ### ROAs -/

theorem stated_enc {asn : Nat} (ha : asn < 2 ^ 32) {v6 : Bool} {p : RoaPrefix} (hv : p.Valid (width v6)) :
    ∃ v, stated asn ((familyOctets v6).getD 1 0) (p.c (width v6)) = some v ∧ plain v = vrpOf asn v6 p ∧ ∀ r : Vals, VrpIn (vrpOf asn v6 p) r ↔ Vrp.In r v := by
  have hml := Obj.maxLength_le hv
  have hv' := hv
  obtain ⟨h1, h2, h3, -⟩ := hv
  cases v6 with
  | false =>
    simp only [width, Bool.false_eq_true, if_false] at *
    have hp : Res.prefix4Decode (p.c 32).address = some ⟨BitVec.ofNat 32 p.addr, p.len⟩ := by
      rw [Res.C21_prefix4, BitVec.toNat_ofNat, Nat.mod_eq_of_lt h2]
      exact Obj.prefix_encodes (by decide) h1 h2 h3
    have hm : Res.roaMaxLength 32 p.len (p.c 32).maxLength = some (p.maxLength.getD p.len) := Obj.maxLength_enc (by decide) hv'
    refine ⟨.v4 (BitVec.ofNat 32 asn) ⟨BitVec.ofNat 32 p.addr, p.len⟩ (BitVec.ofNat 8 (p.maxLength.getD p.len)), ?_, ?_, ?_⟩
    · unfold stated
      rw [if_pos (by decide), hp]
      simp only [Option.bind_some, hm, Option.map_some]
    · simp only [plain, vrpOf, BitVec.toNat_ofNat, Nat.mod_eq_of_lt h2, VrpSpec.mk.injEq, true_and]
      exact ⟨by omega, by omega⟩
    · intro r
      simp only [VrpIn, vrpOf, Vrp.In, BitVec.toNat_ofNat, Nat.mod_eq_of_lt h2, width, Bool.false_eq_true, if_false]
  | true =>
    simp only [width, if_true] at *
    let addr : List Byte := bitOctets 128 p.addr 128
    have hal : addr.length = 16 := Obj.bitOctets_length 128 p.addr 128
    have hab : be addr = p.addr := by
      have := Obj.be_range 128 p.addr 16 (by decide) h2
      simpa [addr, bitOctets] using this
    have hp : Res.prefix6Decode (p.c 128).address = some ⟨addr, p.len⟩ := by
      rw [Res.C21_prefix6, hab]
      exact ⟨hal, Obj.prefix_encodes (by decide) h1 h2 h3⟩
    have hm : Res.roaMaxLength 128 p.len (p.c 128).maxLength = some (p.maxLength.getD p.len) := Obj.maxLength_enc (by decide) hv'
    refine ⟨.v6 (BitVec.ofNat 32 asn) ⟨addr, p.len⟩ (BitVec.ofNat 8 (p.maxLength.getD p.len)), ?_, ?_, ?_⟩
    · unfold stated
      rw [if_neg (by decide), if_pos (by decide), hp]
      simp only [Option.bind_some, hm, Option.map_some]
    · simp only [plain, vrpOf, hab, BitVec.toNat_ofNat, VrpSpec.mk.injEq, true_and]
      exact ⟨by omega, by omega⟩
    · intro r
      simp only [VrpIn, vrpOf, Vrp.In, hab, width, if_true]

/-- The VRPs of a ROA that was written are those that are written in it. -/
theorem roaVrps_enc {r : RoaSpec} (hv : r.Valid) {ee : Vals} (h : ∀ v ∈ r.vrps, VrpIn v ee) : (roaVrps ee r.c).map plain = r.vrps := by
  obtain ⟨h1, h2, h3⟩ := hv
  have hi : be (intOctets r.asn) = r.asn := Obj.be_intOctets r.asn
  have addrs : ∀ v6 (l : List RoaPrefix), (∀ p ∈ l, p.Valid (width v6)) → (∀ p ∈ l, VrpIn (vrpOf r.asn v6 p) ee) →
      ∃ vs : List Vrp, (l.map (RoaPrefix.c (width v6))).map (stated r.asn ((familyOctets v6).getD 1 0)) = vs.map some ∧ vs.map plain = l.map (vrpOf r.asn v6) ∧ ∀ v ∈ vs, Vrp.In ee v := by
    intro v6 l
    induction l with
    | nil => exact fun _ _ => ⟨[], rfl, rfl, by simp⟩
    | cons p l ih =>
      intro a1 a2
      obtain ⟨vs, e1, e2, e3⟩ := ih (fun q hq => a1 q (by simp [hq])) (fun q hq => a2 q (by simp [hq]))
      obtain ⟨v, k1, k2, k3⟩ := stated_enc h1 (a1 p (by simp))
      refine ⟨v :: vs, by simp only [List.map_cons, k1, e1], by simp only [List.map_cons, k2, e2], ?_⟩
      intro w hw
      rcases List.mem_cons.1 hw with rfl | hw
      · exact (k3 ee).1 (a2 p (by simp))
      · exact e3 w hw
  have blocks : ∀ l : List RoaFamily, (∀ f ∈ l, f.prefixes ≠ [] ∧ ∀ p ∈ f.prefixes, p.Valid (width f.v6)) → (∀ f ∈ l, ∀ p ∈ f.prefixes, VrpIn (vrpOf r.asn f.v6 p) ee) →
      ∃ vs : List Vrp, items r.asn (l.map RoaFamily.c) = vs.map some ∧ (vs.map plain = l.flatMap fun f => f.prefixes.map (vrpOf r.asn f.v6)) ∧ ∀ v ∈ vs, Vrp.In ee v := by
    intro l
    induction l with
    | nil => exact fun _ _ => ⟨[], rfl, rfl, by simp⟩
    | cons f l ih =>
      intro a1 a2
      obtain ⟨vs, e1, e2, e3⟩ := ih (fun q hq => a1 q (by simp [hq])) (fun q hq => a2 q (by simp [hq]))
      obtain ⟨ws, g1, g2, g3⟩ := addrs f.v6 f.prefixes (a1 f (by simp)).2 (a2 f (by simp))
      refine ⟨ws ++ vs, ?_, by simp [e2, g2], ?_⟩
      · have hc : ((RoaFamily.c f).family = [0, 1] ∨ (RoaFamily.c f).family = [0, 2]) ∧ (RoaFamily.c f).addresses ≠ [] := by
          refine ⟨?_, ?_⟩
          · cases hf : f.v6 <;> simp [RoaFamily.c, familyOctets, hf]
          · simp [RoaFamily.c, (a1 f (by simp)).1]
        unfold items at e1 ⊢
        simp only [List.map_cons, List.flatMap_cons, List.map_append]
        rw [e1, if_pos hc]
        congr 1
      · intro w hw
        rcases List.mem_append.1 hw with hw | hw
        · exact g3 w hw
        · exact e3 w hw
  obtain ⟨vs, e1, e2, e3⟩ := blocks r.families h3 (by
    intro f hf p hp
    refine h _ ?_
    unfold RoaSpec.vrps
    exact List.mem_flatMap.2 ⟨f, hf, List.mem_map.2 ⟨p, hp, rfl⟩⟩)
  have e4 : roaVrps ee r.c = vs := by
    unfold roaVrps RoaSpec.c
    simp only [hi, true_or, true_and]
    rw [if_pos h1, e1]
    rw [← List.append_nil (vs.map some), takeWhile_all]
    · simp
    · intro o ho
      obtain ⟨v, hv, rfl⟩ := List.mem_map.1 ho
      classical exact decide_eq_true (p := ∃ x, some v = some x ∧ Vrp.In ee x) ⟨v, rfl, e3 v hv⟩
  rw [e4, e2]
  rfl

theorem writtenRoa_asserted {q : Repo σ W X C S E} (hlen : ∀ s u b, q.read s u = .content b → b.length < 2 ^ 30) {chain : List (Anc (Uri × W) X Vals)} {pp : Point (Uri × W) C} {r : RoaSpec}
    (h : WrittenRoa q chain pp r) {v : VrpSpec} (hv : v ∈ r.vrps) : ∃ w exts ee, Asserted q.pki chain pp w exts ee ∧ plain w = v := by
  obtain ⟨u, s, file, more, e, ee, a, h1, h2, h3, h4, h5, h6, h7⟩ := h
  have hl := hlen _ _ _ h3
  obtain ⟨enc, sd, k1, k2, k3, k4⟩ := written_ok hl (by decide) h4
  have hc := content_length k1 k2
  have hroa := Obj.decodeRoa_enc h5 (show Obj.Fits r.enc by unfold Obj.Fits; rw [List.length_append] at hc; omega) (q.nuls Asn.routeOriginAttestationTy (r.enc ++ more)) more
  have hm := roaVrps_enc h5 h7
  rw [← hm] at hv
  obtain ⟨w, hw, rfl⟩ := List.mem_map.1 hv
  refine ⟨w, q.eeExts e, ee, ⟨u, ⟨s, []⟩, ⟨s, file⟩, ⟨s, file⟩, Sd.roaFile (q.lib s pp.crl (chain.map Anc.x)) ⟨q.eePolicy, q.eeExts, fun e => refsOk (q.eeRefs e) pp.lists.crl.1 u.1⟩ q.nuls true file,
    r.c, a, h1, h2, ?_, rfl, ?_, ?_, ?_, ?_, hw⟩, rfl⟩
  · show q.roaDecode ⟨s, []⟩ u = _
    unfold Repo.roaDecode Repo.readFile
    simp only [h3, k1, k2, hroa]
    rfl
  · rw [Sd.roaFile_ok _ _ _ k1, k2]
    simp only [hroa]
    rfl
  · rw [Sd.roaFile_ok _ _ _ k1]
    simp only [Bool.true_and, decide_eq_true_eq]
    exact k4
  · rw [Sd.roaFile_ok _ _ _ k1]
    simp only [k3]
  · rw [Sd.roaFile_ok _ _ _ k1]
    simp only [k3]
    exact h6

/-! ### Manifests -/

theorem files_length (m : MftSpec) : m.files.length ≤ m.enc.length := by
  have h1 : ∀ l : List FileSpec, l.length ≤ (l.flatMap FileSpec.enc).length := by
    intro l
    induction l with
    | nil => simp
    | cons f l ih =>
      simp only [List.flatMap_cons, List.length_cons, List.length_append]
      have : 1 ≤ f.enc.length := by simp [FileSpec.enc, Obj.derSeq, Obj.tlv]
      omega
  have h2 := h1 m.files
  unfold MftSpec.enc
  simp only [Obj.derSeq, Obj.tlv, List.length_append, List.length_cons]
  omega

/-- A manifest that was written is accepted; its files may be in another order. -/
theorem writtenMft_ok {q : Repo σ W X C S E} (hlen : ∀ s u b, q.read s u = .content b → b.length < 2 ^ 30) (t1 : q.notFound = .error) (t2 : q.mismatch = .error) (t3 : q.stale = .error)
    {s s' : σ} {sia : S} {d u : Uri × W} {lists : Lists (Uri × W)} {c : C} {xs : List X} {e : E} (hu : q.manifest sia d = some u) (h : WrittenMft q s s' u lists c xs e) (b : List Byte) :
    ∃ file lists', Alike lists lists' ∧ q.mftDecode ⟨s, b⟩ sia d = (⟨s, file⟩, some lists') ∧
      q.mftFile ⟨s', file⟩ sia d lists' c xs = (⟨s', file⟩, ⟨true, q.eePolicy e, q.eeExts e⟩) := by
  obtain ⟨m, file, more, us, crl, d0, d1, n, k1, k2, k3, k4, k5, k6, k7, k8, k9, k10, k11, rfl, k13, k14⟩ := h
  have hl := hlen _ _ _ k1
  obtain ⟨enc, sd, w1, w2, w3, w4⟩ := written_ok hl (by decide) k2
  have hx := content_length w1 w2
  have hn : m.files.length < 2 ^ 31 := by
    have := files_length m
    rw [List.length_append] at hx
    omega
  obtain ⟨o, as, rest, rfl, ho, hp, hty, hc, -⟩ := id k2
  have hfl : (o.file as).length < 2 ^ 30 := by rw [List.length_append] at hl; omega
  obtain ⟨c1, c2⟩ := Sd.C188_manifest (fun _ => q.lib s' c xs) q.eeRefs q.nuls m k3 hn k4 d0 d1 n k5 k6 (q.now s') k7 (q.mftEnv s u) t1 t2 t3 (q.rnd s) (fun _ => true) u.1 more o ho hty hc as hp
    hfl rest us
  obtain ⟨pp, hpp⟩ := c1.2 (by
    have hv := (Sd.validate_enc (q.lib s' c xs) q.nuls oidManifest o as hp hty (by decide) hfl).1 (by
      have := Sd.file_decoded (nuls := q.nuls) (o := o) (as := as) (Nat.lt_trans hfl (by decide)) hc (Sd.attrs_good (Nat.lt_trans hfl (by decide)) hp) rest
      rw [w1] at this
      cases this
      exact w4)
    obtain ⟨z, e', y1, y2, y3, y4, y5, y6⟩ := hv
    have : e' = e := by
      have hd := Sd.file_decoded (nuls := q.nuls) (o := o) (as := as) (Nat.lt_trans hfl (by decide)) hc (Sd.attrs_good (Nat.lt_trans hfl (by decide)) hp) rest
      rw [w1] at hd
      cases hd
      exact Option.some.inj (Eq.trans (Eq.symm y1) w3)
    subst this
    exact ⟨us, crl, e', k10, k11, rfl, z, y1, y2, y3, y4, y5, y6, k13, k14, k8, k9⟩)
  obtain ⟨p1, p2, p3, crl', p4, p5⟩ := c2 pp hpp k10
  rw [k11] at p5
  cases p5
  obtain ⟨mm, crl', refs, g1, g2, g3, -, g5, g6, g7, g8⟩ := (Mft.C89_used _ _ _ _ _ _ _ _).1 hpp
  rw [p4] at g3
  cases g3
  refine ⟨_, ⟨pp.certs.map (·, u.2), (crl, u.2), pp.roas.map (·, u.2), pp.gbrs.map (·, u.2)⟩, ⟨(p1.symm).map _, rfl, (p2.symm).map _, (p3.symm).map _⟩, mftDecode_of hu k1 g1 g2 p4, ?_⟩
  unfold Repo.mftFile
  congr 1
  unfold Repo.eeFile
  simp only
  rw [w1]
  simp only
  rw [w3]
  simp only
  rw [hu, g1]
  simp only
  rw [w4, (Mft.validateManifest_iff q.stale _ _).2 g6, (refsOk_iff).2 ⟨k13, k14⟩]
  rfl

theorem written_ca {q : Repo σ W X C S E} (hlen : ∀ s u b, q.read s u = .content b → b.length < 2 ^ 30) (t1 : q.notFound = .error) (t2 : q.mismatch = .error) (t3 : q.stale = .error)
    {issuers : List (Anc (Uri × W) X Vals)} {parent : Option (Point (Uri × W) C)} {u : Uri × W} {a : Anc (Uri × W) X Vals} {pp : Point (Uri × W) C}
    (h : CaBy q (WrittenMft q) issuers parent u a pp) : ∃ pp', AlikePoint pp pp' ∧ CaOk q.pki issuers parent u a pp' := by
  obtain ⟨s₀, s₁, s₂, s₃, s₄, s₅, s₇, t, sia, d, w, e, h0, h1, h2, h2', h3, h4, h5, h6, h7, h8, h9, h10, h11, v, h12⟩ := h
  obtain ⟨file, lists', a1, a2, a3⟩ := writtenMft_ok hlen t1 t2 t3 h9 h11 []
  refine ⟨⟨lists', pp.crl⟩, ⟨a1, rfl⟩, ⟨s₀, []⟩, ⟨s₁, []⟩, ⟨s₂, []⟩, ⟨s₃, []⟩, ⟨s₄, []⟩, ⟨s₅, []⟩, ⟨s₅, file⟩, ⟨s₇, file⟩, ⟨s₇, file⟩, t, sia, d, ⟨true, q.eePolicy e, q.eeExts e⟩, h0, ?_, ?_, ?_, h3, h4,
    ?_, ?_, ?_, h8, a2, ?_, a3, rfl, v, h12⟩
  · show keep (q.load · u) ⟨s₀, []⟩ = _
    simp only [keep, h1]
  · intro p hp
    show keep (q.chainOk · a.x p.crl (issuers.map Anc.x)) ⟨s₁, []⟩ = _
    simp only [keep, h2 p hp]
  · intro hp
    rw [h2' hp]
  · show keep (q.profileOk · a.x t) ⟨s₂, []⟩ = _
    simp only [keep, h5]
  · show keep (q.extensions · a.x t (parent.map (·.lists.crl))) ⟨s₃, []⟩ = _
    simp only [keep, h6]
  · show keep (q.download · sia) ⟨s₄, []⟩ = _
    simp only [keep, h7]
  · show keep (q.crlLoad · lists'.crl) ⟨s₅, file⟩ = _
    rw [← a1.crl]
    simp only [keep, h10]

theorem written_certified {q : Repo σ W X C S E} (hlen : ∀ s u b, q.read s u = .content b → b.length < 2 ^ 30) (t1 : q.notFound = .error) (t2 : q.mismatch = .error) (t3 : q.stale = .error)
    {root : Uri × W} {chain : List (Anc (Uri × W) X Vals)} {pp : Point (Uri × W) C} (h : CertifiedBy q (WrittenMft q) root chain pp) : ∃ pp', AlikePoint pp pp' ∧ Certified q.pki root chain pp' := by
  induction h with
  | root h =>
    obtain ⟨pp', k1, k2⟩ := written_ca hlen t1 t2 t3 h
    exact ⟨pp', k1, .root k2⟩
  | listed _ hu h ih =>
    obtain ⟨p', k1, k2⟩ := ih
    obtain ⟨pp', k3, k4⟩ := written_ca hlen t1 t2 t3 h
    exact ⟨pp', k3, .listed k2 (k1.1.certs.subset hu) (k4.alike k1)⟩

/-- **C190.** The files of a repository do not change during the run, and missing or different files and old manifests are not tolerated. There is a chain of accepted certificates from the trust anchor's, whose
manifests were written by their issuers, each listing the next certificate; the last one lists a ROA that was written by its issuer. Then all of the VRPs that are written in the ROA are published. -/
theorem C190_written (q : Repo σ W X C S E) (hlen : ∀ s u b, q.read s u = .content b → b.length < 2 ^ 30) (hs : SteadyRepo q) (t1 : q.notFound = .error) (t2 : q.mismatch = .error)
    (t3 : q.stale = .error) {fuel : Nat} {s : Loaded σ} {root : Uri × W} {st : St (Mem (Loaded σ)) (Uri × W) X C Resources} {res : TalRes} (hroot : q.isCert root = true)
    (h : validateTa q.pki fuel s root = .done (st, res)) {chain : List (Anc (Uri × W) X Vals)} {pp : Point (Uri × W) C} (hc : CertifiedBy q (WrittenMft q) root chain pp)
    (hd : chain.length ≤ q.maxDepth) {r : RoaSpec} (hr : WrittenRoa q chain pp r) {v : VrpSpec} (hv : v ∈ r.vrps) : ∃ w ∈ st.s.vrps, plain w = v := by
  obtain ⟨pp', k1, k2⟩ := written_certified hlen t1 t2 t3 hc
  obtain ⟨w, exts, ee, k3, k4⟩ := writtenRoa_asserted hlen hr hv
  exact ⟨w, (C166_exactly q.pki (hs.steady hlen) hroot h w).2 ⟨chain, pp', exts, ee, k2, hd, k3.alike k1⟩, k4⟩

end Verif.Sys
