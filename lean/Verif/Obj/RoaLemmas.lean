import Verif.Obj.DerLemmas
import Verif.Res.RoaProps
/-
What the program makes of a ROA that is written as in SpecObj.
-/
namespace Verif.Obj
open Verif.Res (Byte be Heap Resources Vrp GoodHeap)

/-- A VRP of the program, in numbers. -/
def plain : Vrp → VrpSpec
  | .v4 a p m => ⟨a.toNat, false, p.addr.toNat, p.len, m.toNat⟩
  | .v6 a p m => ⟨a.toNat, true, be p.addr, p.len, m.toNat⟩

/-- All addresses of the prefix belong to the certificate. -/
def VrpSpec.CoveredBy (h : Heap) (r : Resources) (v : VrpSpec) : Prop :=
  ∀ n, v.addr ≤ n → n ≤ v.addr + (2 ^ (width v.v6 - v.len) - 1) → if v.v6 then h.ip6s r n else h.ip4s r n

theorem maxLength_enc {w : Nat} {p : RoaPrefix} (hw : w ≤ 128) (hv : p.Valid w) :
    Res.roaMaxLength w p.len (p.maxLength.map intOctets) = some (p.maxLength.getD p.len) := by
  cases hm : p.maxLength with
  | none => rfl
  | some m =>
    obtain ⟨h1, h2⟩ := hv.2.2.2 m hm
    have hi : Res.integer2ulong (intOctets m) = some m := (Res.integer2ulong_iff _ _).2 ⟨(be_intOctets m).symm, by rw [be_intOctets]; omega⟩
    simp only [Option.map_some, Res.roaMaxLength, hi, Option.getD_some]
    rw [if_neg (by omega), if_neg (by omega)]

/-- The VRP of a prefix. -/
def vrpOf (asn : Nat) (v6 : Bool) (p : RoaPrefix) : VrpSpec := ⟨asn, v6, p.addr, p.len, p.maxLength.getD p.len⟩

theorem maxLength_le {w : Nat} {p : RoaPrefix} (hv : p.Valid w) : p.maxLength.getD p.len ≤ w := by
  cases hm : p.maxLength with
  | none => exact hv.1
  | some m => exact (hv.2.2.2 m hm).2

theorem handleRoaAddr_enc {h : Heap} (hg : GoodHeap h) {r : Resources} {asn : Nat} (ha : asn < 2 ^ 32) {v6 : Bool} {p : RoaPrefix} (hv : p.Valid (width v6)) :
    ((vrpOf asn v6 p).CoveredBy h r → ∃ v, Res.handleRoaAddr h r asn ((familyOctets v6).getD 1 0) (p.c (width v6)) = some v ∧ plain v = vrpOf asn v6 p) ∧
    (¬ (vrpOf asn v6 p).CoveredBy h r → Res.handleRoaAddr h r asn ((familyOctets v6).getD 1 0) (p.c (width v6)) = none) := by
  have hml := maxLength_le hv
  have hv' := hv
  obtain ⟨h1, h2, h3, -⟩ := hv
  cases v6 with
  | false =>
    simp only [width, Bool.false_eq_true, if_false] at *
    have hp : Res.prefix4Decode (p.c 32).address = some ⟨BitVec.ofNat 32 p.addr, p.len⟩ := by
      rw [Res.C21_prefix4, BitVec.toNat_ofNat, Nat.mod_eq_of_lt h2]
      exact prefix_encodes (by decide) h1 h2 h3
    have hm : Res.roaMaxLength 32 p.len (p.c 32).maxLength = some (p.maxLength.getD p.len) := maxLength_enc (by decide) hv'
    have hc := Res.contains4_true hg (r := r) (p := ⟨BitVec.ofNat 32 p.addr, p.len⟩) h1 (by rw [BitVec.toNat_ofNat, Nat.mod_eq_of_lt h2]; exact h3)
    simp only [BitVec.toNat_ofNat, Nat.mod_eq_of_lt h2] at hc
    have hcov : (vrpOf asn false p).CoveredBy h r ↔ Res.resourcesContains4 h r ⟨BitVec.ofNat 32 p.addr, p.len⟩ = some true := by
      rw [hc]; rfl
    have hf : Res.handleRoaAddr h r asn ((familyOctets false).getD 1 0) (p.c 32) = Res.handleRoaV4 h r asn (p.c 32) := rfl
    rw [hf]
    unfold Res.handleRoaV4
    rw [hp]
    simp only [hm]
    constructor
    · intro hcv
      rw [hcov.1 hcv]
      refine ⟨_, rfl, ?_⟩
      simp only [plain, vrpOf, BitVec.toNat_ofNat, Nat.mod_eq_of_lt h2, VrpSpec.mk.injEq, true_and]
      exact ⟨by omega, by omega⟩
    · intro hcv
      have := mt hcov.2 hcv
      cases hx : Res.resourcesContains4 h r ⟨BitVec.ofNat 32 p.addr, p.len⟩ with
      | none => rfl
      | some b =>
        cases b with
        | true => exact absurd hx this
        | false => rfl
  | true =>
    simp only [width, if_true] at *
    let addr : List Byte := bitOctets 128 p.addr 128
    have hal : addr.length = 16 := bitOctets_length 128 p.addr 128
    have hab : be addr = p.addr := by
      have := be_range 128 p.addr 16 (by decide) h2
      simpa [addr, bitOctets] using this
    have hp : Res.prefix6Decode (p.c 128).address = some ⟨addr, p.len⟩ := by
      rw [Res.C21_prefix6, hab]
      exact ⟨hal, prefix_encodes (by decide) h1 h2 h3⟩
    have hm : Res.roaMaxLength 128 p.len (p.c 128).maxLength = some (p.maxLength.getD p.len) := maxLength_enc (by decide) hv'
    have hc := Res.contains6_true hg (r := r) (p := ⟨addr, p.len⟩) hal h1 (by rw [hab]; exact h3)
    simp only [hab] at hc
    have hcov : (vrpOf asn true p).CoveredBy h r ↔ Res.resourcesContains6 h r ⟨addr, p.len⟩ = some true := by
      rw [hc]; rfl
    have hf : Res.handleRoaAddr h r asn ((familyOctets true).getD 1 0) (p.c 128) = Res.handleRoaV6 h r asn (p.c 128) := rfl
    rw [hf]
    unfold Res.handleRoaV6
    rw [hp]
    simp only [hm]
    constructor
    · intro hcv
      rw [hcov.1 hcv]
      refine ⟨_, rfl, ?_⟩
      simp only [plain, vrpOf, hab, BitVec.toNat_ofNat, VrpSpec.mk.injEq, true_and]
      exact ⟨by omega, by omega⟩
    · intro hcv
      have := mt hcov.2 hcv
      cases hx : Res.resourcesContains6 h r ⟨addr, p.len⟩ with
      | none => rfl
      | some b =>
        cases b with
        | true => exact absurd hx this
        | false => rfl

theorem roaAddrs_enc {h : Heap} (hg : GoodHeap h) {r : Resources} {asn : Nat} (ha : asn < 2 ^ 32) {v6 : Bool} (l : List RoaPrefix)
    (hv : ∀ p ∈ l, p.Valid (width v6)) :
    ((∀ p ∈ l, (vrpOf asn v6 p).CoveredBy h r) → ∃ vs, Res.roaAddrs h r asn ((familyOctets v6).getD 1 0) (l.map (RoaPrefix.c (width v6))) = (vs, true) ∧
      vs.map plain = l.map (vrpOf asn v6)) ∧
    ((¬ ∀ p ∈ l, (vrpOf asn v6 p).CoveredBy h r) → (Res.roaAddrs h r asn ((familyOctets v6).getD 1 0) (l.map (RoaPrefix.c (width v6)))).2 = false) := by
  induction l with
  | nil => exact ⟨fun _ => ⟨[], rfl, rfl⟩, fun hn => absurd (by simp) hn⟩
  | cons p l ih =>
    obtain ⟨i1, i2⟩ := ih fun q hq => hv q (by simp [hq])
    obtain ⟨a1, a2⟩ := handleRoaAddr_enc hg (r := r) ha (hv p (by simp))
    simp only [List.map_cons, Res.roaAddrs]
    constructor
    · intro hc
      obtain ⟨v, hv1, hv2⟩ := a1 (hc p (by simp))
      obtain ⟨vs, e1, e2⟩ := i1 fun q hq => hc q (by simp [hq])
      rw [hv1, e1]
      exact ⟨v :: vs, rfl, by simp [hv2, e2]⟩
    · intro hc
      by_cases h1 : (vrpOf asn v6 p).CoveredBy h r
      · obtain ⟨v, hv1, hv2⟩ := a1 h1
        rw [hv1]
        simp only
        exact i2 fun hall => hc fun q hq => by
          rcases List.mem_cons.1 hq with rfl | hq
          · exact h1
          · exact hall q hq
      · rw [a2 h1]

theorem roaBlocks_enc {h : Heap} (hg : GoodHeap h) {r : Resources} {asn : Nat} (ha : asn < 2 ^ 32) (l : List RoaFamily)
    (hv : ∀ f ∈ l, f.prefixes ≠ [] ∧ ∀ p ∈ f.prefixes, p.Valid (width f.v6)) :
    ((∀ f ∈ l, ∀ p ∈ f.prefixes, (vrpOf asn f.v6 p).CoveredBy h r) → ∃ vs, Res.roaBlocks h r asn (l.map RoaFamily.c) = (vs, true) ∧
      vs.map plain = l.flatMap fun f => f.prefixes.map (vrpOf asn f.v6)) ∧
    ((¬ ∀ f ∈ l, ∀ p ∈ f.prefixes, (vrpOf asn f.v6 p).CoveredBy h r) → (Res.roaBlocks h r asn (l.map RoaFamily.c)).2 = false) := by
  induction l with
  | nil => exact ⟨fun _ => ⟨[], rfl, rfl⟩, fun hn => absurd (by simp) hn⟩
  | cons f l ih =>
    obtain ⟨i1, i2⟩ := ih fun q hq => hv q (by simp [hq])
    obtain ⟨hne, hvp⟩ := hv f (by simp)
    obtain ⟨a1, a2⟩ := roaAddrs_enc hg (r := r) ha f.prefixes hvp
    have e1 : ¬ (RoaFamily.c f).family.length ≠ 2 := by simp [RoaFamily.c, familyOctets]
    have e2 : ¬ (RoaFamily.c f).family.getD 0 0 ≠ 0 := by simp [RoaFamily.c, familyOctets]
    have e3 : ¬ ((RoaFamily.c f).family.getD 1 0 ≠ 1 ∧ (RoaFamily.c f).family.getD 1 0 ≠ 2) := by
      cases hf : f.v6 <;> simp [RoaFamily.c, familyOctets, hf]
    have e4 : ¬ (RoaFamily.c f).addresses = [] := by simp [RoaFamily.c, hne]
    simp only [List.map_cons, Res.roaBlocks]
    rw [if_neg e1, if_neg e2, if_neg e3, if_neg e4]
    change ((∀ g ∈ f :: l, _) → ∃ vs, (match Res.roaAddrs h r asn ((familyOctets f.v6).getD 1 0) (f.prefixes.map (RoaPrefix.c (width f.v6))) with
        | (vs, false) => (vs, false)
        | (vs, true) => (vs ++ (Res.roaBlocks h r asn (l.map RoaFamily.c)).1, (Res.roaBlocks h r asn (l.map RoaFamily.c)).2)) = (vs, true) ∧ _) ∧
      (_ → (match Res.roaAddrs h r asn ((familyOctets f.v6).getD 1 0) (f.prefixes.map (RoaPrefix.c (width f.v6))) with
        | (vs, false) => (vs, false)
        | (vs, true) => (vs ++ (Res.roaBlocks h r asn (l.map RoaFamily.c)).1, (Res.roaBlocks h r asn (l.map RoaFamily.c)).2)).2 = false)
    constructor
    · intro hc
      obtain ⟨vs, e5, e6⟩ := a1 (hc f (by simp))
      obtain ⟨ws, e7, e8⟩ := i1 fun q hq => hc q (by simp [hq])
      rw [e5, e7]
      exact ⟨vs ++ ws, rfl, by simp [e6, e8]⟩
    · intro hc
      by_cases h1 : ∀ p ∈ f.prefixes, (vrpOf asn f.v6 p).CoveredBy h r
      · obtain ⟨vs, e5, e6⟩ := a1 h1
        rw [e5]
        simp only
        exact i2 fun hall => hc fun q hq => by
          rcases List.mem_cons.1 hq with rfl | hq
          · exact h1
          · exact hall q hq
      · have := a2 h1
        cases hx : Res.roaAddrs h r asn ((familyOctets f.v6).getD 1 0) (f.prefixes.map (RoaPrefix.c (width f.v6))) with
        | mk vs b =>
          rw [hx] at this
          simp only at this
          rw [this]

theorem handleRoa_enc {h : Heap} (hg : GoodHeap h) {r : Resources} {o : RoaSpec} (hv : o.Valid) :
    ((∀ v ∈ o.vrps, v.CoveredBy h r) → ∃ vs, Res.handleRoa h r o.c = (vs, true) ∧ vs.map plain = o.vrps) ∧
    ((¬ ∀ v ∈ o.vrps, v.CoveredBy h r) → (Res.handleRoa h r o.c).2 = false) := by
  obtain ⟨h1, h2, h3⟩ := hv
  have hi : Res.integer2ulong (intOctets o.asn) = some o.asn := (Res.integer2ulong_iff _ _).2 ⟨(be_intOctets o.asn).symm, by rw [be_intOctets]; omega⟩
  have e : Res.handleRoa h r o.c = Res.roaBlocks h r o.asn (o.families.map RoaFamily.c) := by
    unfold Res.handleRoa RoaSpec.c
    simp only [Res.roaVersionBad, hi, Bool.false_eq_true, if_false]
    rw [if_neg (by omega), if_neg (by simp [h2])]
  rw [e]
  have hc : (∀ v ∈ o.vrps, v.CoveredBy h r) ↔ ∀ f ∈ o.families, ∀ p ∈ f.prefixes, (vrpOf o.asn f.v6 p).CoveredBy h r := by
    unfold RoaSpec.vrps vrpOf
    simp only [List.mem_flatMap, List.mem_map]
    constructor
    · intro hh f hf p hp; exact hh _ ⟨f, hf, p, hp, rfl⟩
    · rintro hh v ⟨f, hf, p, hp, rfl⟩; exact hh f hf p hp
  rw [hc]
  exact roaBlocks_enc hg h1 o.families h3

end Verif.Obj
