import Verif.Res.ModelRoa
import Verif.Res.TrimProps
import Mathlib.Data.List.Forall2
/-
C28: VRPs are well-formed and covered by the certificate. C29: rejected ROAs. C71: a VRP says what the ROA says.
-/
namespace Verif.Res

/-! ### Specification -/

/-- AS number of a VRP. -/
def Vrp.asn : Vrp → Nat
  | .v4 a _ _ => a.toNat
  | .v6 a _ _ => a.toNat

/-- RFC 6482, 6811: the prefix has no bits beyond its length, and prefix length ≤ max length ≤ address size. -/
def Vrp.WellFormed : Vrp → Prop
  | .v4 _ p m => p.len ≤ m.toNat ∧ m.toNat ≤ 32 ∧ 2 ^ (32 - p.len) ∣ p.addr.toNat
  | .v6 _ p m => p.len ≤ m.toNat ∧ m.toNat ≤ 128 ∧ p.addr.length = 16 ∧ 2 ^ (128 - p.len) ∣ be p.addr

/-- All addresses of the prefix of the VRP belong to the certificate. -/
def Vrp.CoveredBy (h : Heap) (r : Resources) : Vrp → Prop
  | .v4 _ p _ => ∀ n, p.addr.toNat ≤ n → n ≤ p.addr.toNat + (2 ^ (32 - p.len) - 1) → h.ip4s r n
  | .v6 _ p _ => ∀ n, be p.addr ≤ n → n ≤ be p.addr + (2 ^ (128 - p.len) - 1) → h.ip6s r n

/-- The VRP is the one the ROA address stands for: family 1 or 2, prefix as encoded, max length as given (the prefix
length when absent), AS number as in the ROA. -/
def Denotes (asId : List Byte) (family : Byte) (a : RoaAddr) : Vrp → Prop
  | .v4 asn p m => family = 1 ∧ intVal asId = asn.toNat ∧ EncodesPrefix 32 a.address p.addr.toNat p.len ∧
    match a.maxLength with
    | none => m.toNat = p.len
    | some b => intVal b = m.toNat
  | .v6 asn p m => family = 2 ∧ intVal asId = asn.toNat ∧ EncodesPrefix 128 a.address (be p.addr) p.len ∧
    match a.maxLength with
    | none => m.toNat = p.len
    | some b => intVal b = m.toNat

/-- All addresses of a ROA with their family. -/
def Roa.addrs (roa : Roa) : List (Byte × RoaAddr) := roa.blocks.flatMap (fun b => b.addresses.map (fun a => (b.family.getD 1 0, a)))

/-! ### Proofs -/

theorem roaMaxLength_some {w len n : Nat} {m : Option (List Byte)} (hl : len ≤ w) (h : roaMaxLength w len m = some n) :
    len ≤ n ∧ n ≤ w ∧ (m = none → n = len) ∧ (∀ b, m = some b → be b = n) := by
  cases m with
  | none => cases h; exact ⟨Nat.le_refl _, hl, fun _ => rfl, by simp⟩
  | some b =>
    unfold roaMaxLength at h
    simp only at h
    split at h
    · cases h
    · rename_i k hk
      have := (integer2ulong_iff b k).1 hk
      split_ifs at h
      cases h
      refine ⟨by omega, by omega, by simp, ?_⟩
      intro c hc; cases hc; omega

theorem pton4_rng {p : Prefix4} (h1 : p.len ≤ 32) (h2 : 2 ^ (32 - p.len) ∣ p.addr.toNat) :
    (pton4 p).rng = ⟨p.addr.toNat, p.addr.toNat + (2 ^ (32 - p.len) - 1)⟩ := by
  simp only [R32.rng, pton4, prefix4_max h1 h2]

theorem ptor6_rng {p : Prefix6} (h0 : p.addr.length = 16) (h1 : p.len ≤ 128) (h2 : 2 ^ (128 - p.len) ∣ be p.addr) :
    (ptor6 p).rng = ⟨be p.addr, be p.addr + (2 ^ (128 - p.len) - 1)⟩ := by
  simp only [R6.rng, ptor6, prefix6_max h0 h1 h2]

theorem contains4_true {h : Heap} (hg : GoodHeap h) {r : Resources} {p : Prefix4} (h1 : p.len ≤ 32)
    (h2 : 2 ^ (32 - p.len) ∣ p.addr.toNat) :
    resourcesContains4 h r p = some true ↔
      ∀ n, p.addr.toNat ≤ n → n ≤ p.addr.toNat + (2 ^ (32 - p.len) - 1) → h.ip4s r n := by
  have hr := pton4_rng h1 h2
  have hle : (pton4 p).rng.min ≤ (pton4 p).rng.max := by rw [hr]; simp only; omega
  unfold resourcesContains4 Heap.ip4s
  cases hd : h.h4.deref r.ip4 with
  | none =>
    simp only [sarrayContains, Option.some.injEq, Bool.false_eq_true, false_iff]
    intro hall
    obtain ⟨l, hl, _⟩ := hall p.addr.toNat (Nat.le_refl _) (by omega)
    cases hl
  | some l =>
    have hm : l ∈ h.h4 := by
      cases hp : r.ip4 with
      | none => rw [hp] at hd; cases hd
      | some i => rw [hp] at hd; exact List.mem_of_getElem? hd
    obtain ⟨b, h3, h4⟩ := contains_iff law32 (hg.g4 l hm).1 (hg.g4 l hm).2 (x := pton4 p) trivial hle
    rw [h3, Option.some.injEq, h4, hr]
    simp [Rng.Has]

theorem contains6_true {h : Heap} (hg : GoodHeap h) {r : Resources} {p : Prefix6} (h0 : p.addr.length = 16)
    (h1 : p.len ≤ 128) (h2 : 2 ^ (128 - p.len) ∣ be p.addr) :
    resourcesContains6 h r p = some true ↔
      ∀ n, be p.addr ≤ n → n ≤ be p.addr + (2 ^ (128 - p.len) - 1) → h.ip6s r n := by
  have hr := ptor6_rng h0 h1 h2
  have hle : (ptor6 p).rng.min ≤ (ptor6 p).rng.max := by rw [hr]; simp only; omega
  unfold resourcesContains6 Heap.ip6s
  cases hd : h.h6.deref r.ip6 with
  | none =>
    simp only [sarrayContains, Option.some.injEq, Bool.false_eq_true, false_iff]
    intro hall
    obtain ⟨l, hl, _⟩ := hall (be p.addr) (Nat.le_refl _) (by omega)
    cases hl
  | some l =>
    have hm : l ∈ h.h6 := by
      cases hp : r.ip6 with
      | none => rw [hp] at hd; cases hd
      | some i => rw [hp] at hd; exact List.mem_of_getElem? hd
    obtain ⟨b, h3, h4⟩ := contains_iff law6 (hg.g6 l hm).1 (hg.g6 l hm).2 (x := ptor6 p)
      ⟨h0, by simp [ptor6, suffixMask_length h0]⟩ hle
    rw [h3, Option.some.injEq, h4, hr]
    simp [Rng.Has]

/-- What one address yields. -/
theorem handleRoaAddr_spec {h : Heap} (hg : GoodHeap h) {r : Resources} {asn : Nat} (hasn : asn < 2 ^ 32) {family : Byte}
    {a : RoaAddr} {v : Vrp} (hv : handleRoaAddr h r asn family a = some v) :
    v.asn = asn ∧ v.WellFormed ∧ v.CoveredBy h r ∧
    (∀ asId, intVal asId = asn → (∀ b, a.maxLength = some b → 0 ≤ intVal b) → Denotes asId family a v) := by
  unfold handleRoaAddr at hv
  split at hv
  · rename_i hf
    unfold handleRoaV4 at hv
    split at hv
    · cases hv
    · rename_i p hp
      split at hv
      · cases hv
      · rename_i n hn
        split at hv
        · rename_i hc
          cases hv
          obtain ⟨h1, h2⟩ := prefix4_canonical hp
          obtain ⟨h3, h4, h5⟩ := roaMaxLength_some h1 hn
          have hm : (BitVec.ofNat 8 n).toNat = n := by simp [BitVec.toNat_ofNat]; omega
          have ha : (BitVec.ofNat 32 asn).toNat = asn := by simp [BitVec.toNat_ofNat]; omega
          refine ⟨ha, ⟨by omega, by omega, h2⟩, (contains4_true hg h1 h2).1 hc, ?_⟩
          intro asId he hml
          refine ⟨hf, by omega, (C21_prefix4 _ _ _).1 hp, ?_⟩
          rw [hm]
          cases hx : a.maxLength with
          | none => exact h5.1 hx
          | some b => simp only; rw [intVal_nonneg (hml b hx), h5.2 b hx]
        · cases hv
  · split at hv
    · rename_i hf
      unfold handleRoaV6 at hv
      split at hv
      · cases hv
      · rename_i p hp
        split at hv
        · cases hv
        · rename_i n hn
          split at hv
          · rename_i hc
            cases hv
            obtain ⟨h0, h1, h2⟩ := prefix6_canonical hp
            obtain ⟨h3, h4, h5⟩ := roaMaxLength_some h1 hn
            have hm : (BitVec.ofNat 8 n).toNat = n := by simp [BitVec.toNat_ofNat]; omega
            have ha : (BitVec.ofNat 32 asn).toNat = asn := by simp [BitVec.toNat_ofNat]; omega
            refine ⟨ha, ⟨by omega, by omega, h0, h2⟩, (contains6_true hg h0 h1 h2).1 hc, ?_⟩
            intro asId he hml
            refine ⟨hf, by omega, ((C21_prefix6 _ _ _).1 hp).2, ?_⟩
            rw [hm]
            cases hx : a.maxLength with
            | none => exact h5.1 hx
            | some b => simp only; rw [intVal_nonneg (hml b hx), h5.2 b hx]
          · cases hv
    · cases hv

/-- The VRPs of a loop are those of a prefix of the addresses; all of them when the loop ended. -/
theorem roaAddrs_spec (h : Heap) (r : Resources) (asn : Nat) (family : Byte) (l : List RoaAddr) :
    ∃ k, (l.take k).map (handleRoaAddr h r asn family) = (roaAddrs h r asn family l).1.map some ∧
      ((roaAddrs h r asn family l).2 = true → l.map (handleRoaAddr h r asn family) = (roaAddrs h r asn family l).1.map some) ∧
      ((roaAddrs h r asn family l).2 = false → k < l.length ∧ ∀ a, l[k]? = some a → handleRoaAddr h r asn family a = none) := by
  induction l with
  | nil => exact ⟨0, by simp [roaAddrs]⟩
  | cons a l ih =>
    unfold roaAddrs
    cases hv : handleRoaAddr h r asn family a with
    | none => exact ⟨0, by simp [hv]⟩
    | some v =>
      obtain ⟨k, h1, h2, h3⟩ := ih
      refine ⟨k + 1, by simp [hv, h1], ?_, ?_⟩
      · intro ht; simp only [List.map_cons, hv]; rw [h2 ht]
      · intro hf
        obtain ⟨h4, h5⟩ := h3 hf
        exact ⟨by simpa using h4, by simpa using h5⟩

theorem roaAddrs_mem {h : Heap} {r : Resources} {asn : Nat} {family : Byte} {l : List RoaAddr} {v : Vrp}
    (hv : v ∈ (roaAddrs h r asn family l).1) : ∃ a ∈ l, handleRoaAddr h r asn family a = some v := by
  obtain ⟨k, h1, _, _⟩ := roaAddrs_spec h r asn family l
  have : some v ∈ (roaAddrs h r asn family l).1.map some := List.mem_map_of_mem hv
  rw [← h1] at this
  obtain ⟨a, ha, h2⟩ := List.mem_map.1 this
  exact ⟨a, List.mem_of_mem_take ha, h2⟩

theorem roaBlocks_mem {h : Heap} {r : Resources} {asn : Nat} {bs : List RoaBlock} {v : Vrp}
    (hv : v ∈ (roaBlocks h r asn bs).1) :
    ∃ b ∈ bs, ∃ a ∈ b.addresses, handleRoaAddr h r asn (b.family.getD 1 0) a = some v := by
  induction bs with
  | nil => simp [roaBlocks] at hv
  | cons b bs ih =>
    unfold roaBlocks at hv
    split_ifs at hv with c1 c2 c3 c4
    · simp at hv
    · simp at hv
    · simp at hv
    · simp at hv
    · split at hv
      · rename_i vs hx
        obtain ⟨a, ha, h1⟩ := roaAddrs_mem (by rw [hx]; exact hv)
        exact ⟨b, List.mem_cons_self, a, ha, h1⟩
      · rename_i vs hx
        rcases List.mem_append.1 hv with hv | hv
        · obtain ⟨a, ha, h1⟩ := roaAddrs_mem (by rw [hx]; exact hv)
          exact ⟨b, List.mem_cons_self, a, ha, h1⟩
        · obtain ⟨b', hb, h1⟩ := ih hv
          exact ⟨b', List.mem_cons_of_mem _ hb, h1⟩

theorem roaBlocks_ok {h : Heap} {r : Resources} {asn : Nat} {bs : List RoaBlock} (hok : (roaBlocks h r asn bs).2 = true) :
    (bs.flatMap (fun b => b.addresses.map (fun a => (b.family.getD 1 0, a)))).map
      (fun x => handleRoaAddr h r asn x.1 x.2) = (roaBlocks h r asn bs).1.map some := by
  induction bs with
  | nil => simp [roaBlocks]
  | cons b bs ih =>
    unfold roaBlocks at hok ⊢
    split_ifs at hok ⊢ with c1 c2 c3 c4
    obtain ⟨_, _, h2, _⟩ := roaAddrs_spec h r asn (b.family.getD 1 0) b.addresses
    generalize hx : roaAddrs h r asn (b.family.getD 1 0) b.addresses = x at hok h2 ⊢
    obtain ⟨vs, t⟩ := x
    cases t with
    | false => cases hok
    | true =>
      simp only at hok h2 ⊢
      rw [List.map_append, ← ih hok, ← h2 trivial]
      simp [List.flatMap_cons, List.map_append, List.map_map, Function.comp_def]

theorem handleRoa_cases (h : Heap) (r : Resources) (roa : Roa) :
    handleRoa h r roa = ([], false) ∨ ∃ asn, be roa.asId = asn ∧ asn < 2 ^ 32 ∧
      handleRoa h r roa = roaBlocks h r asn roa.blocks := by
  unfold handleRoa
  split
  · exact .inl rfl
  · split
    · exact .inl rfl
    · rename_i asn hasn
      have := (integer2ulong_iff _ _).1 hasn
      split_ifs
      · exact .inl rfl
      · exact .inl rfl
      · exact .inr ⟨asn, by omega, by omega, rfl⟩

theorem roaTraverse_cases {h h' : Heap} {top : Resources} {f : RoaFile} {vs : List Vrp} {o : Out}
    (he : roaTraverse h top f = (h', vs, o)) :
    (vs = [] ∧ o ≠ .ok) ∨ ∃ roa r, f.content = some roa ∧
      certificateGetResources h (Resources.create f.policy false) (some top) f.exts .ee = (h', r, .ok) ∧
      (handleRoa h' r roa).1 = vs ∧ (o = .ok → (handleRoa h' r roa).2 = true) := by
  unfold roaTraverse at he
  split at he
  · cases he; exact .inl ⟨rfl, by simp⟩
  · rename_i roa hroa
    split at he
    · cases he; exact .inl ⟨rfl, by simp⟩
    · split at he
      · rename_i h1 r hg
        split at he
        · rename_i vs' hr
          cases he
          exact .inr ⟨roa, r, hroa, hg, by rw [hr], by simp⟩
        · rename_i vs' hr
          cases he
          exact .inr ⟨roa, r, hroa, hg, by rw [hr], by rw [hr]; simp⟩
      · rename_i h1 r o1 hno hg
        cases he
        refine .inl ⟨rfl, ?_⟩
        rintro rfl
        exact hno rfl

/-! ### C28 -/

/-- C28. Every VRP that is given to the database, for any ROA file read in any state of any validation (accepted or not),
has canonical prefix and consistent lengths, and its addresses belong to the ROA's own certificate, to the certificate
that signed it, and so on up to the trust anchor. -/
theorem C28_vrps (h h' : Heap) (top : Resources) (st : List Resources) (hr : VReach (h, top :: st)) (f : RoaFile)
    (vs : List Vrp) (o : Out) (he : roaTraverse h top f = (h', vs, o)) (v : Vrp) (hv : v ∈ vs) :
    v.WellFormed ∧ (∃ ee out, certificateGetResources h (Resources.create f.policy false) (some top) f.exts .ee =
      (h', ee, out) ∧ v.CoveredBy h' ee) ∧ ∀ a ∈ top :: st, v.CoveredBy h' a := by
  rcases roaTraverse_cases he with ⟨rfl, _⟩ | ⟨roa, r, hroa, hg, hvs, _⟩
  · simp at hv
  · have hi := getResources_out (reach_inv hr) hg
    have hgood := hi.1.goodHeap
    have hw := C25_endEntity h h' top st hr _ _ _ _ r .ok hg
    subst hvs
    rcases handleRoa_cases h' r roa with hc | ⟨asn, _, hlt, hc⟩
    · rw [hc] at hv; simp at hv
    · rw [hc] at hv
      obtain ⟨b, _, a, _, hva⟩ := roaBlocks_mem hv
      obtain ⟨_, h2, h3, _⟩ := handleRoaAddr_spec hgood hlt hva
      refine ⟨h2, ⟨r, .ok, hg, h3⟩, ?_⟩
      intro c hc
      have hwc := hw c hc
      cases v with
      | v4 as p m => exact fun n h1 h2 => hwc.2.1 n (h3 n h1 h2)
      | v6 as p m => exact fun n h1 h2 => hwc.2.2 n (h3 n h1 h2)

/-! ### C71 -/

/-- C71 (part: numbers that are not negative). An accepted ROA yields exactly one VRP per address, in order, with the
AS number, prefix and max length that the ROA states. -/
theorem C71_meaning_partial (h h' : Heap) (top : Resources) (st : List Resources) (hr : VReach (h, top :: st))
    (f : RoaFile) (vs : List Vrp) (he : roaTraverse h top f = (h', vs, .ok)) :
    ∃ roa, f.content = some roa ∧ (0 ≤ intVal roa.asId →
      (∀ x ∈ roa.addrs, ∀ b, x.2.maxLength = some b → 0 ≤ intVal b) →
      List.Forall₂ (fun (x : Byte × RoaAddr) v => Denotes roa.asId x.1 x.2 v) roa.addrs vs) := by
  rcases roaTraverse_cases he with ⟨_, h⟩ | ⟨roa, r, hroa, hg, hvs, hok⟩
  · exact absurd rfl h
  · have hi := getResources_out (reach_inv hr) hg
    have hgood := hi.1.goodHeap
    refine ⟨roa, hroa, fun has hml => ?_⟩
    subst hvs
    have hok := hok rfl
    rcases handleRoa_cases h' r roa with hc | ⟨asn, hb, hlt, hc⟩
    · rw [hc] at hok; cases hok
    · rw [hc] at hok ⊢
      have key := roaBlocks_ok hok
      have hasn : intVal roa.asId = asn := by rw [intVal_nonneg has, hb]
      change (roa.addrs.map _) = _ at key
      generalize (roaBlocks h' r asn roa.blocks).1 = vs at key
      generalize roa.addrs = l at key hml
      induction l generalizing vs with
      | nil => cases vs with
        | nil => exact .nil
        | cons _ _ => simp at key
      | cons x l ih =>
        cases vs with
        | nil => simp at key
        | cons v vs =>
          simp only [List.map_cons, List.cons.injEq] at key
          refine .cons ?_ (ih vs key.2 (fun y hy => hml y (List.mem_cons_of_mem _ hy)))
          exact (handleRoaAddr_spec hgood hlt key.1).2.2.2 roa.asId hasn (hml x List.mem_cons_self)

/-! ### Examples, C29 -/

/-- An end entity certificate that inherits the 10.0.0.0/8 of the chain of `ex_reach`. -/
def exEe : List Ext := [.ip true (some [⟨[0, 1], .inherit⟩])]

theorem exEe_res (policy : Policy) : certificateGetResources exCa.1 (Resources.create policy false) (some exCa.2) exEe .ee =
    (exCa.1, ⟨some 0, none, none, policy, false⟩, .ok) := by
  simp [certificateGetResources, exEe, extLoop, handleIpExtension, addBlocks, resourcesAddIp, getAddrFamily, inheritSet,
    Resources.create, exCa]

theorem exContains (p : Prefix4) (r : Resources) (hr : r.ip4 = some 0) : resourcesContains4 exCa.1 r p =
    some (decide (cmp32 ⟨0x0A000000, 0x0AFFFFFF⟩ (pton4 p) = .equal ∨ cmp32 ⟨0x0A000000, 0x0AFFFFFF⟩ (pton4 p) = .child)) := by
  simp [resourcesContains4, hr, exCa, Sets.deref, sarrayContains, search1]

/-- 10.1.0.0/16, max length 24. -/
def exAddr : RoaAddr := ⟨⟨[10, 1], 0⟩, some [24]⟩
/-- 11.0.0.0/8, which is not in the certificate. -/
def exBad : RoaAddr := ⟨⟨[11], 0⟩, none⟩

theorem exAddr_vrp (asn : Nat) (r : Resources) (hr : r.ip4 = some 0) :
    handleRoaAddr exCa.1 r asn 1 exAddr = some (.v4 (BitVec.ofNat 32 asn) ⟨0x0A010000, 16⟩ 24) := by
  have hp : prefix4Decode exAddr.address = some ⟨0x0A010000, 16⟩ := by decide
  have hm : roaMaxLength 32 16 exAddr.maxLength = some 24 := by decide
  have hc : resourcesContains4 exCa.1 r ⟨0x0A010000, 16⟩ = some true := by
    rw [exContains _ r hr]; decide
  simp only [handleRoaAddr, handleRoaV4, hp, hm, hc, if_true]
  rfl

theorem exBad_vrp (asn : Nat) (r : Resources) (hr : r.ip4 = some 0) : handleRoaAddr exCa.1 r asn 1 exBad = none := by
  have hp : prefix4Decode exBad.address = some ⟨0x0B000000, 8⟩ := by decide
  have hm : roaMaxLength 32 8 exBad.maxLength = some 8 := by decide
  have hc : resourcesContains4 exCa.1 r ⟨0x0B000000, 8⟩ = some false := by
    rw [exContains _ r hr]; decide
  simp only [handleRoaAddr, handleRoaV4, hp, hm, hc, if_true]

theorem exAddr_vrp' (asn : Nat) (a b : Option Nat) (p : Policy) (f : Bool) :
    handleRoaAddr exCa.1 ⟨some 0, a, b, p, f⟩ asn 1#8 exAddr = some (.v4 (BitVec.ofNat 32 asn) ⟨0x0A010000, 16⟩ 24) :=
  exAddr_vrp asn _ rfl
theorem exBad_vrp' (asn : Nat) (a b : Option Nat) (p : Policy) (f : Bool) :
    handleRoaAddr exCa.1 ⟨some 0, a, b, p, f⟩ asn 1#8 exBad = none := exBad_vrp asn _ rfl

/-- A ROA for AS 2 and 10.1.0.0/16, and its VRP. -/
def exRoa (as : List RoaAddr) (asId : List Byte) (refs : Bool) : RoaFile :=
  ⟨some ⟨none, asId, [⟨[0, 1], as⟩]⟩, true, .rfc6484, exEe, refs⟩

theorem exRoa_ok : roaTraverse exCa.1 exCa.2 (exRoa [exAddr] [2] true) =
    (exCa.1, [.v4 2 ⟨0x0A010000, 16⟩ 24], .ok) := by
  simp [roaTraverse, exRoa, exEe_res, handleRoa, roaBlocks, roaAddrs, roaVersionBad, exAddr_vrp', integer2ulong]

example := C28_vrps _ _ _ _ ex_reach _ _ _ exRoa_ok _ List.mem_cons_self

/-- C71 is false for negative numbers: AS -1 becomes AS 255. -/
theorem C71_refuted : ∃ h top, VReach (h, top) ∧ ∃ t f h' vs, top.head? = some t ∧ roaTraverse h t f = (h', vs, .ok) ∧
    ∃ roa, f.content = some roa ∧ intVal roa.asId = -1 ∧ vs.map Vrp.asn = [255] :=
  ⟨_, _, ex_reach, _, exRoa [exAddr] [0xFF] true, exCa.1, [.v4 255 ⟨0x0A010000, 16⟩ 24], rfl,
    by simp [roaTraverse, exRoa, exEe_res, handleRoa, roaBlocks, roaAddrs, roaVersionBad, exAddr_vrp', integer2ulong],
    _, rfl, by decide, by decide⟩

/-- C29 is false: a ROA with a second address that is not in its certificate is rejected, but the VRP of the first one was
already given to the database. -/
theorem C29_refuted : ∃ h top, VReach (h, top) ∧ ∃ t f h' v, top.head? = some t ∧ roaTraverse h t f = (h', [v], .err) :=
  ⟨_, _, ex_reach, _, exRoa [exAddr, exBad] [2] true, exCa.1, .v4 2 ⟨0x0A010000, 16⟩ 24, rfl,
    by simp [roaTraverse, exRoa, exEe_res, handleRoa, roaBlocks, roaAddrs, roaVersionBad, exAddr_vrp', exBad_vrp', integer2ulong]⟩

/-- C29 is false also because the references of the certificate (CRL, issuer, and signed object URIs) are checked last. -/
theorem C29_refuted_refs : ∃ h top, VReach (h, top) ∧ ∃ t f h' v, top.head? = some t ∧ f.refsOk = false ∧
    roaTraverse h t f = (h', [v], .err) :=
  ⟨_, _, ex_reach, _, exRoa [exAddr] [2] false, exCa.1, .v4 2 ⟨0x0A010000, 16⟩ 24, rfl, rfl,
    by simp [roaTraverse, exRoa, exEe_res, handleRoa, roaBlocks, roaAddrs, roaVersionBad, exAddr_vrp', integer2ulong]⟩

theorem roaAddrs_short {h : Heap} {r : Resources} {asn : Nat} {family : Byte} {l : List RoaAddr} (hl : l.length ≤ 1)
    (hf : (roaAddrs h r asn family l).2 = false) : (roaAddrs h r asn family l).1 = [] := by
  match l with
  | [] => rfl
  | [a] =>
    unfold roaAddrs at hf ⊢
    cases hv : handleRoaAddr h r asn family a with
    | none => rfl
    | some v => rw [hv] at hf; simp [roaAddrs] at hf
  | _ :: _ :: _ => simp at hl

/-- C29 (part). A rejected ROA contributes no VRP if the references of its certificate are correct and it consists of a
single block with a single address. -/
theorem C29_rejected_partial (h h' : Heap) (top : Resources) (f : RoaFile) (vs : List Vrp) (hrefs : f.refsOk = true)
    (b : RoaBlock) (v : Option (List Byte)) (as : List Byte) (hc : f.content = some ⟨v, as, [b]⟩)
    (hb : b.addresses.length ≤ 1) (o : Out) (ho : o ≠ .ok) (he : roaTraverse h top f = (h', vs, o)) : vs = [] := by
  unfold roaTraverse at he
  rw [hc] at he
  simp only at he
  split at he
  · cases he; rfl
  · split at he
    · rename_i h1 r hg
      split at he
      · rename_i vs' hr
        cases he
        rcases handleRoa_cases h' r ⟨v, as, [b]⟩ with hx | ⟨asn, _, _, hx⟩
        · rw [hx] at hr; cases hr; rfl
        · rw [hx] at hr
          simp only [roaBlocks] at hr
          split_ifs at hr with c1 c2 c3 c4
          · cases hr; rfl
          · cases hr; rfl
          · cases hr; rfl
          · cases hr; rfl
          · split at hr
            · rename_i us hu
              cases hr
              have := roaAddrs_short (h := h') (r := r) (asn := asn) (family := b.family.getD 1 0) hb (by rw [hu])
              rw [hu] at this; exact this
            · cases hr
      · cases he; exact absurd rfl ho
    · cases he; rfl

/-- C29 (part). A ROA that is rejected before its addresses are looked at (it does not decode, its signature or
certificate is invalid, its version or AS number is not acceptable) contributes no VRP. -/
theorem C29_early_partial (h h' : Heap) (top : Resources) (f : RoaFile) (vs : List Vrp) (o : Out)
    (hearly : f.content = none ∨ f.envelopeOk = false ∨
      (certificateGetResources h (Resources.create f.policy false) (some top) f.exts .ee).2.2 ≠ .ok ∨
      ∃ roa, f.content = some roa ∧ ((∃ v, roa.version = some v ∧ be v ≠ 0) ∨ 2 ^ 32 ≤ be roa.asId))
    (he : roaTraverse h top f = (h', vs, o)) : vs = [] ∧ o ≠ .ok := by
  rcases roaTraverse_cases he with hx | ⟨roa, r, hroa, hg, hvs, hok⟩
  · exact hx
  · rcases hearly with h1 | h1 | h1 | ⟨roa', h1, h2⟩
    · rw [h1] at hroa; cases hroa
    · unfold roaTraverse at he
      rw [hroa, h1] at he
      simp only [Bool.not_false, if_true] at he
      cases he; exact ⟨rfl, by simp⟩
    · rw [hg] at h1; exact absurd rfl h1
    · rw [hroa] at h1
      cases h1
      have : handleRoa h' r roa = ([], false) := by
        rcases h2 with ⟨v, hv, h2⟩ | h2
        · unfold handleRoa
          rw [if_pos]
          rw [hv]
          simp only [roaVersionBad, ne_eq, decide_not, Bool.not_eq_true', decide_eq_false_iff_not, integer2ulong_iff]
          omega
        · rcases handleRoa_cases h' r roa with hx | ⟨asn, h3, h4, _⟩
          · exact hx
          · omega
      rw [this] at hvs hok
      refine ⟨hvs.symm, fun ho => by simpa using hok ho⟩

example : (exRoa [exAddr] [1, 0, 0, 0, 0] true).content = some ⟨none, [1, 0, 0, 0, 0], [⟨[0, 1], [exAddr]⟩]⟩ ∧
    2 ^ 32 ≤ be [1, 0, 0, 0, 0] := by decide

end Verif.Res
