import Verif.Obj.CertLemmas
import Verif.Obj.RoaProps
/-
C179: the resources of a certificate are those that its issuer wrote. C180: the same for trust anchors.
-/
namespace Verif.Obj
open Verif.Res (Byte Heap Resources VReach RoaFile roaTraverse certificateGetResources initResources Ext CertType Covered)
open Verif.Asn (Nul)

theorem has4 {c : CertRes} (hv : c.Valid) (issuer : Nat → Prop) (n : Nat) : hasOf (rng4 c.ip) issuer n ↔ c.addrs false issuer n := by
  have hfam := hv.families
  unfold CertRes.addrs rng4 hasOf
  match c.ip, hfam with
  | [], _ => simp
  | [f], _ => cases hf : f.v6 <;> cases hr : f.res <;> simp [hf, hr, width]
  | [f, g], hfam =>
    have hf : f.v6 = false := by simp at hfam; exact hfam.1
    have hg : g.v6 = true := by simp at hfam; exact hfam.2
    cases hr : f.res <;> simp [hf, hg, hr, width]
  | _ :: _ :: _ :: _, hfam => simp at hfam

theorem has6 {c : CertRes} (hv : c.Valid) (issuer : Nat → Prop) (n : Nat) : hasOf (rng6 c.ip) issuer n ↔ c.addrs true issuer n := by
  have hfam := hv.families
  unfold CertRes.addrs rng6 hasOf
  match c.ip, hfam with
  | [], _ => simp
  | [f], _ => cases hf : f.v6 <;> cases hr : f.res <;> simp [hf, hr, width]
  | [f, g], hfam =>
    have hf : f.v6 = false := by simp at hfam; exact hfam.1
    have hg : g.v6 = true := by simp at hfam; exact hfam.2
    cases hr : g.res <;> simp [hf, hg, hr, width]
  | _ :: _ :: _ :: _, hfam => simp at hfam

theorem hasA (c : CertRes) (issuer : Nat → Prop) (n : Nat) : hasOf (rngAs c.as) issuer n ↔ c.asns issuer n := by
  unfold CertRes.asns rngAs hasOf
  match c.as with
  | none => exact Iff.rfl
  | some none => exact Iff.rfl
  | some (some l) => exact Iff.rfl

theorem decodes_list {α β γ : Type} {decode : β → Option α} {val : α → Res.Rng} {enc : γ → β} {rng : γ → Res.Rng} {l : List γ} (hne : l ≠ [])
    (hc : Res.Canonical (l.map rng)) (h : ∀ x ∈ l, ∃ r, decode (enc x) = some r ∧ val r = rng x) :
    Decodes decode val (some (some (l.map enc))) (some (some (l.map rng))) := by
  refine ⟨by simpa using hne, hc, ?_⟩
  clear hne hc
  induction l with
  | nil => exact ⟨[], rfl, rfl⟩
  | cons x l ih =>
    obtain ⟨r, h1, h2⟩ := h x (by simp)
    obtain ⟨xs, h3, h4⟩ := ih fun y hy => h y (by simp [hy])
    exact ⟨r :: xs, by simp only [List.map_cons, h1, h3], by simp only [List.map_cons, h2, h4]⟩

theorem decodes4 {c : CertRes} (hv : c.Valid) : Decodes Res.decode4 Res.R32.rng (spec4 c.ip) (rng4 c.ip) := by
  unfold spec4 rng4
  cases hf : c.ip.find? fun f => !f.v6 with
  | none => exact trivial
  | some f =>
    have hm := List.mem_of_find?_eq_some hf
    have h6 : f.v6 = false := by simpa using List.find?_some hf
    cases hr : f.res with
    | none => simp only [Option.map_some, hr]; exact trivial
    | some l =>
      obtain ⟨h1, h2, h3⟩ := hv.ip f hm l hr
      rw [h6] at h2 h3
      simp only [Option.map_some, hr]
      exact decodes_list h1 h3 fun x hx => decode4_enc (h2 x hx)

theorem decodes6 {c : CertRes} (hv : c.Valid) : Decodes Res.decode6 Res.R6.rng (spec6 c.ip) (rng6 c.ip) := by
  unfold spec6 rng6
  cases hf : c.ip.find? fun f => f.v6 with
  | none => exact trivial
  | some f =>
    have hm := List.mem_of_find?_eq_some hf
    have h6 : f.v6 = true := by simpa using List.find?_some hf
    cases hr : f.res with
    | none => simp only [Option.map_some, hr]; exact trivial
    | some l =>
      obtain ⟨h1, h2, h3⟩ := hv.ip f hm l hr
      rw [h6] at h2 h3
      simp only [Option.map_some, hr]
      exact decodes_list h1 h3 fun x hx => decode6_enc (h2 x hx)

theorem decodesA {c : CertRes} (hv : c.Valid) : Decodes Res.decodeAs Res.R32.rng (specAs c.as) (rngAs c.as) := by
  unfold specAs rngAs
  match hc : c.as with
  | none => exact trivial
  | some none => exact trivial
  | some (some l) =>
    obtain ⟨h1, h2, h3⟩ := hv.as l hc
    exact decodes_list h1 h3 fun x hx => asRes_enc (h2 x hx)

/-! ### C179 -/

/-- The issuer has all that the certificate lists. -/
def CertRes.Within (c : CertRes) (h : Heap) (issuer : Resources) : Prop :=
  (∀ n, c.addrs false (h.ip4s issuer) n → h.ip4s issuer n) ∧ (∀ n, c.addrs true (h.ip6s issuer) n → h.ip6s issuer n) ∧
  (∀ n, c.asns (h.asns issuer) n → h.asns issuer n)

/-- From the bytes in the extensions to the resources. A certificate that is signed by the certificate on top, with correct resource extensions (among
others, in any order), is accepted if and only if the issuer has all that it lists; and then its resources are exactly those that are written. -/
theorem C179_resources (h : Heap) (top : Resources) (st : List Resources) (hr : VReach (h, top :: st)) (c : CertRes) (hv : c.Valid) (hs : c.Small)
    (exts : List Ext) (he : (exts.filter (· ≠ .other)).Perm c.exts) (type : CertType) (ht : type ≠ .bgpsec) :
    (c.Within h top → ∃ h' r, certificateGetResources h (Resources.create .rfc6484 false) (some top) exts type = (h', r, .ok) ∧
      (∀ n, h'.ip4s r n ↔ c.addrs false (h.ip4s top) n) ∧ (∀ n, h'.ip6s r n ↔ c.addrs true (h.ip6s top) n) ∧
      (∀ n, h'.asns r n ↔ c.asns (h.asns top) n)) ∧
    (¬ c.Within h top → (certificateGetResources h (Resources.create .rfc6484 false) (some top) exts type).2.2 ≠ .ok) := by
  have hi := Res.reach_inv hr
  have hval := hi.valid top List.mem_cons_self
  obtain ⟨g1, g2⟩ := getResources_enc .rfc6484 h (some top) c hv hs exts he type ht
  obtain ⟨a4, b4⟩ := out_spec Res.law32 Res.decode4_good hi.good.g4 (P := some top.ip4) (by intro p hp; cases hp; exact hval.v4) (decodes4 hv) (by simp)
  obtain ⟨a6, b6⟩ := out_spec Res.law6 Res.decode6_good hi.good.g6 (P := some top.ip6) (by intro p hp; cases hp; exact hval.v6) (decodes6 hv) (by simp)
  obtain ⟨aa, ba⟩ := out_spec Res.law32 Res.decodeAs_good hi.good.ga (P := some top.asn) (by intro p hp; cases hp; exact hval.va) (decodesA hv) (by simp)
  simp only [Option.some.injEq, forall_eq', exists_eq_left', Option.map_some] at a4 a6 aa b4 b6 ba g1 g2
  simp only [has4 hv, has6 hv, hasA] at a4 a6 aa b4 b6 ba
  change (CertRes.Within c h top → _) ∧ (¬ CertRes.Within c h top → _)
  constructor
  · rintro ⟨w4, w6, wa⟩
    obtain ⟨o4, n4⟩ := a4 w4
    obtain ⟨o6, n6⟩ := a6 w6
    obtain ⟨oa, na⟩ := aa wa
    exact ⟨_, _, g1 ⟨o4, o6, oa⟩, n4, n6, na⟩
  · intro hn
    apply g2
    rintro ⟨o4, o6, oa⟩
    exact hn ⟨Classical.byContradiction fun w => b4 w o4, Classical.byContradiction fun w => b6 w o6, Classical.byContradiction fun w => ba w oa⟩

/-- All of it: the certificate of a ROA has these resources, and the ROA says this. The ROA is accepted if and only if the issuer has the resources of
the certificate, and they include all prefixes; and then the VRPs are the ones that are written. -/
theorem C179_roa (h : Heap) (top : Resources) (st : List Resources) (hr : VReach (h, top :: st)) (c : CertRes) (hc : c.Valid) (hs : c.Small)
    (o : RoaSpec) (hv : o.Valid) (hl : o.enc.length < 2 ^ 62) (nul : Nul) (rest : List Byte) (f : RoaFile)
    (hf : f.content = (decodeRoa nul (o.enc ++ rest)).toOption) (hp : f.policy = .rfc6484) (he : (f.exts.filter (· ≠ .other)).Perm c.exts)
    (henv : f.envelopeOk = true) (hrefs : f.refsOk = true) :
    (c.Within h top ∧ (∀ v ∈ o.vrps, ∀ n, v.addr ≤ n → n ≤ v.addr + (2 ^ (width v.v6 - v.len) - 1) →
        c.addrs v.v6 (if v.v6 then h.ip6s top else h.ip4s top) n) →
      ∃ h' vs, roaTraverse h top f = (h', vs, .ok) ∧ vs.map plain = o.vrps) ∧
    (¬ (c.Within h top ∧ (∀ v ∈ o.vrps, ∀ n, v.addr ≤ n → n ≤ v.addr + (2 ^ (width v.v6 - v.len) - 1) →
        c.addrs v.v6 (if v.v6 then h.ip6s top else h.ip4s top) n)) → (roaTraverse h top f).2.2 ≠ .ok) := by
  obtain ⟨c1, c2⟩ := C179_resources h top st hr c hc hs f.exts he .ee (by simp)
  by_cases hw : c.Within h top
  · obtain ⟨h', r, e, n4, n6, -⟩ := c1 hw
    obtain ⟨r1, r2⟩ := C176_roa h top st hr o hv hl nul rest f hf henv hrefs h' r (by rw [hp]; exact e)
    have key : ∀ v : VrpSpec, v.CoveredBy h' r ↔ ∀ n, v.addr ≤ n → n ≤ v.addr + (2 ^ (width v.v6 - v.len) - 1) →
        c.addrs v.v6 (if v.v6 then h.ip6s top else h.ip4s top) n := by
      intro v
      unfold VrpSpec.CoveredBy
      refine forall_congr' fun n => imp_congr Iff.rfl (imp_congr Iff.rfl ?_)
      cases v.v6
      · simpa using n4 n
      · simpa using n6 n
    simp only [key] at r1 r2
    exact ⟨fun x => ⟨h', r1 x.2⟩, fun x => r2 fun y => x ⟨hw, y⟩⟩
  · refine ⟨fun x => absurd x.1 hw, fun _ => ?_⟩
    have := c2 hw
    unfold roaTraverse
    rw [hf, decodeRoa_enc hv hl]
    simp only [Got.toOption, henv, Bool.not_true, Bool.false_eq_true, if_false, hp]
    cases hx : certificateGetResources h (Resources.create .rfc6484 false) (some top) f.exts .ee with
    | mk h' x =>
      obtain ⟨r, out⟩ := x
      rw [hx] at this
      cases out with
      | ok => exact absurd rfl this
      | err => simp
      | crit => simp

/-! ### C180 -/

/-- A trust anchor with correct resource extensions, none of them "inherit", is accepted, and its resources are those that are written. -/
theorem C180_trustAnchor (h : Heap) (hr : VReach (h, [])) (c : CertRes) (hv : c.Valid) (hs : c.Small) (hip : ∀ f ∈ c.ip, f.res ≠ none)
    (has : c.as ≠ some none) (exts : List Ext) (he : (exts.filter (· ≠ .other)).Perm c.exts) :
    ∃ h' r, initResources h none .rfc6484 exts .ta = (h', r, .ok) ∧
      (∀ n, h'.ip4s r n ↔ c.addrs false (fun _ => False) n) ∧ (∀ n, h'.ip6s r n ↔ c.addrs true (fun _ => False) n) ∧
      (∀ n, h'.asns r n ↔ c.asns (fun _ => False) n) := by
  have hi := Res.reach_inv hr
  have e4 : rng4 c.ip ≠ some none := by
    unfold rng4
    cases hf : c.ip.find? fun f => !f.v6 with
    | none => simp
    | some f => simpa using hip f (List.mem_of_find?_eq_some hf)
  have e6 : rng6 c.ip ≠ some none := by
    unfold rng6
    cases hf : c.ip.find? fun f => f.v6 with
    | none => simp
    | some f => simpa using hip f (List.mem_of_find?_eq_some hf)
  have ea : rngAs c.as ≠ some none := by
    unfold rngAs
    match hc : c.as with
    | none => simp
    | some none => exact absurd hc has
    | some (some l) => simp
  obtain ⟨g1, -⟩ := getResources_enc .rfc6484 h none c hv hs exts he .ta (by simp)
  obtain ⟨a4, -⟩ := out_spec Res.law32 Res.decode4_good hi.good.g4 (P := none) (by simp) (decodes4 hv) (fun _ => e4)
  obtain ⟨a6, -⟩ := out_spec Res.law6 Res.decode6_good hi.good.g6 (P := none) (by simp) (decodes6 hv) (fun _ => e6)
  obtain ⟨aa, -⟩ := out_spec Res.law32 Res.decodeAs_good hi.good.ga (P := none) (by simp) (decodesA hv) (fun _ => ea)
  obtain ⟨o4, n4⟩ := a4 (by simp)
  obtain ⟨o6, n6⟩ := a6 (by simp)
  obtain ⟨oa, na⟩ := aa (by simp)
  simp only [Option.map_none] at g1
  have g := g1 ⟨o4, o6, oa⟩
  simp only [reduceCtorEq, false_and, exists_false] at n4 n6 na
  simp only [has4 hv, has6 hv, hasA] at n4 n6 na
  unfold initResources
  rw [g]
  refine ⟨⟨_, _, _⟩, ⟨_, _, _, .rfc6484, false⟩, ?_, n4, n6, na⟩
  simp only [true_and]
  rw [if_neg]
  intro hem
  -- something is listed, so it is not empty
  have hnone : ∀ {α : Type} {val : α → Res.Rng} {s : Res.Sets α} {p : Option Nat}, Res.emptySet s p = true → ∀ n, ¬ Res.numsOf val s p n := by
    intro α val s p h0 n
    rintro ⟨l, hl, hc⟩
    unfold Res.emptySet at h0
    rw [hl] at h0
    simp only [decide_eq_true_eq] at h0
    rw [List.length_eq_zero_iff.1 h0] at hc
    obtain ⟨r, hr, -⟩ := hc
    simp at hr
  unfold Res.resourcesEmpty at hem
  simp only [Bool.and_eq_true] at hem
  obtain ⟨⟨m1, m2⟩, m3⟩ := hem
  have hcov : ∀ {l : List Res.Rng}, l ≠ [] → Res.Canonical l → ∃ n, Covered l n := by
    intro l hne hcan
    cases l with
    | nil => exact absurd rfl hne
    | cons r l => exact ⟨r.min, r, by simp, Nat.le_refl _, hcan.head⟩
  rcases hv.any with hx | hx
  · obtain ⟨f, t, hft⟩ := List.exists_cons_of_ne_nil hx
    have hfm : f ∈ c.ip := by rw [hft]; simp
    cases hres : f.res with
    | none => exact hip f hfm hres
    | some l =>
      obtain ⟨q1, -, q3⟩ := hv.ip f hfm l hres
      obtain ⟨n, hn⟩ := hcov (by simpa using q1) q3
      cases h6 : f.v6 with
      | false =>
        rw [h6] at hn
        exact hnone (val := Res.R32.rng) m2 n ((n4 n).2 ⟨f, hfm, h6, by rw [hres]; exact hn⟩)
      | true =>
        rw [h6] at hn
        exact hnone (val := Res.R6.rng) m3 n ((n6 n).2 ⟨f, hfm, h6, by rw [hres]; exact hn⟩)
  · match hc : c.as with
    | none => exact hx hc
    | some none => exact has hc
    | some (some l) =>
      obtain ⟨q1, -, q3⟩ := hv.as l hc
      obtain ⟨n, hn⟩ := hcov (by simpa using q1) q3
      refine hnone (val := Res.R32.rng) m1 n ((na n).2 ?_)
      unfold CertRes.asns
      rw [hc]
      exact hn

/-! ### Examples -/

namespace Ex
/-- 10.0.0.0/8 and AS numbers 1 to 10. -/
def ta : CertRes := ⟨[⟨false, some [.pfx 0x0A000000 8]⟩], some (some [.range 1 10])⟩
/-- 10.1.0.0 to 10.2.255.255, inherited IPv6 addresses (none, here), and AS 5. -/
def ca : CertRes := ⟨[⟨false, some [.range 0x0A010000 0x0A02FFFF]⟩, ⟨true, none⟩], some (some [.one 5])⟩

theorem ta_valid : ta.Valid := by
  refine ⟨Or.inl (by decide), by decide, ?_, ?_⟩
  · intro f hf l hl
    simp only [ta, List.mem_singleton] at hf
    subst hf
    cases hl
    refine ⟨by decide, ?_, ?_⟩
    · intro x hx
      simp only [List.mem_singleton] at hx
      subst hx
      exact ⟨by decide, by decide, by decide⟩
    · simp [Res.Canonical, IpRes.rng]
  · intro l hl
    cases hl
    refine ⟨by decide, ?_, ?_⟩
    · intro x hx
      simp only [List.mem_singleton] at hx
      subst hx
      exact ⟨by decide, by decide⟩
    · simp [Res.Canonical, AsRes.rng]

theorem ca_valid : ca.Valid := by
  refine ⟨Or.inl (by decide), by decide, ?_, ?_⟩
  · intro f hf l hl
    simp only [ca, List.mem_cons, List.not_mem_nil, or_false] at hf
    rcases hf with rfl | rfl
    · cases hl
      refine ⟨by decide, ?_, ?_⟩
      · intro x hx
        simp only [List.mem_singleton] at hx
        subst hx
        refine ⟨by decide, by decide, ?_⟩
        rintro ⟨len, h1, h2, h3⟩
        simp only [width, Bool.false_eq_true, if_false] at h1 h2 h3
        have : 2 ^ (32 - len) = 131072 := by omega
        have h17 : 32 - len = 17 := (Nat.pow_right_injective (Nat.le_refl 2)) (by show 2 ^ (32 - len) = 2 ^ 17; rw [this])
        rw [h17] at h2
        revert h2
        decide
      · simp [Res.Canonical, IpRes.rng]
    · cases hl
  · intro l hl
    cases hl
    refine ⟨by decide, ?_, ?_⟩
    · intro x hx
      simp only [List.mem_singleton] at hx
      subst hx
      show 5 < 2 ^ 32
      decide
    · simp [Res.Canonical, AsRes.rng]

theorem octs : octets 1 = [1] ∧ octets 10 = [10] ∧ octets 5 = [5] := by simp [octets]

theorem ta_small : ta.Small := by
  refine ⟨by decide, ?_⟩
  intro l hl
  cases hl
  simp only [encAs, List.flatMap_cons, AsRes.enc, derInt, intOctets, octs.1, octs.2.1]
  decide

theorem ca_small : ca.Small := by
  refine ⟨by decide +kernel, ?_⟩
  intro l hl
  cases hl
  simp only [encAs, List.flatMap_cons, AsRes.enc, derInt, intOctets, octs.2.2]
  decide

/-- The trust anchor is accepted; and then the certificate that it signs, with these addresses. -/
example : ∃ h' r h'' r', initResources ⟨[], [], []⟩ none .rfc6484 (.other :: ta.exts) .ta = (h', r, .ok) ∧ VReach (h', [r]) ∧
    certificateGetResources h' (Resources.create .rfc6484 false) (some r) (ca.exts.reverse) .ca = (h'', r', .ok) ∧
    h''.ip4s r' 0x0A010203 ∧ ¬ h''.ip4s r' 0x0A030000 := by
  obtain ⟨h', r, e, n4, n6, na⟩ := C180_trustAnchor ⟨[], [], []⟩ .init ta ta_valid ta_small (by simp [ta]) (by decide) (.other :: ta.exts) (by
    rw [List.filter_cons_of_neg (by simp), List.filter_eq_self.2]
    intro x hx
    simp only [ta, CertRes.exts] at hx
    simp at hx
    rcases hx with rfl | rfl <;> simp)
  have hreach : VReach (h', [r]) := .step .init (.push e)
  obtain ⟨c1, -⟩ := C179_resources h' r [] hreach ca ca_valid ca_small ca.exts.reverse (by
    rw [List.filter_eq_self.2]
    · exact List.reverse_perm _
    · intro x hx
      simp only [ca, CertRes.exts, List.mem_reverse] at hx
      simp at hx
      rcases hx with rfl | rfl <;> simp) .ca (by simp)
  have hw : ca.Within h' r := by
    refine ⟨fun n hn => ?_, fun n hn => ?_, fun n hn => ?_⟩
    · rw [n4]
      obtain ⟨f, hf, h6, hn⟩ := hn
      simp only [ca, List.mem_cons, List.not_mem_nil, or_false] at hf
      rcases hf with rfl | rfl
      · refine ⟨_, List.mem_singleton.2 rfl, rfl, ⟨_, List.mem_singleton.2 rfl, ?_⟩⟩
        obtain ⟨x, hx, hn⟩ := hn
        simp only [List.map_cons, List.map_nil, List.mem_singleton] at hx
        subst hx
        obtain ⟨u, v⟩ := hn
        simp [IpRes.rng, width] at u v
        constructor <;> simp [IpRes.rng, width] <;> omega
      · cases h6
    · obtain ⟨f, hf, h6, hn⟩ := hn
      simp only [ca, List.mem_cons, List.not_mem_nil, or_false] at hf
      rcases hf with rfl | rfl
      · cases h6
      · exact hn
    · rw [na]
      obtain ⟨x, hx, hn⟩ := hn
      simp only [List.map_cons, List.map_nil, List.mem_singleton] at hx
      subst hx
      obtain ⟨u, v⟩ := hn
      refine ⟨_, List.mem_singleton.2 rfl, ?_⟩
      simp only [AsRes.rng] at u v
      constructor <;> simp [AsRes.rng] <;> omega
  obtain ⟨h'', r', e', m4, -, -⟩ := c1 hw
  refine ⟨h', r, h'', r', e, hreach, e', (m4 _).2 ?_, fun hh => ?_⟩
  · refine ⟨_, List.mem_cons_self, rfl, ⟨_, List.mem_singleton.2 rfl, ?_⟩⟩
    constructor <;> simp [IpRes.rng]
  · obtain ⟨f, hf, h6, hn⟩ := (m4 _).1 hh
    simp only [ca, List.mem_cons, List.not_mem_nil, or_false] at hf
    rcases hf with rfl | rfl
    · obtain ⟨x, hx, hn⟩ := hn
      simp only [List.map_cons, List.map_nil, List.mem_singleton] at hx
      subst hx
      obtain ⟨u, v⟩ := hn
      simp [IpRes.rng] at v
    · cases h6
end Ex

end Verif.Obj
