import Verif.Slurm.CovLemmas
import Verif.Rtr.TableProps
/-
C30, C31 and C32: filters match as RFC 8416 says; application is (validated minus filtered) plus assertions.
-/
namespace Verif.Slurm
open Verif.Res (Byte)
open Verif.Rtr (Fam Vrp RouterKey Table)

theorem filter_flags : ∀ x : BitVec 8, x.toNat < 16 → x.getLsbD 3 = false →
    (x.getLsbD 0 = true ∨ x.getLsbD 2 = true) →
    x = 1 ∨ x = 3 ∨ x = 4 ∨ x = 5 ∨ x = 6 ∨ x = 7 := by decide

theorem asn?_ne {f : SPrefix} : f.asn? ≠ none ↔ f.flag.getLsbD 0 = true := by
  unfold SPrefix.asn?; split <;> simp_all
theorem pfx?_flag {f : SPrefix} (h : f.pfx? ≠ none) : f.flag.getLsbD 2 = true := by
  unfold SPrefix.pfx? at h; split at h <;> simp_all
theorem maxLen?_none {f : SPrefix} : f.maxLen? = none ↔ f.flag.getLsbD 3 = false := by
  unfold SPrefix.maxLen?; split <;> simp_all

theorem IsFilter.flags {f : SPrefix} (h : f.IsFilter) :
    f.flag = 1 ∨ f.flag = 3 ∨ f.flag = 4 ∨ f.flag = 5 ∨ f.flag = 6 ∨ f.flag = 7 :=
  filter_flags _ h.high (maxLen?_none.1 h.no_max) (h.some_member.imp asn?_ne.1 pfx?_flag)

theorem IsFilter.pfx {f : SPrefix} (h : f.IsFilter) (hf : f.flag.getLsbD 2 = true) :
    ∃ fam, f.fam = some fam ∧ f.pfx? = some ⟨fam, f.prefix_.toNat, f.len.toNat⟩ ∧
      Pfx.Proper ⟨fam, f.prefix_.toNat, f.len.toNat⟩ := by
  have h1 := h.fam hf
  cases hfam : f.fam with
  | none => exact absurd hfam h1
  | some fam =>
    have h2 : f.pfx? = some ⟨fam, f.prefix_.toNat, f.len.toNat⟩ := by simp [SPrefix.pfx?, hf, hfam]
    exact ⟨fam, rfl, h2, h.proper _ h2⟩

/-- The VRP as the code passes it to the filters. -/
abbrev vrpMask (v : Vrp) : SPrefix := ⟨fAsn ||| fPrefix ||| fMaxLen, v.asn, some v.fam, v.prefix_, v.len, v.maxLen⟩

theorem prefix_lt {v : Vrp} (hv : v.WF) : v.prefix_.toNat < 2 ^ width v.fam := by
  cases hf : v.fam with
  | v4 => exact hv hf
  | v6 => exact v.prefix_.isLt

theorem prefixFilteredBy_eq {f : SPrefix} (h : f.IsFilter) {v : Vrp} (hv : v.WF) :
    ∃ b, prefixFilteredBy f (vrpMask v) = .ok b ∧ (b = true ↔ f.Matches v) := by
  have hlt := prefix_lt hv
  unfold prefixFilteredBy SPrefix.Matches
  have cov (hf : f.flag.getLsbD 2 = true) : ∃ b, vrpPrefixCov f (vrpMask v) = .ok b ∧
      (b = true ↔ ∀ p, f.pfx? = some p → p.Covers (pfxOf v)) := by
    obtain ⟨fam, h1, h2, h3⟩ := IsFilter.pfx h hf
    obtain ⟨r, hr, hr2⟩ := vrpPrefixCov_eq f (vrpMask v) fam v.fam h1 rfl h3 hlt
    refine ⟨r, hr, hr2.trans ?_⟩
    rw [h2]
    simp [pfxOf]
  have hfl := IsFilter.flags h
  obtain ⟨flag, asn, fam, pr, len, ml⟩ := f
  simp only at hfl cov ⊢
  have hA1 (x : BitVec 8) (hx : x.getLsbD 0 = true) : SPrefix.asn? ⟨x, asn, fam, pr, len, ml⟩ = some asn := by
    simp [SPrefix.asn?, hx]
  have hA0 (x : BitVec 8) (hx : x.getLsbD 0 = false) : SPrefix.asn? ⟨x, asn, fam, pr, len, ml⟩ = none := by
    unfold SPrefix.asn?; rw [hx]; rfl
  have hP0 (x : BitVec 8) (hx : x.getLsbD 2 = false) : SPrefix.pfx? ⟨x, asn, fam, pr, len, ml⟩ = none := by
    unfold SPrefix.pfx?; rw [hx]; rfl
  have both (x : BitVec 8) (hx : x.getLsbD 0 = true)
      (cov : ∃ b, vrpPrefixCov ⟨x, asn, fam, pr, len, ml⟩ (vrpMask v) = .ok b ∧
        (b = true ↔ ∀ p, SPrefix.pfx? ⟨x, asn, fam, pr, len, ml⟩ = some p → p.Covers (pfxOf v))) :
      ∃ b, (if asn = v.asn then vrpPrefixCov ⟨x, asn, fam, pr, len, ml⟩ (vrpMask v) else .ok false) = .ok b ∧
        (b = true ↔ (∀ a, SPrefix.asn? ⟨x, asn, fam, pr, len, ml⟩ = some a → v.asn = a) ∧
          ∀ p, SPrefix.pfx? ⟨x, asn, fam, pr, len, ml⟩ = some p → p.Covers (pfxOf v)) := by
    obtain ⟨b, hb, hb2⟩ := cov
    rw [hA1 x hx]
    by_cases ha : asn = v.asn
    · refine ⟨b, by rw [if_pos ha, hb], ?_⟩
      rw [hb2]
      simp [ha]
    · refine ⟨false, by rw [if_neg ha], ?_⟩
      simp only [Bool.false_eq_true, false_iff, not_and]
      intro h0
      exact absurd (h0 asn rfl).symm ha
  rcases hfl with rfl | rfl | rfl | rfl | rfl | rfl
  · refine ⟨_, rfl, ?_⟩
    rw [hA1 _ rfl, hP0 _ rfl]
    simp [@eq_comm _ v.asn]
  · refine ⟨_, rfl, ?_⟩
    rw [hA1 _ rfl, hP0 _ rfl]
    simp [@eq_comm _ v.asn]
  · obtain ⟨b, hb, hb2⟩ := cov rfl
    refine ⟨b, by rw [if_pos (by decide), if_neg (by decide), if_neg (by decide), if_pos (by decide)]; exact hb, ?_⟩
    rw [hb2, hA0 _ rfl]
    simp
  · exact both _ rfl (cov rfl)
  · obtain ⟨b, hb, hb2⟩ := cov rfl
    refine ⟨b, by rw [if_pos (by decide), if_neg (by decide), if_neg (by decide), if_pos (by decide)]; exact hb, ?_⟩
    rw [hb2, hA0 _ rfl]
    simp
  · exact both _ rfl (cov rfl)

theorem ok_bind {α β} (a : α) (f : α → Out β) : (Out.ok a >>= f) = f a := rfl
theorem err_bind {α β} (e : Bool) (f : α → Out β) : ((Out.err e : Out α) >>= f) = .err e := rfl
theorem crash_bind {α β} (f : α → Out β) : ((Out.crash : Out α) >>= f) = .crash := rfl

/-- **C30.** Whether a VRP is filtered out is: some prefix filter has only members that match it, where a prefix matches
when it contains every address of the VRP's prefix. -/
theorem C30_prefix_filter (l : Lists) (hl : l.WF) (v : Vrp) (hv : v.WF) :
    ∃ b, vrpIsFiltered l v = .ok b ∧ (b = true ↔ ∃ f ∈ l.filterPfx, f.Matches v) := by
  unfold vrpIsFiltered
  have hf := hl.filterPfx
  revert hf
  generalize l.filterPfx = fs
  intro hf
  induction fs with
  | nil => exact ⟨false, rfl, by simp⟩
  | cons f fs ih =>
    obtain ⟨b, hb, hb2⟩ := prefixFilteredBy_eq (hf f (by simp)) hv
    obtain ⟨c, hc, hc2⟩ := ih (fun g hg => hf g (by simp [hg]))
    rw [prefixFiltered, hb, ok_bind]
    cases b with
    | true => exact ⟨true, rfl, by simp; exact Or.inl (hb2.1 rfl)⟩
    | false =>
      refine ⟨c, by simpa using hc, ?_⟩
      rw [hc2]
      simp only [List.mem_cons, exists_eq_or_imp]
      constructor
      · exact Or.inr
      · rintro (h | h)
        · exact absurd (hb2.2 h) (by simp)
        · exact h

/-- The hypotheses are met by a filter "10.0.0.0/8, AS 7" and one "AS 9"; the VRP 10.1.0.0/16 of AS 7 is filtered by the
first, the same prefix of AS 8 by none. -/
example :
    let l : Lists := ⟨[⟨5, 7, some .v4, 0x0A000000, 8, 0⟩, ⟨1, 9, none, 0, 0, 0⟩], [], [], []⟩
    l.WF ∧ vrpIsFiltered l ⟨7, .v4, 0x0A010000, 16, 16⟩ = .ok true ∧
      vrpIsFiltered l ⟨8, .v4, 0x0A010000, 16, 16⟩ = .ok false ∧
      vrpIsFiltered l ⟨9, .v6, 5, 128, 128⟩ = .ok true := by
  refine ⟨⟨?_, by simp, by simp, by simp⟩, by decide, by decide, by decide⟩
  intro f hf
  simp only [List.mem_cons, List.not_mem_nil, or_false] at hf
  rcases hf with rfl | rfl
  · refine ⟨by decide, by decide, by decide, ?_, by decide⟩
    intro p hp
    have : p = ⟨.v4, 0x0A000000, 8⟩ := by
      have : some p = some (⟨.v4, 0x0A000000, 8⟩ : Pfx) := by rw [← hp]; rfl
      exact Option.some.inj this
    subst this
    exact ⟨by decide, by decide, by decide⟩
  · exact ⟨by decide, by decide, by decide, by intro p hp; exact absurd hp (by simp [SPrefix.pfx?]), by decide⟩

/-! ### BGPsec filters -/

theorem basn?_ne {f : SBgpsec} : f.asn? ≠ none ↔ f.flag.getLsbD 0 = true := by
  unfold SBgpsec.asn?; split <;> simp_all
theorem ski?_ne {f : SBgpsec} : f.ski? ≠ none ↔ f.flag.getLsbD 2 = true := by
  unfold SBgpsec.ski?; split <;> simp_all

/-- **C31.** Whether a router key is filtered out is: some BGPsec filter has only members (ASN, SKI) equal to the
key's. -/
theorem C31_bgpsec_filter (l : Lists) (hl : l.WF) (k : RouterKey) (hk : k.ski.length = 20) :
    bgpsecIsFiltered l k = true ↔ ∃ f ∈ l.filterBgps, f.Matches k := by
  unfold bgpsecIsFiltered bgpsecFiltered
  rw [List.any_eq_true]
  have ht : k.ski.take 20 = k.ski := List.take_of_length_le (by omega)
  refine exists_congr fun f => and_congr_right fun hf => ?_
  have h := hl.filterBgps f hf
  have hfl := filter_flags _ h.high h.no_key (h.some_member.imp basn?_ne.1 ski?_ne.1)
  obtain ⟨flag, asn, ski, spk⟩ := f
  simp only at hfl
  unfold SBgpsec.Matches bgpsecFilteredBy
  simp only [ht]
  rcases hfl with rfl | rfl | rfl | rfl | rfl | rfl <;>
    simp [SBgpsec.asn?, SBgpsec.ski?] <;> simp only [@eq_comm _ k.as, @eq_comm _ k.ski]

/-- A filter with an SKI and no ASN matches the keys with that SKI, whatever the ASN. -/
example :
    let l : Lists := ⟨[], [], [⟨4, 0, List.replicate 20 1, []⟩], []⟩
    l.WF ∧ bgpsecIsFiltered l ⟨List.replicate 20 1, 77, []⟩ = true ∧
      bgpsecIsFiltered l ⟨List.replicate 20 2, 0, []⟩ = false := by
  refine ⟨⟨by simp, by simp, ?_, by simp⟩, by decide, by decide⟩
  intro f hf
  simp only [List.mem_cons, List.not_mem_nil, or_false] at hf
  subst hf
  exact ⟨by decide, by decide, by decide⟩

/-! ### Application -/

theorem applyPfxFilters_eq (l : Lists) (hl : l.WF) : ∀ (vs : List Vrp) (t : Table), t.WF → (∀ v ∈ vs, v.WF) →
    ∃ t', applyPfxFilters l vs t = .ok t' ∧ t'.WF ∧ t'.keys = t.keys ∧
      ∀ v, v ∈ t'.roas ↔ v ∈ t.roas ∧ ¬ (v ∈ vs ∧ ∃ f ∈ l.filterPfx, f.Matches v) := by
  intro vs
  induction vs with
  | nil => intro t ht _; exact ⟨t, rfl, ht, rfl, by simp⟩
  | cons w vs ih =>
    intro t ht hvs
    obtain ⟨b, hb, hb2⟩ := C30_prefix_filter l hl w (hvs w (by simp))
    rw [applyPfxFilters, hb, ok_bind]
    cases b with
    | true =>
      obtain ⟨t', h1, h2, h3, h4⟩ := ih (t.removeRoa w) (Rtr.WF.removeRoa ht w) (fun v hv => hvs v (by simp [hv]))
      refine ⟨t', by simpa using h1, h2, h3, ?_⟩
      intro v
      rw [h4]
      simp only [Rtr.Table.removeRoa, Rtr.mem_erase_iff ht.roasNodup, List.mem_cons]
      have := hb2.1 rfl
      constructor
      · rintro ⟨⟨hne, hv⟩, h⟩
        refine ⟨hv, ?_⟩
        rintro ⟨rfl | h', hm⟩
        · exact hne rfl
        · exact h ⟨h', hm⟩
      · rintro ⟨hv, h⟩
        refine ⟨⟨?_, hv⟩, fun hh => h ⟨Or.inr hh.1, hh.2⟩⟩
        rintro rfl
        exact h ⟨Or.inl rfl, this⟩
    | false =>
      obtain ⟨t', h1, h2, h3, h4⟩ := ih t ht (fun v hv => hvs v (by simp [hv]))
      refine ⟨t', by simpa using h1, h2, h3, ?_⟩
      intro v
      rw [h4]
      simp only [List.mem_cons]
      refine and_congr_right fun _ => not_congr (and_congr_left fun hm => ?_)
      constructor
      · exact Or.inr
      · rintro (rfl | h)
        · exact absurd (hb2.2 hm) (by simp)
        · exact h

theorem applyBgpsecFilters_eq (l : Lists) (t : Table) (ht : t.WF) :
    (applyBgpsecFilters l t).WF ∧ (applyBgpsecFilters l t).roas = t.roas ∧
      ∀ k, k ∈ (applyBgpsecFilters l t).keys ↔ k ∈ t.keys ∧ bgpsecIsFiltered l k = false := by
  unfold applyBgpsecFilters
  have gen : ∀ (ks : List RouterKey) (t : Table), t.WF →
      let t' := ks.foldl (fun t k => if bgpsecIsFiltered l k then t.removeKey k else t) t
      t'.WF ∧ t'.roas = t.roas ∧ ∀ k, k ∈ t'.keys ↔ k ∈ t.keys ∧ ¬ (k ∈ ks ∧ bgpsecIsFiltered l k = true) := by
    intro ks
    induction ks with
    | nil => intro t ht; simp [ht]
    | cons w ks ih =>
      intro t ht
      simp only [List.foldl_cons]
      by_cases hw : bgpsecIsFiltered l w = true
      · simp only [hw, ite_true]
        obtain ⟨h1, h2, h3⟩ := ih (t.removeKey w) (Rtr.WF.removeKey ht w)
        refine ⟨h1, h2, ?_⟩
        intro k
        rw [h3]
        simp only [Rtr.Table.removeKey, Rtr.mem_erase_iff ht.keysNodup, List.mem_cons]
        constructor
        · rintro ⟨⟨hne, hv⟩, h⟩
          refine ⟨hv, ?_⟩
          rintro ⟨rfl | h', hm⟩
          · exact hne rfl
          · exact h ⟨h', hm⟩
        · rintro ⟨hv, h⟩
          refine ⟨⟨?_, hv⟩, fun hh => h ⟨Or.inr hh.1, hh.2⟩⟩
          rintro rfl
          exact h ⟨Or.inl rfl, hw⟩
      · rw [if_neg hw]
        obtain ⟨h1, h2, h3⟩ := ih t ht
        refine ⟨h1, h2, ?_⟩
        intro k
        rw [h3]
        simp only [List.mem_cons]
        refine and_congr_right fun _ => not_congr (and_congr_left fun hm => ?_)
        constructor
        · exact Or.inr
        · rintro (rfl | h)
          · exact absurd hm hw
          · exact h
  obtain ⟨h1, h2, h3⟩ := gen t.keys t ht
  refine ⟨h1, h2, ?_⟩
  intro k
  rw [h3]
  constructor
  · rintro ⟨a, b⟩
    refine ⟨a, ?_⟩
    cases h : bgpsecIsFiltered l k
    · rfl
    · exact absurd ⟨a, h⟩ b
  · rintro ⟨a, b⟩
    exact ⟨a, by simp [b]⟩

theorem bit_and_pos : ∀ x : BitVec 8, (x &&& fMaxLen = 0) ↔ x.getLsbD 3 = false := by decide

theorem isVrp_unique {p : SPrefix} {v w : Vrp} (h1 : p.IsVrp v) (h2 : p.IsVrp w) : v = w := by
  obtain ⟨a1, b1, c1⟩ := h1
  obtain ⟨a2, b2, c2⟩ := h2
  rw [a1] at a2
  rw [b1] at b2
  have e1 := Option.some.inj a2
  have e2 := Option.some.inj b2
  obtain ⟨va, vf, vp, vl, vm⟩ := v
  obtain ⟨wa, wf, wp, wl, wm⟩ := w
  simp only [pfxOf, Pfx.mk.injEq] at e2
  obtain ⟨e3, e4, e5⟩ := e2
  simp only at *
  have e4 := BitVec.eq_of_toNat_eq e4
  have e5 := BitVec.eq_of_toNat_eq e5
  subst e5
  have e6 : vm = wm := BitVec.eq_of_toNat_eq (by rw [c1, c2])
  simp [e1, e3, e4, e6]

theorem pfxAssertionAdd_eq {p : SPrefix} (hp : p.IsAssertion) (t : Table) :
    ∃ v : Vrp, p.IsVrp v ∧ v.WF ∧ pfxAssertionAdd t p = .ok (t.addRoa v) := by
  obtain ⟨q, hq, hpr, -⟩ := hp.pfx
  have hb2 : p.flag.getLsbD 2 = true := pfx?_flag (by simp [hq])
  have hb0 := asn?_ne.1 hp.asn
  obtain ⟨fam, hfam⟩ : ∃ fam, p.fam = some fam := by
    cases hf : p.fam with
    | none => simp [SPrefix.pfx?, hb2, hf] at hq
    | some f => exact ⟨f, rfl⟩
  have hq' : q = ⟨fam, p.prefix_.toNat, p.len.toNat⟩ := by
    simp only [SPrefix.pfx?, hb2, hfam, if_true, Option.map_some, Option.some.injEq] at hq
    exact hq.symm
  have hmax : (if p.flag &&& fMaxLen = 0 then p.len else p.maxLen).toNat = p.maxLen?.getD p.len.toNat := by
    unfold SPrefix.maxLen?
    by_cases h3 : p.flag.getLsbD 3 = true
    · rw [if_neg (by rw [bit_and_pos, h3]; simp), if_pos h3]; rfl
    · rw [if_pos (by rw [bit_and_pos]; simpa using h3), if_neg h3]; rfl
  refine ⟨⟨p.asn, fam, p.prefix_, p.len, if p.flag &&& fMaxLen = 0 then p.len else p.maxLen⟩,
    ⟨by simp [SPrefix.asn?, hb0], by rw [hq, hq']; rfl, hmax⟩, ?_, ?_⟩
  · intro hf
    simp only at hf
    subst hf
    rw [hq'] at hpr
    exact hpr.2.1
  · unfold pfxAssertionAdd
    rw [hfam]
    cases fam with
    | v4 =>
      simp only [Rtr.handleRoaV4]
      congr 3
      apply BitVec.eq_of_toNat_eq
      rw [hq'] at hpr
      have h2 := hpr.2.1
      simp only [width] at h2
      rw [BitVec.toNat_setWidth, toNat_setWidth32 h2, Nat.mod_eq_of_lt p.prefix_.isLt]
    | v6 => rfl

theorem applyPfxAssertions_eq : ∀ (ps : List SPrefix) (t : Table), (∀ p ∈ ps, p.IsAssertion) → t.WF →
    ∃ t', applyPfxAssertions ps t = .ok t' ∧ t'.WF ∧ t'.keys = t.keys ∧
      ∀ v, v ∈ t'.roas ↔ v ∈ t.roas ∨ ∃ p ∈ ps, p.IsVrp v := by
  intro ps
  induction ps with
  | nil => intro t _ ht; exact ⟨t, rfl, ht, rfl, by simp⟩
  | cons p ps ih =>
    intro t hps ht
    obtain ⟨w, hw, hwf, he⟩ := pfxAssertionAdd_eq (hps p (by simp)) t
    obtain ⟨t', h1, h2, h3, h4⟩ := ih (t.addRoa w) (fun q hq => hps q (by simp [hq])) (Rtr.WF.addRoa ht hwf)
    refine ⟨t', by rw [applyPfxAssertions, he, ok_bind, h1], h2, h3, ?_⟩
    intro v
    rw [h4]
    simp only [Rtr.Table.addRoa, Rtr.mem_hashReplace, List.mem_cons, exists_eq_or_imp]
    constructor
    · rintro ((rfl | h) | h)
      · exact Or.inr (Or.inl hw)
      · exact Or.inl h
      · exact Or.inr (Or.inr h)
    · rintro (h | h | h)
      · exact Or.inl (Or.inr h)
      · exact Or.inl (Or.inl (isVrp_unique h hw))
      · exact Or.inr h

theorem applyBgpsecAssertions_eq : ∀ (bs : List SBgpsec) (t : Table), (∀ b ∈ bs, b.IsAssertion) → t.WF →
    ∃ t', applyBgpsecAssertions bs t = .ok t' ∧ t'.WF ∧ t'.roas = t.roas ∧
      ∀ k, k ∈ t'.keys ↔ k ∈ t.keys ∨ ∃ b ∈ bs, k = ⟨b.ski.take 20, b.asn, b.spk.take 91⟩ := by
  intro bs
  induction bs with
  | nil => intro t _ ht; exact ⟨t, rfl, ht, rfl, by simp⟩
  | cons b bs ih =>
    intro t hbs ht
    have hb := hbs b (by simp)
    have he : bgpsecAssertionAdd t b = .ok (t.addKey ⟨b.ski.take 20, b.asn, b.spk.take 91⟩) := by
      have := hb.skiLen
      have := hb.spkLen
      simp [bgpsecAssertionAdd]
      omega
    obtain ⟨t', h1, h2, h3, h4⟩ := ih _ (fun q hq => hbs q (by simp [hq])) (Rtr.WF.addKey ht _)
    refine ⟨t', by rw [applyBgpsecAssertions, he, ok_bind, h1], h2, h3, ?_⟩
    intro k
    rw [h4]
    simp only [Rtr.Table.addKey, Rtr.mem_hashReplace, List.mem_cons, exists_eq_or_imp]
    tauto

/-- **C32.** Applying a SLURM to a table of validated payloads gives exactly the validated payloads no filter matches,
plus all the assertions: an assertion is there even when a filter matches it. Nothing crashes. -/
theorem C32_apply (l : Lists) (hl : l.WF) (t : Table) (ht : t.WF) (hk : ∀ k ∈ t.keys, k.ski.length = 20) :
    ∃ t', applyLists l t = .ok t' ∧ t'.WF ∧
      (∀ v, v ∈ t'.vrpSet ↔
        (v ∈ t.vrpSet ∧ ¬ ∃ f ∈ l.filterPfx, f.Matches v) ∨ ∃ p ∈ l.assertPfx, p.IsVrp v) ∧
      (∀ k, k ∈ t'.keySet ↔
        (k ∈ t.keySet ∧ ¬ ∃ f ∈ l.filterBgps, f.Matches k) ∨
          ∃ b ∈ l.assertBgps, k = ⟨b.ski.take 20, b.asn, b.spk.take 91⟩) := by
  obtain ⟨t1, a1, b1, c1, d1⟩ := applyPfxFilters_eq l hl t.roas t ht ht.vrpsWF
  obtain ⟨b2, c2, d2⟩ := applyBgpsecFilters_eq l t1 b1
  obtain ⟨t3, a3, b3, c3, d3⟩ := applyPfxAssertions_eq l.assertPfx _ hl.assertPfx b2
  obtain ⟨t4, a4, b4, c4, d4⟩ := applyBgpsecAssertions_eq l.assertBgps _ hl.assertBgps b3
  refine ⟨t4, ?_, b4, ?_, ?_⟩
  · simp only [applyLists, a1, ok_bind, a3, a4]
  · intro v
    simp only [Rtr.Table.vrpSet, List.mem_toFinset]
    rw [c4, d3, c2, d1]
    constructor
    · rintro (⟨h1, h2⟩ | h)
      · exact Or.inl ⟨h1, fun hm => h2 ⟨h1, hm⟩⟩
      · exact Or.inr h
    · rintro (⟨h1, h2⟩ | h)
      · exact Or.inl ⟨h1, fun hm => h2 hm.2⟩
      · exact Or.inr h
  · intro k
    simp only [Rtr.Table.keySet, List.mem_toFinset]
    rw [d4, c3, d2, c1]
    constructor
    · rintro (⟨h1, h2⟩ | h)
      · refine Or.inl ⟨h1, fun h => ?_⟩
        rw [(C31_bgpsec_filter l hl k (hk k h1)).2 h] at h2
        exact absurd h2 (by simp)
      · exact Or.inr h
    · rintro (⟨h1, h2⟩ | h)
      · refine Or.inl ⟨h1, ?_⟩
        cases he : bgpsecIsFiltered l k
        · rfl
        · exact absurd ((C31_bgpsec_filter l hl k (hk k h1)).1 he) h2
      · exact Or.inr h

/-- An assertion the filter of the same SLURM matches: the validated VRP goes, the asserted one stays. -/
example :
    let l : Lists := ⟨[⟨4, 0, some .v4, 0x0A000000, 8, 0⟩], [⟨5, 7, some .v4, 0x0A000000, 16, 0⟩], [], []⟩
    applyLists l ⟨[⟨3, .v4, 0x0A010000, 16, 16⟩, ⟨3, .v4, 0x0B010000, 16, 16⟩], []⟩ =
      .ok ⟨[⟨3, .v4, 0x0B010000, 16, 16⟩, ⟨7, .v4, 0x0A000000, 16, 16⟩], []⟩ := by decide

end Verif.Slurm
