import Verif.Sys.CycleLemmas
/-
C167 (what a TAL yields); lemmas about cycles.
-/
namespace Verif.Sys
open Verif.Tree Verif.Res
open Verif.Rtr (Table)
open Verif.Cache (Url Cfg Works)
variable {ρ U X C S : Type}

/-- **C167.** What a TAL yields comes from one only of its URIs: it has no router keys, and all its VRPs are authorised by the trust anchor
at that URI; if the files do not change meanwhile, all that is authorised by it is there. -/
theorem C167_tal (cfg : Cfg) (ta : Ta ρ U X C S) {t : Table} (h : doFileValidation cfg ta = some t)
    (hr : ∀ s u, ta.recovered s = some u → ∀ us, ta.uris = some us → u ∈ us) :
    t.WF ∧ t.keySet = ∅ ∧ ∃ us, ta.uris = some us ∧ ∃ u ∈ us, ta.pki.isCert (ta.place u) = true ∧
      (∀ v ∈ t.vrpSet, ∃ w, Auth ta.pki (ta.place u) ta.pki.maxDepth w ∧ row w = v) ∧
      (Steady ta.pki → ∀ w, Auth ta.pki (ta.place u) ta.pki.maxDepth w → row w ∈ t.vrpSet) := by
  obtain ⟨us, u, s, st, fuel, k1, k2, k3, rfl⟩ := doFile_out h
  obtain ⟨w1, w2, w3⟩ := addVrps_spec st.s.vrps Table.create ⟨List.nodup_nil, List.nodup_nil, fun v h => by cases h⟩
  have hu : u ∈ us := k2.elim id fun ⟨s, h⟩ => hr s u h us k1
  have hc : ta.pki.isCert (ta.place u) = true := by
    cases hc : ta.pki.isCert (ta.place u) with
    | true => rfl
    | false =>
      unfold validateTa at k3
      rw [C51_not_cert ta.pki.env fuel _ _ hc] at k3
      cases k3
  have w3 : ∀ v, v ∈ (st.s.vrps.foldl addVrp Table.create).vrpSet ↔ ∃ w ∈ st.s.vrps, row w = v := by
    intro v
    rw [Table.vrpSet, List.mem_toFinset, w3]
    simp [Table.create]
  refine ⟨w1, by rw [Table.keySet, w2]; rfl, us, k1, u, hu, hc, fun v hv => ?_, fun hs w hw => ?_⟩
  · obtain ⟨w, hw, e⟩ := (w3 v).1 hv
    obtain ⟨chain, pp, exts, ee, a1, a2, a3, _⟩ := C165_authorised ta.pki k3 hw
    exact ⟨w, ⟨chain, pp, exts, ee, a1, a2, a3⟩, e⟩
  · exact (w3 _).2 ⟨w, (C166_exactly ta.pki hs hc k3 w).2 hw, rfl⟩

/-- The validated payloads of a cycle whose TALs all validate. -/
theorem union_published {cfg : Cfg} {c : Cycle ρ U X C S} {tals : List Tal.Str} {db : Table}
    (hr : ∀ f ∈ tals, ∀ s u, (c.ta f).recovered s = some u → ∀ us, (c.ta f).uris = some us → u ∈ us)
    (hc : Complete cfg tals c) (hu : Tal.Union (c.world cfg) tals db) :
    db.keys = [] ∧ ∃ root : Tal.Str → Url, (∀ f ∈ tals, ∃ us, (c.ta f).uris = some us ∧ root f ∈ us) ∧
      (∀ v ∈ db.vrpSet, Authorised c tals root v) ∧
      ((∀ f ∈ tals, Steady (c.ta f).pki) → ∀ v, Authorised c tals root v → v ∈ db.vrpSet) := by
  classical
  have hv : ∀ f ∈ tals, ∃ t, doFileValidation cfg (c.ta f) = some t := fun f hf => Option.ne_none_iff_exists'.1 (hc.2 f hf)
  have H : ∀ f ∈ tals, ∃ u, (∃ us, (c.ta f).uris = some us ∧ u ∈ us) ∧ ∃ t, doFileValidation cfg (c.ta f) = some t ∧ t.keySet = ∅ ∧
      (∀ v ∈ t.vrpSet, ∃ w, Auth (c.ta f).pki ((c.ta f).place u) (c.ta f).pki.maxDepth w ∧ row w = v) ∧
      (Steady (c.ta f).pki → ∀ w, Auth (c.ta f).pki ((c.ta f).place u) (c.ta f).pki.maxDepth w → row w ∈ t.vrpSet) := by
    intro f hf
    obtain ⟨t, ht⟩ := hv f hf
    obtain ⟨_, a2, us, a3, u, a4, _, a5, a6⟩ := C167_tal cfg (c.ta f) ht (hr f hf)
    exact ⟨u, ⟨us, a3, a4⟩, t, ht, a2, a5, a6⟩
  have hval : ∀ f t, (c.world cfg).validate f = some t ↔ doFileValidation cfg (c.ta f) = some t := fun _ _ => Iff.rfl
  obtain ⟨f0, hf0⟩ := List.exists_mem_of_ne_nil _ hc.1
  haveI : Nonempty Url := ⟨(H f0 hf0).choose⟩
  haveI : Nonempty Table := ⟨Table.create⟩
  choose! root h1 tab h2 h3 h4 h5 using H
  refine ⟨?_, root, h1, ?_, ?_⟩
  · refine List.eq_nil_iff_forall_not_mem.2 fun k hk => ?_
    obtain ⟨f, hf, t, ht, hk⟩ := (hu.keys k).1 hk
    rw [hval, h2 f hf] at ht
    cases ht
    have : k ∈ (tab f).keySet := List.mem_toFinset.2 hk
    rw [h3 f hf] at this
    simp at this
  · intro v hv
    obtain ⟨f, hf, t, ht, hk⟩ := (hu.roas v).1 (List.mem_toFinset.1 hv)
    rw [hval, h2 f hf] at ht
    cases ht
    obtain ⟨w, hw⟩ := h4 f hf v (List.mem_toFinset.2 hk)
    exact ⟨f, hf, w, hw⟩
  · rintro hs v ⟨f, hf, w, hw, e⟩
    exact List.mem_toFinset.2 ((hu.roas v).2 ⟨f, hf, tab f, h2 f hf, e ▸ List.mem_toFinset.1 (h5 f hf (hs f hf) w hw)⟩)

/-- What a cycle does. -/
theorem cycle_spec {cfg : Cfg} {env : Slurm.Env} (he : env.Ok) {content : List Byte → Option Slurm.Json} {tals : List Tal.Str}
    {c : Cycle ρ U X C S} (hc : Sane cfg env content tals c) (h : List (Slurm.CycleIn × Table)) (hf : ∀ i ∈ h, Slurm.Faithful content i.1) :
    (¬ Complete cfg tals c → cycle cfg env (Slurm.keptAfter env h) c = some (Slurm.keptAfter env h, none)) ∧
    (Complete cfg tals c → ∃ t r, cycle cfg env (Slurm.keptAfter env h) c = some (Slurm.keptAfter env ((c.slurm, t) :: h), r) ∧
      (¬ Readable c.slurm → r = none) ∧
      (Readable c.slurm → ∃ t', r = some t' ∧ t'.WF ∧ t'.KeysSized ∧
        ∀ x, Slurm.InForce env (c.slurm :: h.map Prod.fst) x → Published c tals x t')) := by
  obtain ⟨r, e, hn, hsome⟩ := Tal.C53_partial (c.world cfg) tals hc.files hc.spawns
  have hcomp : Complete cfg tals c ↔ r ≠ none := by
    rw [ne_eq, hn]
    unfold Complete
    constructor
    · rintro ⟨h1, h2⟩ (h | ⟨f, hf, h⟩)
      · exact h1 h
      · exact h2 f hf h
    · intro h
      exact ⟨fun h1 => h (.inl h1), fun f hf h1 => h (.inr ⟨f, hf, h1⟩)⟩
  constructor
  · intro hx
    have : r = none := by by_contra h; exact hx (hcomp.2 h)
    subst this
    unfold cycle
    rw [e]
  · intro hx
    obtain ⟨t, rfl⟩ := Option.ne_none_iff_exists'.1 (hcomp.1 hx)
    obtain ⟨u1, u2⟩ := hsome t rfl
    obtain ⟨k0, root, r1, r2, r3⟩ := union_published hc.recovered hx u1
    have hw : t.WF := u2 fun f hf t ht => (C167_tal cfg (c.ta f) ht (hc.recovered f hf)).1
    have hk : ∀ k ∈ t.keys, k.ski.length = 20 := by rw [k0]; intro k h; cases h
    have hF : ∀ i ∈ (c.slurm, t) :: h, Slurm.Faithful content i.1 := by
      intro i hi
      rcases List.mem_cons.1 hi with rfl | hi
      · exact hc.faithful
      · exact hf i hi
    have happ := fun x hx => Slurm.C33_applied env he content h c.slurm t hw hk hF x hx hc.parses
    have hlast := fun x hx => Slurm.C33_last_valid env he content ((c.slurm, t) :: h) hF x hx
    have hkept : Slurm.keptAfter env ((c.slurm, t) :: h) = (Slurm.slurmApply env (some c.slurm) t (Slurm.keptAfter env h)).1 := rfl
    obtain ⟨x0, hx0⟩ := Slurm.inForce_total env (c.slurm :: h.map Prod.fst)
    by_cases hread : Readable c.slurm
    · obtain ⟨t', a1, _⟩ := (happ x0 hx0).2 hread.1 hread.2
      have hwf : t'.WF ∧ t'.KeysSized := by
        have hl := hlast x0 hx0
        rw [hkept] at hl
        cases hu : Slurm.updateSlurm env c.slurm (Slurm.keptAfter env h) with
        | crash => simp only [Slurm.slurmApply, hu] at a1; cases a1
        | err b => simp only [Slurm.slurmApply, hu] at a1; cases a1
        | ok o =>
          cases o with
          | none =>
            simp only [Slurm.slurmApply, hu] at a1
            cases a1
            exact ⟨hw, by rw [Table.KeysSized, k0]; intro k h; cases h⟩
          | some k =>
            simp only [Slurm.slurmApply, hu] at a1 hl
            have hkw : k.lists.WF := by
              cases x0 with
              | none => exact hl.elim
              | some L => exact hl.2
            obtain ⟨t'', b1, b2, b3, b4⟩ := Slurm.C32_apply k.lists hkw t hw hk
            rw [b1] at a1
            cases a1
            refine ⟨b2, fun q hq => ?_⟩
            rcases (b4 q).1 (List.mem_toFinset.2 hq) with ⟨g, _⟩ | ⟨b, hb, rfl⟩
            · rw [Table.keySet, k0] at g; simp at g
            · obtain ⟨_, _, g1, g2⟩ := hkw.assertBgps b hb
              simp only [List.length_take]
              omega
      refine ⟨t, some t', ?_, fun h => absurd hread h, fun _ => ⟨t', rfl, hwf.1, hwf.2, fun x hx => ?_⟩⟩
      · unfold cycle
        rw [e, hkept]
        cases hs : Slurm.slurmApply env (some c.slurm) t (Slurm.keptAfter env h) with
        | mk a b =>
          rw [hs] at a1
          cases a1
          simp only [hs]
      · obtain ⟨t'', g1, g2⟩ := (happ x hx).2 hread.1 hread.2
        rw [a1] at g1
        cases g1
        refine ⟨root, r1, ?_⟩
        cases x with
        | none =>
          cases g2
          refine ⟨r2, r3, fun k => ?_⟩
          rw [Table.keySet, k0]
          simp [DueKey]
        | some L =>
          obtain ⟨g2, g3⟩ := g2
          refine ⟨fun v hv => ?_, fun hs v hv => ?_, fun k => ?_⟩
          · rcases (g2 v).1 hv with ⟨a, b⟩ | a
            · exact .inl ⟨r2 v a, b⟩
            · exact .inr a
          · refine (g2 v).2 ?_
            rcases hv with ⟨a, b⟩ | a
            · exact .inl ⟨r3 hs v a, b⟩
            · exact .inr a
          · rw [g3]
            constructor
            · rintro (⟨a, _⟩ | a)
              · rw [Table.keySet, k0] at a; simp at a
              · exact ⟨L, rfl, a⟩
            · rintro ⟨L', e, a⟩
              cases e
              exact .inr a
    · have : none ∈ c.slurm.csums.files ∨ c.slurm.csums.readOk = false := by
        by_contra h
        rw [not_or, Bool.not_eq_false] at h
        exact hread h
      have a := (happ x0 hx0).1 this
      refine ⟨t, none, ?_, fun _ => rfl, fun h => absurd h hread⟩
      unfold cycle
      rw [e, hkept, a]
      simp only [a]

open Classical in
theorem slurms_append (cfg : Cfg) (tals : Cycle ρ U X C S → List Tal.Str) (cs : List (Cycle ρ U X C S)) (c : Cycle ρ U X C S) :
    slurms cfg tals (cs ++ [c]) = (if Complete cfg (tals c) c then [c.slurm] else []) ++ slurms cfg tals cs := by
  unfold slurms
  rw [List.filter_append, List.map_append, List.reverse_append]
  by_cases h : Complete cfg (tals c) c <;> simp [h]

theorem runCycles_spec {cfg : Cfg} {env : Slurm.Env} (he : env.Ok) {content : List Byte → Option Slurm.Json}
    {tals : Cycle ρ U X C S → List Tal.Str} : ∀ (cs : List (Cycle ρ U X C S)) (before : List (Cycle ρ U X C S)) (h : List (Slurm.CycleIn × Table)),
    (∀ c ∈ cs, Sane cfg env content (tals c) c) → (∀ i ∈ h, Slurm.Faithful content i.1) → h.map Prod.fst = slurms cfg tals before →
    ∃ k rs, runCycles cfg env (Slurm.keptAfter env h) cs = some (k, rs) ∧ rs.length = cs.length ∧
      ∀ pre c post, cs = pre ++ c :: post → ∃ r, rs[pre.length]? = some r ∧
        Result cfg env tals c (slurms cfg tals (before ++ (pre ++ [c]))) r := by
  intro cs
  induction cs with
  | nil =>
    intro before h _ _ _
    exact ⟨_, [], rfl, rfl, fun pre c post e => by cases pre <;> cases e⟩
  | cons c cs ih =>
    intro before h hc hf hh
    have hc0 := hc c List.mem_cons_self
    obtain ⟨s1, s2⟩ := cycle_spec he hc0 h hf
    have key : ∃ h' r, cycle cfg env (Slurm.keptAfter env h) c = some (Slurm.keptAfter env h', r) ∧ (∀ i ∈ h', Slurm.Faithful content i.1) ∧
        h'.map Prod.fst = slurms cfg tals (before ++ [c]) ∧ Result cfg env tals c (slurms cfg tals (before ++ [c])) r := by
      rw [slurms_append]
      by_cases hcomp : Complete cfg (tals c) c
      · obtain ⟨t, r, e, a, b⟩ := s2 hcomp
        rw [if_pos hcomp]
        refine ⟨(c.slurm, t) :: h, r, e, ?_, by simp [hh], fun hg => a fun hr => hg ⟨hcomp, hr⟩, fun hg => ?_⟩
        · intro i hi
          rcases List.mem_cons.1 hi with rfl | hi
          · exact hc0.faithful
          · exact hf i hi
        · obtain ⟨t', e', w1, w2, w3⟩ := b hg.2
          refine ⟨t', e', w1, w2, fun x hx => w3 x ?_⟩
          rw [hh]
          exact hx
      · rw [if_neg hcomp]
        exact ⟨h, none, s1 hcomp, hf, by simp [hh], fun _ => rfl, fun hg => absurd hg.1 hcomp⟩
    obtain ⟨h', r, e, hf', hh', hr⟩ := key
    obtain ⟨k, rs, e2, hl, hall⟩ := ih (before ++ [c]) h' (fun c hc' => hc c (List.mem_cons_of_mem _ hc')) hf' hh'
    refine ⟨k, r :: rs, ?_, by simp [hl], fun pre c' post ec => ?_⟩
    · unfold runCycles
      rw [e]
      simp only [e2]
    · cases pre with
      | nil =>
        cases ec
        exact ⟨r, rfl, hr⟩
      | cons c'' pre =>
        cases ec
        obtain ⟨r', g1, g2⟩ := hall pre c' post rfl
        refine ⟨r', by simpa using g1, ?_⟩
        simpa using g2

/-! ### Publication -/

theorem getLast_publish (snaps : List Table) (t : Table) : ∃ cur, (Rtr.publish snaps (some t)).getLast? = some cur ∧ cur.SameData t := by
  unfold Rtr.publish
  cases hl : snaps.getLast? with
  | none => exact ⟨t, rfl, rfl, rfl⟩
  | some last =>
    simp only
    by_cases h : last.SameData t
    · rw [if_pos h]; exact ⟨last, hl, h⟩
    · rw [if_neg h]; exact ⟨t, by simp, rfl, rfl⟩

theorem snapshots_last (pre post : List (Option Table)) (t : Table) (hp : ∀ r ∈ post, r = none) :
    ∃ cur, (Rtr.snapshots (pre ++ some t :: post)).getLast? = some cur ∧ cur.SameData t := by
  unfold Rtr.snapshots
  rw [List.foldl_append, List.foldl_cons]
  have : ∀ (post : List (Option Table)) acc, (∀ r ∈ post, r = none) → post.foldl Rtr.publish acc = acc := by
    intro post
    induction post with
    | nil => intro _ _; rfl
    | cons r post ih =>
      intro acc h
      rw [h r List.mem_cons_self, List.foldl_cons]
      exact ih acc fun r hr => h r (List.mem_cons_of_mem _ hr)
  rw [this post _ hp]
  exact getLast_publish _ t

theorem publish_prefix (snaps : List Table) (r : Option Table) : snaps <+: Rtr.publish snaps r := by
  unfold Rtr.publish
  cases r with
  | none => exact List.prefix_refl _
  | some t =>
    cases hl : snaps.getLast? with
    | none => rw [List.getLast?_eq_none_iff] at hl; subst hl; exact List.nil_prefix
    | some last =>
      simp only
      by_cases h : last.SameData t
      · rw [if_pos h]
      · rw [if_neg h]; exact List.prefix_append _ _

theorem snapshots_prefix (rs rs' : List (Option Table)) : Rtr.snapshots rs <+: Rtr.snapshots (rs ++ rs') := by
  unfold Rtr.snapshots
  rw [List.foldl_append]
  generalize rs.foldl Rtr.publish [] = acc
  induction rs' generalizing acc with
  | nil => exact List.prefix_refl _
  | cons r rs' ih => exact (publish_prefix acc r).trans (ih _)

theorem synced_same {v : BitVec 8} {a b : Table} {n : Nat} (h : a.SameData b) : Rtr.synced v a n = Rtr.synced v b n := by
  unfold Rtr.synced Rtr.Rfc.vrpRecs Rtr.Rfc.keyRecs
  rw [h.1, h.2]

theorem runCycles_append {cfg : Cfg} {env : Slurm.Env} : ∀ (cs more : List (Cycle ρ U X C S)) (k : Option Slurm.Kept) {k' : Option Slurm.Kept}
    {rs' : List (Option Table)}, runCycles cfg env k (cs ++ more) = some (k', rs') →
    ∃ k₁ rs rs₂, runCycles cfg env k cs = some (k₁, rs) ∧ rs' = rs ++ rs₂ ∧ rs₂.length = more.length := by
  intro cs
  induction cs with
  | nil =>
    intro more
    induction more with
    | nil => intro k k' rs' h; cases h; exact ⟨k, [], [], rfl, rfl, rfl⟩
    | cons c more ih =>
      intro k k' rs' h
      rw [List.nil_append, runCycles] at h
      cases h1 : cycle cfg env k c with
      | none => rw [h1] at h; cases h
      | some kr =>
        obtain ⟨k1, r⟩ := kr
        rw [h1] at h
        simp only at h
        cases h2 : runCycles cfg env k1 more with
        | none => rw [h2] at h; cases h
        | some kr =>
          obtain ⟨k2, rs⟩ := kr
          rw [h2] at h
          cases h
          obtain ⟨k3, rs1, rs2, g1, g2, g3⟩ := ih k1 h2
          cases g1
          exact ⟨k, [], r :: rs, rfl, rfl, by rw [g2]; simp [g3]⟩
  | cons c cs ih =>
    intro more k k' rs' h
    rw [List.cons_append, runCycles] at h
    cases h1 : cycle cfg env k c with
    | none => rw [h1] at h; cases h
    | some kr =>
      obtain ⟨k1, r⟩ := kr
      rw [h1] at h
      simp only at h
      cases h2 : runCycles cfg env k1 (cs ++ more) with
      | none => rw [h2] at h; cases h
      | some kr =>
        obtain ⟨k2, rs⟩ := kr
        rw [h2] at h
        cases h
        obtain ⟨k3, rs1, rs2, g1, g2, g3⟩ := ih more k1 h2
        refine ⟨k3, r :: rs1, rs2, ?_, by rw [g2]; rfl, g3⟩
        rw [runCycles, h1]
        simp only [g1]

theorem snapshots_length (rs rs' : List (Option Table)) : (Rtr.snapshots (rs ++ rs')).length ≤ (Rtr.snapshots rs).length + rs'.length := by
  unfold Rtr.snapshots
  rw [List.foldl_append]
  generalize rs.foldl Rtr.publish [] = acc
  induction rs' generalizing acc with
  | nil => exact Nat.le_refl _
  | cons r rs' ih =>
    have h1 := ih (Rtr.publish acc r)
    have h2 : (Rtr.publish acc r).length ≤ acc.length + 1 := by
      unfold Rtr.publish
      cases r with
      | none => exact Nat.le_succ _
      | some t =>
        cases hl : acc.getLast? with
        | none => simp
        | some last =>
          simp only
          by_cases h : last.SameData t
          · rw [if_pos h]; exact Nat.le_succ _
          · rw [if_neg h]; simp
    rw [List.foldl_cons, List.length_cons]
    omega

end Verif.Sys
