import Verif.Sys.Auth
import Verif.Sys.Sim
/-
The walk by value finds exactly what is authorised.
-/
namespace Verif.Sys
open Verif.Tree Verif.Res
variable {ρ U X C S : Type}

theorem judgeMft_ok {p : Pki ρ U X C S} {ch : List (Anc U X Vals)} {a a' : Anc U X Vals} {sia : S} {d : U} {m m' : ρ × List Vrp}
    {pp : Point U C} (h : judgeMft p.byValue ch a sia d m = (m', .accepted a' pp)) :
    a' = a ∧ ∃ s₆ s₇ s₈ f v, p.mftDecode m.1 sia d = (s₆, some pp.lists) ∧ p.crlLoad s₆ pp.lists.crl = (s₇, some pp.crl) ∧
      p.mftFile s₇ sia d pp.lists pp.crl ((a :: ch).map Anc.x) = (s₈, f) ∧ f.ok = true ∧ GrantsAll (some a.r) f.policy false true f.exts v := by
  unfold judgeMft at h
  rw [show p.byValue.mftDecode m sia d = (((p.mftDecode m.1 sia d).1, m.2), (p.mftDecode m.1 sia d).2) from rfl] at h
  cases h1 : p.mftDecode m.1 sia d with
  | mk s₆ o =>
    rw [h1] at h
    cases o with
    | none => cases h
    | some lists =>
      simp only at h
      rw [show p.byValue.crlLoad (s₆, m.2) lists.crl = (((p.crlLoad s₆ lists.crl).1, m.2), (p.crlLoad s₆ lists.crl).2) from rfl] at h
      cases h2 : p.crlLoad s₆ lists.crl with
      | mk s₇ o =>
        rw [h2] at h
        cases o with
        | none => cases h
        | some c =>
          simp only at h
          rw [show p.byValue.mftOk (s₇, m.2) sia d lists c ((a :: ch).map Anc.x) a.r =
            (((p.mftFile s₇ sia d lists c ((a :: ch).map Anc.x)).1, m.2), (p.mftFile s₇ sia d lists c ((a :: ch).map Anc.x)).2.ok &&
              (grant (GrantsAll (some a.r) (p.mftFile s₇ sia d lists c ((a :: ch).map Anc.x)).2.policy false true
                (p.mftFile s₇ sia d lists c ((a :: ch).map Anc.x)).2.exts)).isSome) from rfl] at h
          cases h3 : p.mftFile s₇ sia d lists c ((a :: ch).map Anc.x) with
          | mk s₈ f =>
            rw [h3] at h
            simp only at h
            cases h4 : f.ok with
            | false => rw [h4] at h; cases h
            | true =>
              rw [h4, Bool.true_and] at h
              cases h5 : grant (GrantsAll (some a.r) f.policy false true f.exts) with
              | none => rw [h5] at h; cases h
              | some v =>
                rw [h5] at h
                cases h
                exact ⟨rfl, s₆, s₇, s₈, f, v, rfl, h2, h3, h4, grant_some h5⟩

theorem judgeCa_ok {p : Pki ρ U X C S} {ch : List (Anc U X Vals)} {parent : Option (Point U C)} {u : U} {x : X} {t : CType} {m m' : ρ × List Vrp}
    {a : Anc U X Vals} {pp : Point U C} (h : judgeCa p.byValue ch parent u x t m = (m', .accepted a pp)) :
    a.x = x ∧ a.u = u ∧ ∃ s₃ s₄ s₅ s₆ s₇ s₈ sia d f v, p.profileOk m.1 x t = (s₃, true) ∧
      p.extensions s₃ x t (parent.map (·.lists.crl)) = (s₄, some sia) ∧ p.download s₄ sia = (s₅, some d) ∧
      GrantsCa (ch.head?.map Anc.r) (p.policy x) (resType t) (p.exts x) a.r ∧
      p.mftDecode s₅ sia d = (s₆, some pp.lists) ∧ p.crlLoad s₆ pp.lists.crl = (s₇, some pp.crl) ∧
      p.mftFile s₇ sia d pp.lists pp.crl ((a :: ch).map Anc.x) = (s₈, f) ∧ f.ok = true ∧ GrantsAll (some a.r) f.policy false true f.exts v := by
  unfold judgeCa at h
  rw [show p.byValue.profileOk m x t = (((p.profileOk m.1 x t).1, m.2), (p.profileOk m.1 x t).2) from rfl] at h
  cases h1 : p.profileOk m.1 x t with
  | mk s₃ o =>
    rw [h1] at h
    cases o with
    | false => cases h
    | true =>
      simp only at h
      rw [show p.byValue.extensions (s₃, m.2) x t (parent.map (·.lists.crl)) =
        (((p.extensions s₃ x t (parent.map (·.lists.crl))).1, m.2), (p.extensions s₃ x t (parent.map (·.lists.crl))).2) from rfl] at h
      cases h2 : p.extensions s₃ x t (parent.map (·.lists.crl)) with
      | mk s₄ o =>
        rw [h2] at h
        cases o with
        | none => cases h
        | some sia =>
          simp only at h
          rw [show p.byValue.download (s₄, m.2) sia = (((p.download s₄ sia).1, m.2), (p.download s₄ sia).2) from rfl] at h
          cases h3 : p.download s₄ sia with
          | mk s₅ o =>
            rw [h3] at h
            cases o with
            | none => cases h
            | some d =>
              simp only at h
              rw [show p.byValue.resources (s₅, m.2) x sia t (ch.head?.map Anc.r) =
                ((s₅, m.2), grant (GrantsCa (ch.head?.map Anc.r) (p.policy x) (resType t) (p.exts x))) from rfl] at h
              cases h4 : grant (GrantsCa (ch.head?.map Anc.r) (p.policy x) (resType t) (p.exts x)) with
              | none => rw [h4] at h; cases h
              | some r =>
                rw [h4] at h
                obtain ⟨rfl, s₆, s₇, s₈, f, v, k1, k2, k3, k4, k5⟩ := judgeMft_ok h
                exact ⟨rfl, rfl, s₃, s₄, s₅, s₆, s₇, s₈, sia, d, f, v, rfl, h2, h3, grant_some h4, k1, k2, k3, k4, k5⟩

theorem judge_ok {p : Pki ρ U X C S} {ch : List (Anc U X Vals)} {parent : Option (Point U C)} {u : U} {m m' : ρ × List Vrp}
    {a : Anc U X Vals} {pp : Point U C} (h : judge p.byValue ch parent u m = (m', .accepted a pp)) : CaOk p ch parent u a pp := by
  unfold judge at h
  rw [show p.byValue.load m u = (((p.load m.1 u).1, m.2), (p.load m.1 u).2) from rfl] at h
  cases h1 : p.load m.1 u with
  | mk s₁ o =>
    rw [h1] at h
    cases o with
    | none => cases h
    | some x =>
      simp only at h
      have hc : ∃ s₂ b, judgeChain p.byValue ch parent x (s₁, m.2) = ((s₂, m.2), b) ∧
          (∀ q, parent = some q → p.chainOk s₁ x q.crl (ch.map Anc.x) = (s₂, b)) ∧ (parent = none → s₂ = s₁) := by
        unfold judgeChain
        cases parent with
        | none => exact ⟨s₁, true, rfl, (by rintro q ⟨⟩), fun _ => rfl⟩
        | some q =>
          refine ⟨(p.chainOk s₁ x q.crl (ch.map Anc.x)).1, (p.chainOk s₁ x q.crl (ch.map Anc.x)).2, rfl, ?_, (by rintro ⟨⟩)⟩
          rintro q ⟨⟩; rfl
      obtain ⟨s₂, b, e1, e2, e3⟩ := hc
      rw [e1] at h
      cases b with
      | false => cases h
      | true =>
        simp only at h
        rw [show p.byValue.certType = p.certType from rfl] at h
        cases h2 : p.certType x parent.isNone with
        | none => rw [h2] at h; cases h
        | some t =>
          rw [h2] at h
          have hj : judgeCa p.byValue ch parent u x t (s₂, m.2) = (m', .accepted a pp) ∧ (t = .ta ∨ t = .ca) := by
            cases t with
            | bgpsec => cases h
            | ee => cases h
            | ta => exact ⟨h, .inl rfl⟩
            | ca => exact ⟨h, .inr rfl⟩
          obtain ⟨rfl, k0, s₃, s₄, s₅, s₆, s₇, s₈, sia, d, f, v, k1, k2, k3, k4, k5, k6, k7, k8, k9⟩ := judgeCa_ok hj.1
          rw [show resType t = if t = .ta then CertType.ta else CertType.ca by rcases hj.2 with rfl | rfl <;> rfl] at k4
          exact ⟨m.1, s₁, s₂, s₃, s₄, s₅, s₆, s₇, s₈, t, sia, d, f, k0, h1, e2, e3, h2, hj.2, k1, k2, k3, k4, k5, k6, k7, k8, v, k9⟩

/-- What judging does not do: it yields no VRPs. -/
theorem judge_vrps (p : Pki ρ U X C S) (ch : List (Anc U X Vals)) (parent : Option (Point U C)) (u : U) (m : ρ × List Vrp) :
    (judge p.byValue ch parent u m).1.2 = m.2 := by
  have mft : ∀ (a : Anc U X Vals) (sia : S) (d : U) (m : ρ × List Vrp), (judgeMft p.byValue ch a sia d m).1.2 = m.2 := by
    intro a sia d m
    unfold judgeMft
    simp only [Pki.byValue]
    cases (p.mftDecode m.1 sia d).2 with
    | none => rfl
    | some l =>
      simp only
      cases (p.crlLoad (p.mftDecode m.1 sia d).1 l.crl).2 with
      | none => rfl
      | some c =>
        simp only
        generalize (_ && _ : Bool) = b
        cases b <;> rfl
  have ca : ∀ (x : X) (t : CType) (m : ρ × List Vrp), (judgeCa p.byValue ch parent u x t m).1.2 = m.2 := by
    intro x t m
    unfold judgeCa
    rw [show p.byValue.profileOk m x t = (((p.profileOk m.1 x t).1, m.2), (p.profileOk m.1 x t).2) from rfl]
    cases (p.profileOk m.1 x t).2 with
    | false => rfl
    | true =>
      simp only
      generalize hm : (((p.profileOk m.1 x t).1, m.2) : ρ × List Vrp) = m1
      have : m1.2 = m.2 := by rw [← hm]
      rw [show p.byValue.extensions m1 x t (parent.map (·.lists.crl)) =
        (((p.extensions m1.1 x t (parent.map (·.lists.crl))).1, m1.2), (p.extensions m1.1 x t (parent.map (·.lists.crl))).2) from rfl]
      cases (p.extensions m1.1 x t (parent.map (·.lists.crl))).2 with
      | none => exact this
      | some sia =>
        simp only
        generalize hm2 : (((p.extensions m1.1 x t (parent.map (·.lists.crl))).1, m1.2) : ρ × List Vrp) = m2
        have : m2.2 = m.2 := by rw [← hm2]; exact this
        rw [show p.byValue.download m2 sia = (((p.download m2.1 sia).1, m2.2), (p.download m2.1 sia).2) from rfl]
        cases (p.download m2.1 sia).2 with
        | none => exact this
        | some d =>
          simp only
          generalize hm3 : (((p.download m2.1 sia).1, m2.2) : ρ × List Vrp) = m3
          have : m3.2 = m.2 := by rw [← hm3]; exact this
          rw [show p.byValue.resources m3 x sia t (ch.head?.map Anc.r) =
                (m3, grant (GrantsCa (ch.head?.map Anc.r) (p.policy x) (resType t) (p.exts x))) from rfl]
          cases grant (GrantsCa (ch.head?.map Anc.r) (p.policy x) (resType t) (p.exts x)) with
          | none => exact this
          | some r => simp only; rw [mft]; exact this
  unfold judge
  rw [show p.byValue.load m u = (((p.load m.1 u).1, m.2), (p.load m.1 u).2) from rfl]
  cases (p.load m.1 u).2 with
  | none => rfl
  | some x =>
    simp only
    have hc : (judgeChain p.byValue ch parent x ((p.load m.1 u).1, m.2)).1.2 = m.2 := by
      unfold judgeChain
      cases parent <;> rfl
    generalize judgeChain p.byValue ch parent x ((p.load m.1 u).1, m.2) = y at hc
    obtain ⟨m1, b⟩ := y
    cases b with
    | false => exact hc
    | true =>
      simp only
      rw [show p.byValue.certType = p.certType from rfl]
      cases p.certType x parent.isNone with
      | none => exact hc
      | some t =>
        cases t with
        | bgpsec => exact hc
        | ee => exact hc
        | ta => simp only; rw [ca]; exact hc
        | ca => simp only; rw [ca]; exact hc

/-! ### Soundness -/

theorem roaFileVrps_mem {issuer : Vals} {f : RoaFile} {v : Vrp} (h : v ∈ roaFileVrps issuer f) :
    ∃ roa ee, f.content = some roa ∧ f.envelopeOk = true ∧ GrantsAll (some issuer) f.policy false true f.exts ee ∧ v ∈ roaVrps ee roa := by
  unfold roaFileVrps at h
  cases h1 : f.content with
  | none => rw [h1] at h; simp at h
  | some roa =>
    cases h2 : f.envelopeOk with
    | false => rw [h1, h2] at h; simp at h
    | true =>
      cases h3 : grant (GrantsAll (some issuer) f.policy false true f.exts) with
      | none => rw [h1, h2, h3] at h; simp at h
      | some ee =>
        rw [h1, h2, h3] at h
        exact ⟨roa, ee, rfl, rfl, grant_some h3, h⟩

theorem walkRoa_mem {p : Pki ρ U X C S} {ch : List (Anc U X Vals)} {a : Anc U X Vals} {pp : Point U C} {w : W (ρ × List Vrp) U X C Vals} {u : U}
    (hu : u ∈ pp.lists.roas) {v : Vrp} (h : v ∈ (walkRoa p.byValue ch a pp w u).1.2) :
    v ∈ w.1.2 ∨ ∃ exts ee, Asserted p (a :: ch) pp v exts ee := by
  unfold walkRoa at h
  rw [show p.byValue.roaDecode w.1 u = (((p.roaDecode w.1.1 u).1, w.1.2), (p.roaDecode w.1.1 u).2) from rfl] at h
  cases h1 : p.roaDecode w.1.1 u with
  | mk s₁ b =>
    rw [h1] at h
    cases b with
    | false => exact .inl h
    | true =>
      simp only at h
      have h : v ∈ w.1.2 ++ roaFileVrps a.r (p.roaFile s₁ u pp.lists.crl pp.crl ((a :: ch).map Anc.x)).2 := h
      rcases List.mem_append.1 h with h | h
      · exact .inl h
      · obtain ⟨roa, ee, k1, k2, k3, k4⟩ := roaFileVrps_mem h
        exact .inr ⟨_, ee, u, w.1.1, s₁, _, _, roa, a, hu, rfl, h1, rfl, k1, k2, rfl, k3, k4⟩

theorem walkGbr_vrps (p : Pki ρ U X C S) (ch : List (Anc U X Vals)) (a : Anc U X Vals) (pp : Point U C) (w : W (ρ × List Vrp) U X C Vals) (u : U) :
    (walkGbr p.byValue ch a pp w u).1.2 = w.1.2 := by
  unfold walkGbr
  rw [show p.byValue.gbrDecode w.1 u = (((p.gbrDecode w.1.1 u).1, w.1.2), (p.gbrDecode w.1.1 u).2) from rfl]
  cases (p.gbrDecode w.1.1 u).2 <;> rfl

theorem walkGbrs_vrps (p : Pki ρ U X C S) (ch : List (Anc U X Vals)) (a : Anc U X Vals) (pp : Point U C) (us : List U) :
    ∀ w : W (ρ × List Vrp) U X C Vals, (us.foldl (walkGbr p.byValue ch a pp) w).1.2 = w.1.2 := by
  induction us with
  | nil => intro w; rfl
  | cons u us ih => intro w; rw [List.foldl_cons, ih, walkGbr_vrps]

theorem walkRoas_mem {p : Pki ρ U X C S} {ch : List (Anc U X Vals)} {a : Anc U X Vals} {pp : Point U C} (us : List U)
    (hus : ∀ u ∈ us, u ∈ pp.lists.roas) {v : Vrp} : ∀ {w : W (ρ × List Vrp) U X C Vals},
    v ∈ (us.foldl (walkRoa p.byValue ch a pp) w).1.2 → v ∈ w.1.2 ∨ ∃ exts ee, Asserted p (a :: ch) pp v exts ee := by
  induction us with
  | nil => intro w h; exact .inl h
  | cons u us ih =>
    intro w h
    rcases ih (fun x hx => hus x (List.mem_cons_of_mem _ hx)) h with h | h
    · exact walkRoa_mem (hus u List.mem_cons_self) h
    · exact .inr h

theorem walk_sound {p : Pki ρ U X C S} {root : U} : ∀ (n : Nat) (ch : List (Anc U X Vals)) (parent : Option (Point U C)) (u : U)
    (w : W (ρ × List Vrp) U X C Vals) (v : Vrp), (∀ a pp, CaOk p ch parent u a pp → Certified p root (a :: ch) pp) →
    v ∈ (walk p.byValue n ch parent u w).1.1.2 → v ∈ w.1.2 ∨ Auth p root (ch.length + n) v := by
  intro n
  induction n with
  | zero => intro ch parent u w v _ h; exact .inl h
  | succ n ih =>
    intro ch parent u w v hcert h
    unfold walk at h
    have hv := judge_vrps p ch parent u w.1
    cases hj : judge p.byValue ch parent u w.1 with
    | mk m1 verdict =>
      rw [hj] at h hv
      have hv : m1.2 = w.1.2 := hv
      cases verdict with
      | rejected => exact .inl (by rw [← hv]; exact h)
      | ignored => exact .inl (by rw [← hv]; exact h)
      | accepted a pp =>
        have hc := hcert a pp (judge_ok hj)
        have kids : ∀ (us : List U), (∀ u ∈ us, u ∈ pp.lists.certs) → ∀ w' : W (ρ × List Vrp) U X C Vals,
            v ∈ (us.foldl (fun w v => (walk p.byValue n (a :: ch) (some pp) v w).1) w').1.2 → v ∈ w'.1.2 ∨ Auth p root (ch.length + (n + 1)) v := by
          intro us
          induction us with
          | nil => intro _ w' h; exact .inl h
          | cons x us ihu =>
            intro hus w' h
            rcases ihu (fun y hy => hus y (List.mem_cons_of_mem _ hy)) _ h with h | h
            · rcases ih (a :: ch) (some pp) x w' v (fun b qq hb => .listed hc (hus x List.mem_cons_self) hb) h with h | h
              · exact .inl h
              · refine .inr ?_
                rw [List.length_cons] at h
                rwa [show ch.length + (n + 1) = ch.length + 1 + n by omega]
            · exact .inr h
        rcases kids pp.lists.certs (fun _ h => h) _ h with h | h
        · unfold walkFiles at h
          rw [walkGbrs_vrps] at h
          rcases walkRoas_mem pp.lists.roas (fun _ h => h) h with h | ⟨exts, ee, h⟩
          · exact .inl (by rw [← hv]; exact h)
          · exact .inr ⟨a :: ch, pp, exts, ee, hc, by rw [List.length_cons]; omega, h⟩
        · exact .inr h

/-! ### Completeness -/

theorem steady_at {α : Type} {f : ρ → ρ × α} (hf : ∀ s s', (f s).2 = (f s').2) {s s' : ρ} {a : α} (h : f s = (s', a)) (t : ρ) :
    f t = ((f t).1, a) := by
  refine Prod.ext rfl ?_
  rw [hf t s, h]

/-- The same publication point, whose files may be listed in another order. -/
def AlikePoint (pp pp' : Point U C) : Prop := Alike pp.lists pp'.lists ∧ pp.crl = pp'.crl

theorem CaOk.alike {p : Pki ρ U X C S} {ch : List (Anc U X Vals)} {q q' pp : Point U C} {u : U} {a : Anc U X Vals} (hq : AlikePoint q q') (h : CaOk p ch (some q) u a pp) :
    CaOk p ch (some q') u a pp := by
  obtain ⟨s₀, s₁, s₂, s₃, s₄, s₅, s₆, s₇, s₈, t, sia, d, f, k0, k1, k2, k3, k4, k5, k6, k7, k8⟩ := h
  refine ⟨s₀, s₁, s₂, s₃, s₄, s₅, s₆, s₇, s₈, t, sia, d, f, k0, k1, ?_, (fun h => by cases h), k4, k5, k6, ?_, k8⟩
  · rintro _ ⟨⟩
    rw [← hq.2]
    exact k2 q rfl
  · rw [Option.map_some, ← hq.1.crl]
    exact k7

theorem Asserted.alike {p : Pki ρ U X C S} {ch : List (Anc U X Vals)} {pp pp' : Point U C} {v : Vrp} {exts : List Ext} {ee : Vals} (hq : AlikePoint pp pp') (h : Asserted p ch pp v exts ee) :
    Asserted p ch pp' v exts ee := by
  obtain ⟨u, s₀, s₁, s₂, f, roa, a', k1, k2, k3, k4, k5⟩ := h
  refine ⟨u, s₀, s₁, s₂, f, roa, a', hq.1.roas.subset k1, k2, k3, ?_, k5⟩
  rw [← hq.1.crl, ← hq.2]
  exact k4

theorem judge_complete {p : Pki ρ U X C S} (hs : Steady p) {ch : List (Anc U X Vals)} {parent : Option (Point U C)} {u : U}
    {a : Anc U X Vals} {pp : Point U C} (h : CaOk p ch parent u a pp) (m : ρ × List Vrp) :
    ∃ s pp', AlikePoint pp pp' ∧ judge p.byValue ch parent u m = ((s, m.2), .accepted a pp') := by
  obtain ⟨s₀, s₁, s₂, s₃, s₄, s₅, s₆, s₇, s₈, t, sia, d, f, k0, k1, k2, _, k4, k5, k6, k7, k8, k9, k10, k11, k12, k13, v, k14⟩ := h
  rw [← show resType t = if t = .ta then CertType.ta else CertType.ca by rcases k5 with rfl | rfl <;> rfl] at k9
  obtain ⟨x, u', r⟩ := a
  cases (show u' = u from k0)
  obtain ⟨lists, c⟩ := pp
  have mft : ∀ m : ρ × List Vrp, ∃ s pp', AlikePoint ⟨lists, c⟩ pp' ∧ judgeMft p.byValue ch ⟨x, u, r⟩ sia d m = ((s, m.2), .accepted ⟨x, u, r⟩ pp') := by
    intro m
    have j1 : (p.mftDecode s₅ sia d).2 = some lists := by rw [k10]
    obtain ⟨l', j2, j3⟩ := hs.mftDecode s₅ m.1 sia d lists j1
    have j4 : p.mftDecode m.1 sia d = ((p.mftDecode m.1 sia d).1, some l') := Prod.ext rfl j2
    unfold judgeMft
    rw [show p.byValue.mftDecode m sia d = (((p.mftDecode m.1 sia d).1, m.2), (p.mftDecode m.1 sia d).2) from rfl, j2]
    simp only
    have j5 := hs.mftFile s₅ m.1 sia d lists l' c ((⟨x, u, r⟩ :: ch : List (Anc U X Vals)).map Anc.x) j1 j2
    have j6 : p.mftFile (p.crlLoad (p.mftDecode s₅ sia d).1 lists.crl).1 sia d lists c ((⟨x, u, r⟩ :: ch : List (Anc U X Vals)).map Anc.x) = (s₈, f) := by
      rw [k10]
      simp only
      simp only at k11
      rw [k11]
      exact k12
    rw [j6] at j5
    generalize (p.mftDecode m.1 sia d).1 = q at j5 ⊢
    simp only at k11
    rw [j3.crl] at k11
    rw [show p.byValue.crlLoad (q, m.2) l'.crl = (((p.crlLoad q l'.crl).1, m.2), (p.crlLoad q l'.crl).2) from rfl,
      steady_at (fun s s' => hs.crlLoad s s' l'.crl) k11 q]
    simp only
    generalize (p.crlLoad q l'.crl).1 = q at j5 ⊢
    have e : p.byValue.mftOk (q, m.2) sia d l' c ((⟨x, u, r⟩ :: ch : List (Anc U X Vals)).map Anc.x) r =
        (((p.mftFile q sia d l' c ((⟨x, u, r⟩ :: ch : List (Anc U X Vals)).map Anc.x)).1, m.2), true) := by
      have e3 : p.byValue.mftOk (q, m.2) sia d l' c ((⟨x, u, r⟩ :: ch : List (Anc U X Vals)).map Anc.x) r =
        (((p.mftFile q sia d l' c ((⟨x, u, r⟩ :: ch : List (Anc U X Vals)).map Anc.x)).1, m.2),
          (p.mftFile q sia d l' c ((⟨x, u, r⟩ :: ch : List (Anc U X Vals)).map Anc.x)).2.ok &&
          (grant (GrantsAll (some r) (p.mftFile q sia d l' c ((⟨x, u, r⟩ :: ch : List (Anc U X Vals)).map Anc.x)).2.policy false true
            (p.mftFile q sia d l' c ((⟨x, u, r⟩ :: ch : List (Anc U X Vals)).map Anc.x)).2.exts)).isSome) := rfl
      rw [e3, ← j5]
      simp only [k13, Bool.true_and]
      have e4 := grant_eq (spec := GrantsAll (some r) f.policy false true f.exts) (fun _ _ => GrantsAll.unique) k14
      rw [e4]
      rfl
    rw [e]
    exact ⟨_, ⟨l', c⟩, ⟨j3, rfl⟩, rfl⟩
  have ca : ∀ m : ρ × List Vrp, ∃ s pp', AlikePoint ⟨lists, c⟩ pp' ∧ judgeCa p.byValue ch parent u x t m = ((s, m.2), .accepted ⟨x, u, r⟩ pp') := by
    intro m
    unfold judgeCa
    rw [show p.byValue.profileOk m x t = (((p.profileOk m.1 x t).1, m.2), (p.profileOk m.1 x t).2) from rfl,
      steady_at (fun s s' => hs.profileOk s s' x t) k6 m.1]
    simp only
    generalize (p.profileOk m.1 x t).1 = q
    rw [show p.byValue.extensions (q, m.2) x t (parent.map (·.lists.crl)) =
        (((p.extensions q x t (parent.map (·.lists.crl))).1, m.2), (p.extensions q x t (parent.map (·.lists.crl))).2) from rfl,
      steady_at (fun s s' => hs.extensions s s' x t (parent.map (·.lists.crl))) k7 q]
    simp only
    generalize (p.extensions q x t (parent.map (·.lists.crl))).1 = q
    rw [show p.byValue.download (q, m.2) sia = (((p.download q sia).1, m.2), (p.download q sia).2) from rfl,
      steady_at (fun s s' => hs.download s s' sia) k8 q]
    simp only
    generalize (p.download q sia).1 = q
    rw [show p.byValue.resources (q, m.2) x sia t (ch.head?.map Anc.r) =
      ((q, m.2), grant (GrantsCa (ch.head?.map Anc.r) (p.policy x) (resType t) (p.exts x))) from rfl,
      grant_eq (fun _ _ => GrantsCa.unique) k9]
    exact mft (q, m.2)
  unfold judge
  rw [show p.byValue.load m u = (((p.load m.1 u).1, m.2), (p.load m.1 u).2) from rfl, steady_at (fun s s' => hs.load s s' u) k1 m.1]
  simp only
  generalize (p.load m.1 u).1 = q
  have hc : ∃ s, judgeChain p.byValue ch parent x (q, m.2) = ((s, m.2), true) := by
    unfold judgeChain
    cases parent with
    | none => exact ⟨q, rfl⟩
    | some z =>
      simp only
      rw [show p.byValue.chainOk (q, m.2) x z.crl (ch.map Anc.x) =
        (((p.chainOk q x z.crl (ch.map Anc.x)).1, m.2), (p.chainOk q x z.crl (ch.map Anc.x)).2) from rfl,
        steady_at (fun s s' => hs.chainOk s s' x z.crl (ch.map Anc.x)) (k2 z rfl) q]
      exact ⟨_, rfl⟩
  obtain ⟨s, hc⟩ := hc
  rw [hc]
  simp only
  rw [show p.byValue.certType = p.certType from rfl, show p.certType x parent.isNone = some t from k4]
  rcases k5 with rfl | rfl
  · exact ca (s, m.2)
  · exact ca (s, m.2)

theorem walkRoa_mono (p : Pki ρ U X C S) (ch : List (Anc U X Vals)) (a : Anc U X Vals) (pp : Point U C) (w : W (ρ × List Vrp) U X C Vals) (u : U)
    {v : Vrp} (h : v ∈ w.1.2) : v ∈ (walkRoa p.byValue ch a pp w u).1.2 := by
  unfold walkRoa
  rw [show p.byValue.roaDecode w.1 u = (((p.roaDecode w.1.1 u).1, w.1.2), (p.roaDecode w.1.1 u).2) from rfl]
  cases (p.roaDecode w.1.1 u).2 with
  | false => exact h
  | true => exact List.mem_append_left _ h

theorem foldl_mono {f : W (ρ × List Vrp) U X C Vals → U → W (ρ × List Vrp) U X C Vals} {v : Vrp}
    (hf : ∀ w u, v ∈ w.1.2 → v ∈ (f w u).1.2) (us : List U) : ∀ w, v ∈ w.1.2 → v ∈ (us.foldl f w).1.2 := by
  induction us with
  | nil => intro w h; exact h
  | cons u us ih => intro w h; exact ih _ (hf w u h)

theorem foldl_hit {f : W (ρ × List Vrp) U X C Vals → U → W (ρ × List Vrp) U X C Vals} {v : Vrp}
    (hf : ∀ w u, v ∈ w.1.2 → v ∈ (f w u).1.2) {x : U} (hx : ∀ w, v ∈ (f w x).1.2) (us : List U) (hm : x ∈ us) :
    ∀ w, v ∈ (us.foldl f w).1.2 := by
  induction us with
  | nil => cases hm
  | cons u us ih =>
    intro w
    rw [List.foldl_cons]
    rcases List.mem_cons.1 hm with rfl | hm
    · exact foldl_mono hf us _ (hx w)
    · exact ih hm _

theorem walkFiles_mono (p : Pki ρ U X C S) (ch : List (Anc U X Vals)) (a : Anc U X Vals) (pp : Point U C) (w : W (ρ × List Vrp) U X C Vals)
    {v : Vrp} (h : v ∈ w.1.2) : v ∈ (walkFiles p.byValue ch a pp w).1.2 := by
  unfold walkFiles
  rw [walkGbrs_vrps]
  exact foldl_mono (fun w u h => walkRoa_mono p ch a pp w u h) _ _ h

theorem walk_mono (p : Pki ρ U X C S) {v : Vrp} : ∀ (n : Nat) (ch : List (Anc U X Vals)) (parent : Option (Point U C)) (u : U)
    (w : W (ρ × List Vrp) U X C Vals), v ∈ w.1.2 → v ∈ (walk p.byValue n ch parent u w).1.1.2 := by
  intro n
  induction n with
  | zero => intro ch parent u w h; exact h
  | succ n ih =>
    intro ch parent u w h
    unfold walk
    have hv := judge_vrps p ch parent u w.1
    cases hj : judge p.byValue ch parent u w.1 with
    | mk m1 verdict =>
      rw [hj] at hv
      have hv : m1.2 = w.1.2 := hv
      cases verdict with
      | rejected => show v ∈ m1.2; rw [hv]; exact h
      | ignored => show v ∈ m1.2; rw [hv]; exact h
      | accepted a pp =>
        refine foldl_mono (fun w u h => ih _ _ _ _ h) _ _ (walkFiles_mono p ch a pp _ ?_)
        show v ∈ m1.2; rw [hv]; exact h

theorem walkFiles_complete {p : Pki ρ U X C S} (hs : Steady p) {ch : List (Anc U X Vals)} {a : Anc U X Vals} {pp : Point U C} {v : Vrp}
    {exts : List Ext} {ee : Vals} (h : Asserted p (a :: ch) pp v exts ee) (w : W (ρ × List Vrp) U X C Vals) :
    v ∈ (walkFiles p.byValue ch a pp w).1.2 := by
  obtain ⟨u, s₀, s₁, s₂, f, roa, a', k1, k2, k3, k4, k5, k6, k7, k8, k9⟩ := h
  cases k2
  unfold walkFiles
  rw [walkGbrs_vrps]
  refine foldl_hit (fun w u h => walkRoa_mono p ch a pp w u h) (x := u) ?_ _ k1 _
  intro w
  unfold walkRoa
  rw [show p.byValue.roaDecode w.1 u = (((p.roaDecode w.1.1 u).1, w.1.2), (p.roaDecode w.1.1 u).2) from rfl,
    steady_at (fun s s' => hs.roaDecode s s' u) k3 w.1.1]
  simp only
  have e : (p.roaFile (p.roaDecode w.1.1 u).1 u pp.lists.crl pp.crl ((a :: ch).map Anc.x)).2 = f := by
    rw [hs.roaFile w.1.1 s₀ u pp.lists.crl pp.crl ((a :: ch).map Anc.x) (by rw [hs.roaDecode w.1.1 s₀ u, k3]), k3, k4]
  show v ∈ w.1.2 ++ roaFileVrps a.r (p.roaFile (p.roaDecode w.1.1 u).1 u pp.lists.crl pp.crl ((a :: ch).map Anc.x)).2
  rw [e]
  refine List.mem_append_right _ ?_
  unfold roaFileVrps
  subst k7
  rw [k5, k6, grant_eq (fun _ _ => GrantsAll.unique) k8]
  exact k9

/-- A certificate that is acceptable is reached. -/
theorem walk_complete {p : Pki ρ U X C S} (hs : Steady p) {root : U} {chain : List (Anc U X Vals)} {pp : Point U C} (h : Certified p root chain pp) :
    ∀ (n : Nat) (v : Vrp) (a : Anc U X Vals) (ch : List (Anc U X Vals)), chain = a :: ch →
      (∀ pp', AlikePoint pp pp' → ∀ w, v ∈ (pp'.lists.certs.foldl (fun w u => (walk p.byValue n (a :: ch) (some pp') u w).1) (walkFiles p.byValue ch a pp' w)).1.2) →
      ∀ w, v ∈ (walk p.byValue (n + 1 + ch.length) [] none root w).1.1.2 := by
  induction h with
  | @root a pp hok =>
    rintro n v a' ch ⟨⟩ hv w
    show v ∈ (walk p.byValue (n + 1) [] none root w).1.1.2
    unfold walk
    obtain ⟨s, pp', hp, e⟩ := judge_complete hs hok w.1
    rw [e]
    exact hv pp' hp _
  | @listed chain q u a pp hc hu hok ih =>
    rintro n v a' ch ⟨⟩ hv w
    cases chain with
    | nil => cases hc
    | cons b ch =>
      have := ih (n + 1) v b ch rfl (by
        intro q' hq w
        refine foldl_hit (fun w u h => walk_mono p _ _ _ _ _ h) (x := u) ?_ _ (hq.1.certs.subset hu) _
        intro w
        unfold walk
        obtain ⟨s, pp', hp, e⟩ := judge_complete hs (hok.alike hq) w.1
        rw [e]
        exact hv pp' hp _) w
      rw [List.length_cons, show n + 1 + (ch.length + 1) = n + 1 + 1 + ch.length by omega]
      exact this

end Verif.Sys
