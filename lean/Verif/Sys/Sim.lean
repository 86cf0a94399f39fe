import Verif.Sys.RoaRel
/-
The traversal with pointers does what the one by value does.
-/
namespace Verif.Sys
open Verif.Tree Verif.Res
variable {ρ U X C S : Type}

theorem grant_eq {spec : Vals → Prop} (hu : ∀ v v', spec v → spec v' → v' = v) {v : Vals} (hv : spec v) : grant spec = some v := by
  unfold grant
  have h : ∃ v, spec v := ⟨v, hv⟩
  rw [dif_pos h]
  exact congrArg some (hu v _ hv h.choose_spec)

theorem grant_none {spec : Vals → Prop} (h : ∀ v, ¬ spec v) : grant spec = none := by
  unfold grant
  rw [dif_neg (by rintro ⟨v, hv⟩; exact h v hv)]

theorem grant_some {spec : Vals → Prop} {v : Vals} (h : grant spec = some v) : spec v := by
  unfold grant at h
  split at h
  · rename_i hx
    cases h
    exact hx.choose_spec
  · cases h

theorem GrantsCa.unique {issuer : Option Vals} {policy : Policy} {type : CertType} {exts : List Ext} {v v' : Vals}
    (h : GrantsCa issuer policy type exts v) (h' : GrantsCa issuer policy type exts v') : v' = v := h.1.unique h'.1

/-- The states agree. -/
structure SM (m : Mem ρ) (m' : ρ × List Vrp) : Prop where
  rest : m.rest = m'.1
  vrps : m.vrps = m'.2
  good : GoodHeap m.heap

structure ARel (h : Heap) (a : Anc U X Resources) (b : Anc U X Vals) : Prop where
  x : a.x = b.x
  u : a.u = b.u
  r : RRel h a.r b.r

/-- The chains agree. -/
inductive ChRel (h : Heap) : List (Anc U X Resources) → List (Anc U X Vals) → Prop where
  | nil : ChRel h [] []
  | cons {a b l m} : ARel h a b → ChRel h l m → ChRel h (a :: l) (b :: m)

theorem ARel.mono {h h' : Heap} {a : Anc U X Resources} {b : Anc U X Vals} (k : ARel h a b) (g : Grow h h') : ARel h' a b :=
  ⟨k.x, k.u, k.r.mono g⟩

theorem ChRel.mono {h h' : Heap} {a : List (Anc U X Resources)} {b : List (Anc U X Vals)} (k : ChRel h a b) (g : Grow h h') : ChRel h' a b := by
  induction k with
  | nil => exact .nil
  | cons k _ ih => exact .cons (k.mono g) ih

theorem ChRel.xs {h : Heap} {a : List (Anc U X Resources)} {b : List (Anc U X Vals)} (k : ChRel h a b) : a.map Anc.x = b.map Anc.x := by
  induction k with
  | nil => rfl
  | cons k _ ih => rw [List.map_cons, List.map_cons, k.x, ih]

theorem ChRel.top {h : Heap} {a : List (Anc U X Resources)} {b : List (Anc U X Vals)} (k : ChRel h a b) :
    IRel h (a.head?.map Anc.r) (b.head?.map Anc.r) := by
  cases k with
  | nil => trivial
  | cons k _ => exact k.r

/-- The verdicts agree. -/
inductive VRel (h : Heap) : Verdict U X C Resources → Verdict U X C Vals → Prop where
  | rejected : VRel h .rejected .rejected
  | ignored : VRel h .ignored .ignored
  | accepted {a b} (pp) : ARel h a b → VRel h (.accepted a pp) (.accepted b pp)

/-- The results of a step agree. -/
structure Step {α β : Type} (m : Mem ρ) (rel : Heap → α → β → Prop) (x : Mem ρ × α) (y : (ρ × List Vrp) × β) : Prop where
  sm : SM x.1 y.1
  grow : Grow m.heap x.1.heap
  rel : rel x.1.heap x.2 y.2

theorem resources_sim (p : Pki ρ U X C S) {m : Mem ρ} {m' : ρ × List Vrp} (sm : SM m m') {issuer : Option Resources} {issuer' : Option Vals}
    (hi : IRel m.heap issuer issuer') (x : X) (sia : S) (t : CType) :
    Step m (fun h a b => (a = none ∧ b = none) ∨ ∃ r v, a = some r ∧ b = some v ∧ RRel h r v)
      (p.env.resources m x sia t issuer) (p.byValue.resources m' x sia t issuer') := by
  obtain ⟨a, b, c, d⟩ := initResources_val sm.good hi (p.policy x) (p.exts x) (resType t)
  show Step m _ (resources p m x t issuer) (m', _)
  unfold resources
  generalize initResources m.heap issuer (p.policy x) (p.exts x) (resType t) = y at a b c d
  obtain ⟨h, r, o⟩ := y
  cases o with
  | ok =>
    obtain ⟨v, hv, hr⟩ := c rfl
    rw [grant_eq (fun _ _ => GrantsCa.unique) hv]
    exact ⟨⟨sm.rest, sm.vrps, a⟩, b, .inr ⟨r, v, rfl, rfl, hr⟩⟩
  | err =>
    rw [grant_none (fun v hv => absurd (d v hv) (by simp))]
    exact ⟨⟨sm.rest, sm.vrps, a⟩, b, .inl ⟨rfl, rfl⟩⟩
  | crit =>
    rw [grant_none (fun v hv => absurd (d v hv) (by simp))]
    exact ⟨sm, Grow.refl _, .inl ⟨rfl, rfl⟩⟩

theorem mftOk_sim (p : Pki ρ U X C S) {m : Mem ρ} {m' : ρ × List Vrp} (sm : SM m m') {issuer : Resources} {issuer' : Vals}
    (hi : RRel m.heap issuer issuer') (sia : S) (d : U) (lists : Lists U) (c : C) (xs : List X) :
    Step m (fun _ a b => a = b) (p.env.mftOk m sia d lists c xs issuer) (p.byValue.mftOk m' sia d lists c xs issuer') := by
  obtain ⟨s, vrps⟩ := m'
  obtain ⟨rest, heap, vrps'⟩ := m
  obtain ⟨h1, h2, h3⟩ := sm
  cases h1; cases h2
  obtain ⟨a, b, e1, e2⟩ := getResources_val h3 (parent := some issuer) (issuer := some issuer') hi (p.mftFile s sia d lists c xs).2.policy false
    (p.mftFile s sia d lists c xs).2.exts .ee
  refine ⟨⟨rfl, rfl, a⟩, b, ?_⟩
  show ((p.mftFile s sia d lists c xs).2.ok && decide (_ = Out.ok)) = ((p.mftFile s sia d lists c xs).2.ok && _)
  congr 1
  by_cases ho : (certificateGetResources heap (Resources.create (p.mftFile s sia d lists c xs).2.policy false) (some issuer)
      (p.mftFile s sia d lists c xs).2.exts .ee).2.2 = .ok
  · obtain ⟨v, hv, hr⟩ := e1 ho
    rw [grant_eq (fun _ _ => GrantsAll.unique)
      (spec := GrantsAll (some issuer') (p.mftFile s sia d lists c xs).2.policy false true (p.mftFile s sia d lists c xs).2.exts) hv]
    exact decide_eq_true ho
  · rw [grant_none (spec := GrantsAll (some issuer') (p.mftFile s sia d lists c xs).2.policy false true (p.mftFile s sia d lists c xs).2.exts)
      (fun v hv => ho (e2 v hv))]
    exact decide_eq_false ho

theorem yields_eq {issuer : Vals} {f : RoaFile} {vs : List Vrp} (h : Yields issuer f vs) : vs = roaFileVrps issuer f := by
  unfold roaFileVrps
  rcases h with ⟨roa, v, h1, h2, h3, h4⟩ | ⟨h1, h2⟩
  · rw [h1, h2, grant_eq (fun _ _ => GrantsAll.unique) h3]
    exact h4
  · rw [h1]
    cases hc : f.content with
    | none => rfl
    | some roa =>
      cases he : f.envelopeOk with
      | false => rfl
      | true =>
        rw [grant_none (fun v hv => h2 ⟨roa, v, hc, he, hv⟩)]

theorem roa_sim (p : Pki ρ U X C S) {m : Mem ρ} {m' : ρ × List Vrp} (sm : SM m m') {issuer : Resources} {issuer' : Vals}
    (hi : RRel m.heap issuer issuer') (u crl : U) (c : C) (xs : List X) :
    SM (p.env.roa m u crl c xs issuer) (p.byValue.roa m' u crl c xs issuer') ∧ Grow m.heap (p.env.roa m u crl c xs issuer).heap := by
  obtain ⟨s, vrps⟩ := m'
  obtain ⟨rest, heap, vrps'⟩ := m
  obtain ⟨h1, h2, h3⟩ := sm
  cases h1; cases h2
  obtain ⟨a, b, d⟩ := roaTraverse_val h3 hi (p.roaFile s u crl c xs).2
  have e := yields_eq d
  exact ⟨⟨rfl, congrArg (vrps ++ ·) e, a⟩, b⟩

theorem gbr_sim (p : Pki ρ U X C S) {m : Mem ρ} {m' : ρ × List Vrp} (sm : SM m m') {issuer : Resources} {issuer' : Vals}
    (hi : RRel m.heap issuer issuer') (u crl : U) (c : C) (xs : List X) :
    SM (p.env.gbr m u crl c xs issuer) (p.byValue.gbr m' u crl c xs issuer') ∧ Grow m.heap (p.env.gbr m u crl c xs issuer).heap := by
  obtain ⟨s, vrps⟩ := m'
  obtain ⟨rest, heap, vrps'⟩ := m
  obtain ⟨h1, h2, h3⟩ := sm
  cases h1; cases h2
  show SM (gbr p _ u crl c xs issuer) _ ∧ Grow _ (gbr p _ u crl c xs issuer).heap
  unfold gbr
  simp only [Pki.byValue]
  obtain ⟨a, b, _, _⟩ := getResources_val h3 (parent := some issuer) (issuer := some issuer') hi (p.gbrFile s u crl c xs).2.policy true
    (p.gbrFile s u crl c xs).2.exts .ee
  exact ⟨⟨rfl, rfl, a⟩, b⟩

/-- A step outside of the memory. -/
theorem lift_sim {α : Type} {m : Mem ρ} {m' : ρ × List Vrp} (sm : SM m m') (f : ρ → ρ × α) :
    Step m (fun _ a b => a = b) (lift f m) (((f m'.1).1, m'.2), (f m'.1).2) := by
  unfold lift
  rw [sm.rest]
  exact ⟨⟨rfl, sm.vrps, sm.good⟩, Grow.refl _, rfl⟩

theorem Step.trans {α β γ δ : Type} {m : Mem ρ} {rel : Heap → α → β → Prop} {x : Mem ρ × α} {y : (ρ × List Vrp) × β}
    (h : Step m rel x y) {rel' : Heap → γ → δ → Prop} {x' : Mem ρ × γ} {y' : (ρ × List Vrp) × δ} (h' : Step x.1 rel' x' y') : Step m rel' x' y' :=
  ⟨h'.sm, h.grow.trans h'.grow, h'.rel⟩

theorem judgeMft_sim (p : Pki ρ U X C S) {m : Mem ρ} {m' : ρ × List Vrp} (sm : SM m m') {ch : List (Anc U X Resources)} {ch' : List (Anc U X Vals)}
    (hc : ChRel m.heap ch ch') {a : Anc U X Resources} {a' : Anc U X Vals} (ha : ARel m.heap a a') (sia : S) (d : U) :
    Step m VRel (judgeMft p.env ch a sia d m) (judgeMft p.byValue ch' a' sia d m') := by
  unfold judgeMft
  have k1 := lift_sim sm (p.mftDecode · sia d)
  have e1 : p.env.mftDecode m sia d = lift (p.mftDecode · sia d) m := rfl
  have e1' : p.byValue.mftDecode m' sia d = (((p.mftDecode m'.1 sia d).1, m'.2), (p.mftDecode m'.1 sia d).2) := rfl
  rw [← e1, ← e1'] at k1
  generalize p.env.mftDecode m sia d = x at k1
  generalize p.byValue.mftDecode m' sia d = y at k1
  obtain ⟨m1, o⟩ := x
  obtain ⟨m1', o'⟩ := y
  cases (show o = o' from k1.rel)
  cases o with
  | none => exact ⟨k1.sm, k1.grow, .rejected⟩
  | some lists =>
    simp only
    have k2 := lift_sim k1.sm (p.crlLoad · lists.crl)
    have e2 : p.env.crlLoad m1 lists.crl = lift (p.crlLoad · lists.crl) m1 := rfl
    have e2' : p.byValue.crlLoad m1' lists.crl = (((p.crlLoad m1'.1 lists.crl).1, m1'.2), (p.crlLoad m1'.1 lists.crl).2) := rfl
    rw [← e2, ← e2'] at k2
    have k2 := k1.trans k2
    generalize p.env.crlLoad m1 lists.crl = x at k2
    generalize p.byValue.crlLoad m1' lists.crl = y at k2
    obtain ⟨m2, o⟩ := x
    obtain ⟨m2', o'⟩ := y
    cases (show o = o' from k2.rel)
    cases o with
    | none => exact ⟨k2.sm, k2.grow, .rejected⟩
    | some c =>
      simp only
      have k3 := mftOk_sim p k2.sm (ha.mono k2.grow).r sia d lists c ((a :: ch).map Anc.x)
      have k3 := k2.trans k3
      rw [List.map_cons, List.map_cons, ← hc.xs, ← ha.x] at *
      generalize p.env.mftOk m2 sia d lists c (a.x :: ch.map Anc.x) a.r = x at k3
      generalize p.byValue.mftOk m2' sia d lists c (a.x :: ch.map Anc.x) a'.r = y at k3
      obtain ⟨m3, o⟩ := x
      obtain ⟨m3', o'⟩ := y
      cases (show o = o' from k3.rel)
      cases o with
      | false => exact ⟨k3.sm, k3.grow, .rejected⟩
      | true => exact ⟨k3.sm, k3.grow, .accepted _ (ha.mono k3.grow)⟩

theorem judgeCa_sim (p : Pki ρ U X C S) {m : Mem ρ} {m' : ρ × List Vrp} (sm : SM m m') {ch : List (Anc U X Resources)} {ch' : List (Anc U X Vals)}
    (hc : ChRel m.heap ch ch') (parent : Option (Point U C)) (u : U) (x : X) (t : CType) :
    Step m VRel (judgeCa p.env ch parent u x t m) (judgeCa p.byValue ch' parent u x t m') := by
  unfold judgeCa
  have k1 := lift_sim sm (p.profileOk · x t)
  have e1 : p.env.profileOk m x t = lift (p.profileOk · x t) m := rfl
  have e1' : p.byValue.profileOk m' x t = (((p.profileOk m'.1 x t).1, m'.2), (p.profileOk m'.1 x t).2) := rfl
  rw [← e1, ← e1'] at k1
  generalize p.env.profileOk m x t = y at k1
  generalize p.byValue.profileOk m' x t = z at k1
  obtain ⟨m1, o⟩ := y
  obtain ⟨m1', o'⟩ := z
  cases (show o = o' from k1.rel)
  cases o with
  | false => exact ⟨k1.sm, k1.grow, .rejected⟩
  | true =>
    simp only
    have k2 := lift_sim k1.sm (p.extensions · x t (parent.map fun p => p.lists.crl))
    have e2 : p.env.extensions m1 x t (parent.map fun p => p.lists.crl) = lift (p.extensions · x t (parent.map fun p => p.lists.crl)) m1 := rfl
    have e2' : p.byValue.extensions m1' x t (parent.map fun p => p.lists.crl) =
      (((p.extensions m1'.1 x t (parent.map fun p => p.lists.crl)).1, m1'.2), (p.extensions m1'.1 x t (parent.map fun p => p.lists.crl)).2) := rfl
    rw [← e2, ← e2'] at k2
    have k2 := k1.trans k2
    generalize p.env.extensions m1 x t (parent.map fun p => p.lists.crl) = y at k2
    generalize p.byValue.extensions m1' x t (parent.map fun p => p.lists.crl) = z at k2
    obtain ⟨m2, o⟩ := y
    obtain ⟨m2', o'⟩ := z
    cases (show o = o' from k2.rel)
    cases o with
    | none => exact ⟨k2.sm, k2.grow, .rejected⟩
    | some sia =>
      simp only
      have k3 := lift_sim k2.sm (p.download · sia)
      have e3 : p.env.download m2 sia = lift (p.download · sia) m2 := rfl
      have e3' : p.byValue.download m2' sia = (((p.download m2'.1 sia).1, m2'.2), (p.download m2'.1 sia).2) := rfl
      rw [← e3, ← e3'] at k3
      have k3 := k2.trans k3
      generalize p.env.download m2 sia = y at k3
      generalize p.byValue.download m2' sia = z at k3
      obtain ⟨m3, o⟩ := y
      obtain ⟨m3', o'⟩ := z
      cases (show o = o' from k3.rel)
      cases o with
      | none => exact ⟨k3.sm, k3.grow, .rejected⟩
      | some d =>
        simp only
        have k4 := resources_sim p k3.sm (hc.mono k3.grow).top x sia t
        have k4 := k3.trans k4
        generalize p.env.resources m3 x sia t (ch.head?.map Anc.r) = y at k4
        generalize p.byValue.resources m3' x sia t (ch'.head?.map Anc.r) = z at k4
        obtain ⟨m4, o⟩ := y
        obtain ⟨m4', o'⟩ := z
        rcases k4.rel with ⟨h1, h2⟩ | ⟨r, v, h1, h2, h3⟩
        · cases (show o = none from h1)
          cases (show o' = none from h2)
          exact ⟨k4.sm, k4.grow, .rejected⟩
        · cases (show o = some r from h1)
          cases (show o' = some v from h2)
          simp only
          exact k4.trans (judgeMft_sim p k4.sm (hc.mono k4.grow) (a := ⟨x, u, r⟩) (a' := ⟨x, u, v⟩) ⟨rfl, rfl, h3⟩ sia d)

theorem judge_sim (p : Pki ρ U X C S) {m : Mem ρ} {m' : ρ × List Vrp} (sm : SM m m') {ch : List (Anc U X Resources)} {ch' : List (Anc U X Vals)}
    (hc : ChRel m.heap ch ch') (parent : Option (Point U C)) (u : U) :
    Step m VRel (judge p.env ch parent u m) (judge p.byValue ch' parent u m') := by
  unfold judge
  have k1 := lift_sim sm (p.load · u)
  have e1 : p.env.load m u = lift (p.load · u) m := rfl
  have e1' : p.byValue.load m' u = (((p.load m'.1 u).1, m'.2), (p.load m'.1 u).2) := rfl
  rw [← e1, ← e1'] at k1
  generalize p.env.load m u = y at k1
  generalize p.byValue.load m' u = z at k1
  obtain ⟨m1, o⟩ := y
  obtain ⟨m1', o'⟩ := z
  cases (show o = o' from k1.rel)
  cases o with
  | none => exact ⟨k1.sm, k1.grow, .rejected⟩
  | some x =>
    simp only
    have k2 : Step m1 (fun _ a b => a = b) (judgeChain p.env ch parent x m1) (judgeChain p.byValue ch' parent x m1') := by
      unfold judgeChain
      cases parent with
      | none => exact ⟨k1.sm, Grow.refl _, rfl⟩
      | some q =>
        have k := lift_sim k1.sm (p.chainOk · x q.crl (ch.map Anc.x))
        simp only
        rw [← hc.xs]
        exact k
    have k2 := k1.trans k2
    generalize judgeChain p.env ch parent x m1 = y at k2
    generalize judgeChain p.byValue ch' parent x m1' = z at k2
    obtain ⟨m2, o⟩ := y
    obtain ⟨m2', o'⟩ := z
    cases (show o = o' from k2.rel)
    cases o with
    | false => exact ⟨k2.sm, k2.grow, .rejected⟩
    | true =>
      simp only
      rw [show p.env.certType = p.certType from rfl, show p.byValue.certType = p.certType from rfl]
      cases p.certType x parent.isNone with
      | none => exact ⟨k2.sm, k2.grow, .rejected⟩
      | some t =>
        cases t with
        | bgpsec => exact ⟨k2.sm, k2.grow, .ignored⟩
        | ee => exact ⟨k2.sm, k2.grow, .ignored⟩
        | ta => exact k2.trans (judgeCa_sim p k2.sm (hc.mono k2.grow) parent u x .ta)
        | ca => exact k2.trans (judgeCa_sim p k2.sm (hc.mono k2.grow) parent u x .ca)

/-- What two walks have in common. -/
structure WRel (m : Mem ρ) (w : W (Mem ρ) U X C Resources) (w' : W (ρ × List Vrp) U X C Vals) : Prop where
  sm : SM w.1 w'.1
  grow : Grow m.heap w.1.heap

theorem foldl_sim {m : Mem ρ} {f : W (Mem ρ) U X C Resources → U → W (Mem ρ) U X C Resources}
    {f' : W (ρ × List Vrp) U X C Vals → U → W (ρ × List Vrp) U X C Vals}
    (hf : ∀ w w' u, WRel m w w' → WRel m (f w u) (f' w' u)) (us : List U) : ∀ w w', WRel m w w' → WRel m (us.foldl f w) (us.foldl f' w') := by
  induction us with
  | nil => intro w w' h; exact h
  | cons u us ih => intro w w' h; exact ih _ _ (hf w w' u h)

theorem walkRoa_sim (p : Pki ρ U X C S) {m : Mem ρ} {ch : List (Anc U X Resources)} {ch' : List (Anc U X Vals)} (hc : ChRel m.heap ch ch')
    {a : Anc U X Resources} {a' : Anc U X Vals} (ha : ARel m.heap a a') (pp : Point U C) (w : W (Mem ρ) U X C Resources)
    (w' : W (ρ × List Vrp) U X C Vals) (u : U) (h : WRel m w w') : WRel m (walkRoa p.env ch a pp w u) (walkRoa p.byValue ch' a' pp w' u) := by
  unfold walkRoa
  have k1 := lift_sim h.sm (p.roaDecode · u)
  have e1 : p.env.roaDecode w.1 u = lift (p.roaDecode · u) w.1 := rfl
  have e1' : p.byValue.roaDecode w'.1 u = (((p.roaDecode w'.1.1 u).1, w'.1.2), (p.roaDecode w'.1.1 u).2) := rfl
  rw [← e1, ← e1'] at k1
  generalize p.env.roaDecode w.1 u = y at k1
  generalize p.byValue.roaDecode w'.1 u = z at k1
  obtain ⟨m1, o⟩ := y
  obtain ⟨m1', o'⟩ := z
  cases (show o = o' from k1.rel)
  cases o with
  | false => exact ⟨k1.sm, h.grow.trans k1.grow⟩
  | true =>
    have g := h.grow.trans k1.grow
    obtain ⟨a1, a2⟩ := roa_sim p k1.sm (ha.mono g).r u pp.lists.crl pp.crl ((a :: ch).map Anc.x)
    have ex : (a :: ch).map Anc.x = (a' :: ch').map Anc.x := by rw [List.map_cons, List.map_cons, hc.xs, ha.x]
    refine ⟨?_, g.trans a2⟩
    show SM (p.env.roa m1 u pp.lists.crl pp.crl ((a :: ch).map Anc.x) a.r) (p.byValue.roa m1' u pp.lists.crl pp.crl ((a' :: ch').map Anc.x) a'.r)
    rw [← ex]
    exact a1

theorem walkGbr_sim (p : Pki ρ U X C S) {m : Mem ρ} {ch : List (Anc U X Resources)} {ch' : List (Anc U X Vals)} (hc : ChRel m.heap ch ch')
    {a : Anc U X Resources} {a' : Anc U X Vals} (ha : ARel m.heap a a') (pp : Point U C) (w : W (Mem ρ) U X C Resources)
    (w' : W (ρ × List Vrp) U X C Vals) (u : U) (h : WRel m w w') : WRel m (walkGbr p.env ch a pp w u) (walkGbr p.byValue ch' a' pp w' u) := by
  unfold walkGbr
  have k1 := lift_sim h.sm (p.gbrDecode · u)
  have e1 : p.env.gbrDecode w.1 u = lift (p.gbrDecode · u) w.1 := rfl
  have e1' : p.byValue.gbrDecode w'.1 u = (((p.gbrDecode w'.1.1 u).1, w'.1.2), (p.gbrDecode w'.1.1 u).2) := rfl
  rw [← e1, ← e1'] at k1
  generalize p.env.gbrDecode w.1 u = y at k1
  generalize p.byValue.gbrDecode w'.1 u = z at k1
  obtain ⟨m1, o⟩ := y
  obtain ⟨m1', o'⟩ := z
  cases (show o = o' from k1.rel)
  cases o with
  | false => exact ⟨k1.sm, h.grow.trans k1.grow⟩
  | true =>
    have g := h.grow.trans k1.grow
    obtain ⟨a1, a2⟩ := gbr_sim p k1.sm (ha.mono g).r u pp.lists.crl pp.crl ((a :: ch).map Anc.x)
    have ex : (a :: ch).map Anc.x = (a' :: ch').map Anc.x := by rw [List.map_cons, List.map_cons, hc.xs, ha.x]
    refine ⟨?_, g.trans a2⟩
    show SM (p.env.gbr m1 u pp.lists.crl pp.crl ((a :: ch).map Anc.x) a.r) (p.byValue.gbr m1' u pp.lists.crl pp.crl ((a' :: ch').map Anc.x) a'.r)
    rw [← ex]
    exact a1

theorem walk_sim (p : Pki ρ U X C S) : ∀ (n : Nat) (m : Mem ρ) (ch : List (Anc U X Resources)) (ch' : List (Anc U X Vals)),
    ChRel m.heap ch ch' → ∀ (parent : Option (Point U C)) (u : U) (w : W (Mem ρ) U X C Resources) (w' : W (ρ × List Vrp) U X C Vals),
    WRel m w w' → WRel m (walk p.env n ch parent u w).1 (walk p.byValue n ch' parent u w').1 ∧
      (walk p.env n ch parent u w).2 = (walk p.byValue n ch' parent u w').2 := by
  intro n
  induction n with
  | zero => intro m ch ch' _ parent u w w' h; exact ⟨h, rfl⟩
  | succ n ih =>
    intro m ch ch' hc parent u w w' h
    unfold walk
    have k := judge_sim p h.sm (hc.mono h.grow) parent u
    generalize judge p.env ch parent u w.1 = y at k
    generalize judge p.byValue ch' parent u w'.1 = z at k
    obtain ⟨m1, o⟩ := y
    obtain ⟨m1', o'⟩ := z
    obtain ⟨k1, k2, k3⟩ := k
    cases k3 with
    | rejected => exact ⟨⟨k1, h.grow.trans k2⟩, rfl⟩
    | ignored => exact ⟨⟨k1, h.grow.trans k2⟩, rfl⟩
    | @accepted a b pp ha =>
      refine ⟨?_, rfl⟩
      have hc1 := hc.mono (h.grow.trans k2)
      have w1 : ∀ l l', WRel (U := U) (X := X) (C := C) m1 (m1, l) (m1', l') := fun l l' => ⟨k1, Grow.refl _⟩
      have r1 : WRel m1 _ _ := foldl_sim (fun w w' u h => walkRoa_sim p hc1 ha pp w w' u h) pp.lists.roas _ _
        (w1 (seen ch (parent.map Point.crl) u :: w.2) (seen ch' (parent.map Point.crl) u :: w'.2))
      have r2 : WRel m1 _ _ := foldl_sim (fun w w' u h => walkGbr_sim p hc1 ha pp w w' u h) pp.lists.gbrs _ _ r1
      have r3 : WRel m1 _ _ := foldl_sim (fun w w' v h => (ih m1 (a :: ch) (b :: ch') (.cons ha hc1) (some pp) v w w' h).1) pp.lists.certs _ _ r2
      exact ⟨r3.sm, (h.grow.trans k2).trans r3.grow⟩

end Verif.Sys
