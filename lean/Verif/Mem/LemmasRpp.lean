import Verif.Mem.Lemmas
/-
Triples for publication points.
-/
namespace Verif.Mem

theorem count_set {i : Id} {r r' : Rpp} : ∀ {l : List Rpp} {p : Nat}, l[p]? = some r →
    ((l.set p r').flatMap Rpp.things).count i + r.things.count i = (l.flatMap Rpp.things).count i + r'.things.count i := by
  intro l
  induction l with
  | nil => intro p h; simp at h
  | cons a l ih =>
    intro p h
    cases p with
    | zero =>
      simp only [List.getElem?_cons_zero, Option.some.injEq] at h
      subst h
      simp only [List.set_cons_zero, List.flatMap_cons, List.count_append]
      omega
    | succ p =>
      simp only [List.getElem?_cons_succ] at h
      have := ih h
      simp only [List.set_cons_succ, List.flatMap_cons, List.count_append]
      omega

theorem things_held {s : St} {p : Nat} {r : Rpp} (h : s.rpps[p]? = some r) {i : Id} (hi : i ∈ r.things) : i ∈ s.held := by
  unfold St.held
  have : i ∈ s.rpps.flatMap Rpp.things := List.mem_flatMap.2 ⟨r, List.mem_of_getElem? h, hi⟩
  simp [this]

/-- What the primitives do not change. -/
def Keeps {α : Type} (m : M α) : Prop := ∀ s, (m s).2.rpps = s.rpps

theorem Keeps.bind {α β : Type} {m : M α} {k : α → M β} (h : Keeps m) (hk : ∀ a, Keeps (k a)) : Keeps (m >>= k) := fun s => (hk _ _).trans (h s)

theorem Keeps.pure {α : Type} {a : α} : Keeps (Pure.pure a : M α) := fun _ => rfl

theorem Keeps.ite {α : Type} {c : Prop} [Decidable c] {a b : M α} (ha : Keeps a) (hb : Keeps b) : Keeps (if c then a else b) := by
  by_cases h : c
  · rw [if_pos h]; exact ha
  · rw [if_neg h]; exact hb

theorem k_ask : Keeps ask := fun _ => rfl
theorem k_new : Keeps new := fun _ => rfl
theorem k_use {i : Id} : Keeps (use i) := fun _ => rfl
theorem k_put {i : Id} : Keeps (put i) := fun _ => rfl
theorem k_pushName {i : Id} : Keeps (pushName i) := fun _ => rfl
theorem k_popName : Keeps popName := fun _ => rfl
theorem k_log : Keeps log := fun s => by unfold log; cases s.names <;> rfl
theorem k_fails : Keeps fails := (k_ask.bind fun _ => .pure).bind fun _ => .ite (k_log.bind fun _ => .pure) .pure
theorem k_create : Keeps create := k_fails.bind fun _ => .ite .pure (k_new.bind fun _ => .pure)

theorem k_addCrl {u : Id} : Keeps (addCrl u) := by
  refine k_pushName.bind fun _ => k_use.bind fun _ => k_create.bind fun r => ?_
  cases r with
  | none => exact k_popName.bind fun _ => .pure
  | some x => exact k_fails.bind fun _ => .ite (k_put.bind fun _ => k_popName.bind fun _ => .pure) (k_popName.bind fun _ => .pure)

theorem Tri.keep {α : Type} {P : St → Prop} {m : M α} {Q : α → St → Prop} {R : List Rpp} (h : Tri P m Q) (hk : Keeps m) :
    Tri (fun s => P s ∧ s.rpps = R) m (fun a s => Q a s ∧ s.rpps = R) := fun s hs => ⟨h s hs.1, (hk s).trans hs.2⟩

theorem rpp_alive {f : Fr} {s : St} (h : Own f s) {p : Nat} (hp : p ∈ f.G ∨ p ∈ deferRpps s.defers) : ∃ r, s.rpps[p]? = some r ∧ r.refs ≠ 0 := by
  have h1 := h.rbal p
  have h2 : s.rrefs p ≠ 0 := by
    rcases hp with hp | hp
    · have := count_ne_zero hp; omega
    · have := count_ne_zero hp; omega
  unfold St.rrefs at h2
  cases hr : s.rpps[p]? with
  | none => rw [hr] at h2; exact absurd rfl h2
  | some r => rw [hr] at h2; exact ⟨r, rfl, h2⟩

theorem t_rppAt {f : Fr} {p : Nat} (hp : p ∈ f.G) : Tri (Own f) (rppAt p) (fun r s => Own f s ∧ (s.rpps[p]? = some r ∧ r.refs ≠ 0)) := by
  intro s h
  obtain ⟨r, hr, h0⟩ := rpp_alive h (.inl hp)
  unfold rppAt
  rw [hr]
  exact ⟨{ h with good := by show (s.bad || decide (r.refs = 0)) = false; simp [h.good, h0] }, hr, h0⟩

theorem rrefs_set {s : St} {p : Nat} {r r' : Rpp} (hr : s.rpps[p]? = some r) (q : Nat) : ({ s with rpps := s.rpps.set p r' } : St).rrefs q = if q = p then r'.refs else s.rrefs q := by
  have hlt : p < s.rpps.length := (List.getElem?_eq_some_iff.1 hr).1
  by_cases h : q = p
  · subst h
    simp [St.rrefs, hlt]
  · have : ¬ p = q := fun e => h e.symm
    simp [St.rrefs, List.getElem?_set, this, h]

theorem held_set {s : St} {p : Nat} {r r' : Rpp} (hr : s.rpps[p]? = some r) (i : Id) :
    ({ s with rpps := s.rpps.set p r' } : St).held.count i + r.things.count i = s.held.count i + r'.things.count i := by
  have := count_set (i := i) (r' := r') hr
  simp only [St.held, List.count_append]
  omega

theorem get_set {s : St} {p : Nat} {r r' : Rpp} (hr : s.rpps[p]? = some r) {q : Nat} {x : Rpp} (h : (s.rpps.set p r')[q]? = some x) : (q = p ∧ x = r') ∨ (q ≠ p ∧ s.rpps[q]? = some x) := by
  have hlt : p < s.rpps.length := (List.getElem?_eq_some_iff.1 hr).1
  by_cases e : q = p
  · subst e
    rw [List.getElem?_set_self hlt] at h
    exact .inl ⟨rfl, (Option.some.inj h).symm⟩
  · rw [List.getElem?_set_ne (fun h => e h.symm)] at h
    exact .inr ⟨e, h⟩

theorem hasCrl_set {s : St} {p : Nat} {r r' : Rpp} (hr : s.rpps[p]? = some r) (hc : r.crl.isSome = true → r'.crl.isSome = true) {q : Nat} (h : HasCrl s q) :
    HasCrl { s with rpps := s.rpps.set p r' } q := by
  have hlt : p < s.rpps.length := (List.getElem?_eq_some_iff.1 hr).1
  obtain ⟨x, hx, h2⟩ := h
  by_cases e : q = p
  · subst e
    rw [hr] at hx
    cases hx
    exact ⟨r', List.getElem?_set_self hlt, hc h2⟩
  · exact ⟨x, (List.getElem?_set_ne (fun h => e h.symm)).trans hx, h2⟩

/-- A publication point takes references (`m`) from its user. -/
theorem t_rppSet {f : Fr} {m : List Id} {p : Nat} {r r' : Rpp} (h0 : r'.refs = r.refs) (hne : r.refs ≠ 0) (hc : r.crl.isSome = true → r'.crl.isSome = true)
    (ht : ∀ i, r'.things.count i = r.things.count i + m.count i) : Tri (fun s => Own (f.owns m) s ∧ s.rpps[p]? = some r) (rppSet p r') (fun _ => Own f) := by
  rintro s ⟨h, hr⟩
  refine { h with bal := ?_, rbal := ?_, dead := ?_, crls := ?_, crlsD := ?_ }
  · intro i
    show s.refs i = ({ s with rpps := s.rpps.set p r' } : St).held.count i + f.L.count i
    have h1 := h.bal i
    have h2 := held_set (r' := r') hr i
    have h3 := ht i
    rw [show (f.owns m).L = m ++ f.L from rfl, List.count_append] at h1
    omega
  · intro q
    have := rrefs_set (r' := r') hr q
    show ({ s with rpps := s.rpps.set p r' } : St).rrefs q = (deferRpps s.defers).count q + f.G.count q
    rw [this]
    have h1 : s.rrefs q = (deferRpps s.defers).count q + f.G.count q := h.rbal q
    by_cases e : q = p
    · subst e
      rw [if_pos rfl, h0, ← h1]
      simp [St.rrefs, hr]
    · rw [if_neg e]; exact h1
  · intro q x hx hx0
    rcases get_set hr hx with ⟨-, rfl⟩ | ⟨-, h⟩
    · exact absurd (h0 ▸ hx0) hne
    · rename_i h'
      exact h'.dead q x h hx0
  · exact fun q hq => hasCrl_set hr hc (h.crls q hq)
  · exact fun q hq => hasCrl_set hr hc (h.crlsD q hq)

theorem t_rppNew {f : Fr} : Tri (Own f) rppNew (fun p => Own { f with G := p :: f.G }) := by
  intro s h
  have hheld : ∀ i, ({ s with rpps := s.rpps ++ [⟨1, [], [], [], none, none, false⟩] } : St).held.count i = s.held.count i := by
    intro i
    simp [St.held, Rpp.things]
  have hcrl : ∀ q, HasCrl s q → HasCrl { s with rpps := s.rpps ++ [⟨1, [], [], [], none, none, false⟩] } q := by
    rintro q ⟨r, hr, hc⟩
    exact ⟨r, by rw [List.getElem?_append_left (List.getElem?_eq_some_iff.1 hr).1]; exact hr, hc⟩
  refine { h with bal := fun i => ?_, rbal := fun q => ?_, dead := fun q r hr h0 => ?_, crls := fun q hq => hcrl q (h.crls q hq), crlsD := fun q hq => hcrl q (h.crlsD q hq) }
  · exact (h.bal i).trans (by rw [← hheld]; rfl)
  · show St.rrefs _ q = _ + (s.rpps.length :: f.G).count q
    have h1 := h.rbal q
    rw [List.count_cons]
    by_cases e : q = s.rpps.length
    · subst e
      have : s.rrefs s.rpps.length = 0 := by simp [St.rrefs]
      simp [St.rrefs, rppNew]
      omega
    · have e' : ¬ s.rpps.length = q := fun x => e x.symm
      have : St.rrefs { s with rpps := s.rpps ++ [⟨1, [], [], [], none, none, false⟩] } q = s.rrefs q := by
        simp only [St.rrefs]
        by_cases hlt : q < s.rpps.length
        · rw [List.getElem?_append_left hlt]
        · have h2 : s.rpps[q]? = none := List.getElem?_eq_none (by omega)
          have h3 : (s.rpps ++ [⟨1, [], [], [], none, none, false⟩])[q]? = none := List.getElem?_eq_none (by rw [List.length_append, List.length_singleton]; omega)
          rw [h2, h3]
      simp only [e', beq_iff_eq, if_false, Nat.add_zero]
      exact this.trans h1
  · by_cases hlt : q < s.rpps.length
    · have : s.rpps[q]? = some r := by
        have : (s.rpps ++ [⟨1, [], [], [], none, none, false⟩])[q]? = some r := hr
        rwa [List.getElem?_append_left hlt] at this
      exact h.dead q r this h0
    · have : (s.rpps ++ [⟨1, [], [], [], none, none, false⟩])[q]? = some r := hr
      rw [List.getElem?_append_right (by omega)] at this
      have hm := List.mem_of_getElem? this
      simp only [List.mem_singleton] at hm
      subst hm
      rfl

theorem t_rppGet {f : Fr} {p : Nat} (hp : p ∈ f.G) : Tri (Own f) (rppGet p) (fun _ => Own { f with G := p :: f.G }) := by
  refine Tri.bind (t_rppAt hp) fun r => ?_
  rintro s ⟨h, hr, h0⟩
  have ht : ({ r with refs := r.refs + 1 } : Rpp).things = r.things := rfl
  refine { h with bal := ?_, rbal := ?_, dead := ?_, crls := ?_, crlsD := ?_ }
  · intro i
    have h1 := h.bal i
    have h2 := held_set (r' := { r with refs := r.refs + 1 }) hr i
    rw [ht] at h2
    show s.refs i = (({ s with rpps := s.rpps.set p { r with refs := r.refs + 1 } } : St)).held.count i + f.L.count i
    omega
  · intro q
    show ({ s with rpps := s.rpps.set p { r with refs := r.refs + 1 } } : St).rrefs q = _ + (p :: f.G).count q
    rw [rrefs_set hr q, List.count_cons]
    have h1 := h.rbal q
    by_cases e : q = p
    · subst e
      have : s.rrefs q = r.refs := by simp [St.rrefs, hr]
      simp
      show _ = (deferRpps s.defers).count q + _
      omega
    · have e' : ¬ p = q := fun x => e x.symm
      simp only [e, e', beq_iff_eq, if_false, Nat.add_zero]
      exact h1
  · intro q x hx hx0
    rcases get_set hr hx with ⟨-, rfl⟩ | ⟨-, h'⟩
    · exact absurd hx0 (Nat.succ_ne_zero _)
    · exact h.dead q x h' hx0
  · exact fun q hq => hasCrl_set (r' := { r with refs := r.refs + 1 }) hr (fun h => h) (h.crls q hq)
  · exact fun q hq => hasCrl_set (r' := { r with refs := r.refs + 1 }) hr (fun h => h) (h.crlsD q hq)

theorem t_rppPut {f : Fr} {p : Nat} (hA : ∀ u ∈ f.A, u ∈ f.L) (hC : p ∈ f.C → p ∈ f.G) : Tri (Own { f with G := p :: f.G }) (rppPut p) (fun _ => Own f) := by
  refine Tri.bind (t_rppAt List.mem_cons_self) fun r => ?_
  refine Tri.ite (fun h1 => ?_) (fun h1 => ?_)
  · refine Tri.bind (Q := fun _ => Own (f.owns r.things)) ?_ (fun _ => t_putAll _ fun i _ hi => hA i hi)
    rintro s ⟨h, hr, h0⟩
    have hb := h.rbal p
    have hrr : s.rrefs p = r.refs := by simp [St.rrefs, hr]
    rw [show ({ f with G := p :: f.G } : Fr).G = p :: f.G from rfl, List.count_cons_self] at hb
    have hp1 : (deferRpps s.defers).count p = 0 := by omega
    have hp2 : f.G.count p = 0 := by omega
    have hcrl : ∀ q, q ≠ p → HasCrl s q → HasCrl { s with rpps := s.rpps.set p ⟨0, [], [], [], none, none, false⟩ } q := by
      rintro q hq ⟨x, hx, hc⟩
      exact ⟨x, (List.getElem?_set_ne (fun h => hq h.symm)).trans hx, hc⟩
    refine { h with bal := ?_, rbal := ?_, dead := ?_, crls := ?_, crlsD := ?_ }
    · intro i
      show s.refs i = ({ s with rpps := s.rpps.set p ⟨0, [], [], [], none, none, false⟩ } : St).held.count i + (r.things ++ f.L).count i
      have h2 := held_set (r' := ⟨0, [], [], [], none, none, false⟩) hr i
      have h3 : s.refs i = s.held.count i + f.L.count i := h.bal i
      rw [List.count_append]
      simp only [show (⟨0, [], [], [], none, none, false⟩ : Rpp).things = [] from rfl, List.count_nil, Nat.add_zero] at h2
      omega
    · intro q
      show ({ s with rpps := s.rpps.set p ⟨0, [], [], [], none, none, false⟩ } : St).rrefs q = (deferRpps s.defers).count q + f.G.count q
      rw [rrefs_set hr q]
      by_cases e : q = p
      · subst e; simp; omega
      · rw [if_neg e]
        have h4 : s.rrefs q = (deferRpps s.defers).count q + (p :: f.G).count q := h.rbal q
        have e' : ¬ p = q := fun x => e x.symm
        rw [List.count_cons] at h4
        simpa [e'] using h4
    · intro q x hx hx0
      rcases get_set hr hx with ⟨-, rfl⟩ | ⟨-, h'⟩
      · rfl
      · exact h.dead q x h' hx0
    · intro q hq
      refine hcrl q ?_ (h.crls q hq)
      rintro rfl
      exact count_ne_zero (hC hq) hp2
    · intro q hq
      refine hcrl q ?_ (h.crlsD q hq)
      rintro rfl
      exact count_ne_zero hq hp1
  · rintro s ⟨h, hr, h0⟩
    have ht : ({ r with refs := r.refs - 1 } : Rpp).things = r.things := rfl
    refine { h with bal := ?_, rbal := ?_, dead := ?_, crls := ?_, crlsD := ?_ }
    · intro i
      show s.refs i = (({ s with rpps := s.rpps.set p { r with refs := r.refs - 1 } } : St)).held.count i + f.L.count i
      have h2 := held_set (r' := { r with refs := r.refs - 1 }) hr i
      rw [ht] at h2
      have h3 : s.refs i = s.held.count i + f.L.count i := h.bal i
      omega
    · intro q
      show ({ s with rpps := s.rpps.set p { r with refs := r.refs - 1 } } : St).rrefs q = (deferRpps s.defers).count q + f.G.count q
      rw [rrefs_set hr q]
      have h4 : s.rrefs q = (deferRpps s.defers).count q + (p :: f.G).count q := h.rbal q
      rw [List.count_cons] at h4
      by_cases e : q = p
      · subst e
        have : s.rrefs q = r.refs := by simp [St.rrefs, hr]
        simp at h4 ⊢
        omega
      · have e' : ¬ p = q := fun x => e x.symm
        rw [if_neg e]
        simpa [e'] using h4
    · intro q x hx hx0
      rcases get_set hr hx with ⟨-, rfl⟩ | ⟨-, h'⟩
      · exact absurd hx0 (by show r.refs - 1 ≠ 0; omega)
      · exact h.dead q x h' hx0
    · exact fun q hq => hasCrl_set (r' := { r with refs := r.refs - 1 }) hr (fun h => h) (h.crls q hq)
    · exact fun q hq => hasCrl_set (r' := { r with refs := r.refs - 1 }) hr (fun h => h) (h.crlsD q hq)

theorem t_rppAdd {f : Fr} {p : Nat} {k : Kind} {u : Id} (hp : p ∈ f.G) : Tri (Own (f.own u)) (rppAdd p k u) (fun _ => Own f) := by
  refine Tri.bind (t_rppAt (f := f.own u) hp) fun r => ?_
  cases k with
  | cer =>
    intro s hs
    refine t_rppSet (f := f) (m := [u]) (r := r) (r' := { r with certs := r.certs ++ [u] }) rfl hs.2.2 (fun h => h) (fun i => ?_) s ⟨hs.1, hs.2.1⟩
    simp only [Rpp.things, List.count_append]
    omega
  | roa =>
    intro s hs
    refine t_rppSet (f := f) (m := [u]) (r := r) (r' := { r with roas := r.roas ++ [u] }) rfl hs.2.2 (fun h => h) (fun i => ?_) s ⟨hs.1, hs.2.1⟩
    simp only [Rpp.things, List.count_append]
    omega
  | gbr =>
    intro s hs
    refine t_rppSet (f := f) (m := [u]) (r := r) (r' := { r with gbrs := r.gbrs ++ [u] }) rfl hs.2.2 (fun h => h) (fun i => ?_) s ⟨hs.1, hs.2.1⟩
    simp only [Rpp.things, List.count_append]
    omega

theorem t_rppAddCrl {f : Fr} {p : Nat} {u : Id} (hp : p ∈ f.G) : Tri (Own (f.own u)) (rppAddCrl p u) (fun e => if e then Own (f.own u) else Own f) := by
  refine Tri.bind (t_rppAt (f := f.own u) hp) fun r => ?_
  refine Tri.ite (fun h => ?_) (fun h => ?_)
  · exact Tri.bind (Q := fun _ => Own (f.own u)) (t_log.weaken (fun s h => h.1) (fun _ _ h => h)) fun _ => Tri.pure fun _ h => h
  · refine Tri.bind (Q := fun _ => Own f) ?_ fun _ => Tri.pure fun _ h => h
    intro s hs
    refine t_rppSet (f := f) (m := [u]) (r := r) (r' := { r with crl := some u }) rfl hs.2.2 (fun _ => rfl) (fun i => ?_) s ⟨hs.1, hs.2.1⟩
    have : r.crl = none := by cases hc : r.crl <;> simp_all
    simp only [Rpp.things, List.count_append, this, Option.toList_some, Option.toList_none, List.count_nil]
    omega

theorem t_addCrl {f : Fr} {u : Id} (hu : u ∈ f.A) : Tri (Own f) (addCrl u) (fun r s => match r with | none => Own f s | some x => Own (f.own x) s ∧ x ∉ f.A) := by
  refine Tri.bind (t_pushName hu) fun _ => ?_
  refine Tri.bind (t_use (f := { f with N := u :: f.N }) (.inr hu)) fun _ => ?_
  refine Tri.bind (t_create (f := { f with N := u :: f.N })) fun r => ?_
  cases r with
  | none => exact Tri.bind (t_popName (f := f)) fun _ => Tri.pure fun _ h => h
  | some x =>
    refine Tri.pre fun hx => ?_
    refine Tri.bind (t_fails (f := Fr.own { f with N := u :: f.N } x)) fun e => ?_
    refine Tri.ite (fun _ => ?_) (fun _ => ?_)
    · exact Tri.bind (t_put (f := { f with N := u :: f.N }) fun h => absurd h hx) fun _ => Tri.bind (t_popName (f := f)) fun _ => Tri.pure fun _ h => h
    · exact Tri.bind (t_popName (f := f.own x)) fun _ => Tri.pure fun _ h => ⟨h, hx⟩

/-- The CRL, if there is one, is alive. -/
abbrev Fr.crl (f : Fr) : Option Id → Fr
  | none => f
  | some c => { f with A := c :: f.A }

theorem t_rppCrl {f : Fr} {parent : Option Nat} (hp : ∀ p, parent = some p → p ∈ f.G ∧ p ∈ f.C) :
    Tri (Own f) (rppCrl parent) (fun r s => match r with | none => Own f s | some c => Own (f.crl c) s) := by
  cases parent with
  | none => exact Tri.pure fun _ h => h
  | some p =>
    obtain ⟨hG, hC⟩ := hp p rfl
    refine Tri.bind (t_rppAt hG) fun r => ?_
    rintro s ⟨h, hr, h0⟩
    obtain ⟨r', hr', hc⟩ := h.crls p hC
    rw [hr] at hr'
    cases hr'
    cases hcrl : r.crl with
    | none => rw [hcrl] at hc; cases hc
    | some u =>
      have hu : s.refs u ≠ 0 := h.held_ne (things_held hr (by simp [Rpp.things, hcrl]))
      simp only []
      cases hst : r.stack with
      | some x =>
        obtain ⟨c, d⟩ := x
        have hcc : s.refs c ≠ 0 := h.held_ne (things_held hr (by simp [Rpp.things, hst]))
        exact { h with
          alive := fun v hv => by
            rcases List.mem_cons.1 hv with rfl | hv
            · exact hcc
            · exact h.alive v hv
          named := fun v hv => List.mem_cons_of_mem _ (h.named v hv) }
      | none =>
        simp only []
        by_cases hf : r.failed = true
        · rw [if_pos hf]; exact h
        · rw [if_neg hf]
          have hfr : Own { f with A := u :: f.A } s := { h with
            alive := fun v hv => by
              rcases List.mem_cons.1 hv with rfl | hv
              · exact hu
              · exact h.alive v hv
            named := fun v hv => List.mem_cons_of_mem _ (h.named v hv) }
          have hback : ∀ {l : List Id} {s : St}, Own { f with L := l, A := u :: f.A } s → Own { f with L := l } s := fun {l s'} h' =>
            h'.weaken (fun _ => rfl) (fun _ => rfl) rfl (fun v hv => .inl (List.mem_cons_of_mem _ hv)) (fun v hv => h.named v hv) (fun _ h => h) rfl (fun h => h)
          have key : Tri (fun s' => Own { f with A := u :: f.A } s' ∧ s'.rpps = s.rpps) (do
              let stack ← new
              match ← addCrl u with
              | none =>
                rppSet p { r with failed := true }
                put stack
                return none
              | some crl =>
                rppSet p { r with stack := some (stack, crl) }
                return some (some stack)) (fun r s => match r with | none => Own f s | some c => Own (f.crl c) s) := by
            refine Tri.bind (t_new.keep k_new) fun stack => ?_
            refine Tri.bind (Q := fun (o : Option Id) s' => match o with
              | none => (Own { f with L := stack :: f.L, A := u :: f.A } s' ∧ stack ∉ u :: f.A) ∧ s'.rpps = s.rpps
              | some x => (Own { f with L := x :: stack :: f.L, A := u :: f.A } s' ∧ stack ∉ u :: f.A) ∧ s'.rpps = s.rpps) ?_ fun o => ?_
            · intro s1 h1
              have := t_addCrl (f := { f with L := stack :: f.L, A := u :: f.A }) (u := u) List.mem_cons_self s1 h1.1.1
              have hk := (k_addCrl (u := u) s1).trans h1.2
              cases ho : (addCrl u s1).1 with
              | none => rw [ho] at this; exact ⟨⟨this, h1.1.2⟩, hk⟩
              | some x => rw [ho] at this; exact ⟨⟨this.1, h1.1.2⟩, hk⟩
            · cases o with
              | none =>
                refine Tri.bind (Q := fun _ s' => Own { f with L := stack :: f.L } s' ∧ stack ∉ f.A) ?_ fun _ => ?_
                · rintro s1 ⟨⟨h1, hx⟩, h2⟩
                  exact ⟨t_rppSet (f := { f with L := stack :: f.L }) (m := []) (r := r) (r' := { r with failed := true }) rfl h0 (fun h => h) (fun i => rfl) s1 ⟨hback h1, h2 ▸ hr⟩, fun h => hx (List.mem_cons_of_mem _ h)⟩
                · refine Tri.pre fun hx => ?_
                  exact Tri.bind (t_put (f := f) fun h => absurd h hx) fun _ => Tri.pure fun _ h => h
              | some x =>
                refine Tri.bind (Q := fun _ s' => Own { f with A := stack :: f.A } s') ?_ fun _ => Tri.pure fun _ h => h
                rintro s1 ⟨⟨h1, hx⟩, h2⟩
                have h3 : Own { f with L := stack :: x :: f.L, A := stack :: f.A } s1 := h1.weaken (fun i => by simp only [List.count_cons]; omega) (fun _ => rfl) rfl
                  (fun v hv => by
                    rcases List.mem_cons.1 hv with rfl | hv
                    · exact .inr (by simp)
                    · exact .inl (List.mem_cons_of_mem _ hv)) (fun v hv => List.mem_cons_of_mem _ (h.named v hv)) (fun _ h => h) rfl (fun h => h)
                exact t_rppSet (f := { f with A := stack :: f.A }) (m := [stack, x]) (r := r) (r' := { r with stack := some (stack, x) }) rfl h0 (fun h => h) (fun i => by
                  simp only [Rpp.things, List.count_append, hst, Option.toList_none, Option.toList_some, List.flatMap_nil, List.flatMap_cons, List.append_nil, List.count_nil, List.nil_append, Nat.add_zero]) s1 ⟨h3, h2 ▸ hr⟩
          simp only [hcrl, hst] at key
          exact key s ⟨hfr, rfl⟩

end Verif.Mem
