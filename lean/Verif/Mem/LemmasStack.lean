import Verif.Mem.LemmasRpp
import Mathlib.Tactic.Set
/-
Triples for the stack of certificates.
-/
namespace Verif.Mem

theorem deferRpps_cons (d : Option (Id × Nat)) (l : List (Option (Id × Nat))) : deferRpps (d :: l) = d.toList.map Prod.snd ++ deferRpps l := rfl
theorem deferUris_cons (d : Option (Id × Nat)) (l : List (Option (Id × Nat))) : deferUris (d :: l) = d.toList.map Prod.fst ++ deferUris l := rfl

/-- The frame, with other deferred certificates. -/
abbrev Fr.def (f : Fr) (D : List (Option (Id × Nat))) : Fr := { f with D := D }

theorem t_deferPush {f : Fr} {u : Id} {p : Nat} (hu : u ∈ f.L ∨ u ∈ f.A) (hp : p ∈ f.G) (hc : p ∈ f.C) : Tri (Own f) (deferPush u p) (fun _ => Own (f.def (some (u, p) :: f.D))) := by
  refine Tri.bind (t_get hu) fun _ => ?_
  refine Tri.bind (t_rppGet (f := f.own u) hp) fun _ => ?_
  intro s h
  refine { h with bal := fun i => ?_, rbal := fun q => ?_, crls := fun q hq => h.crls q hq, crlsD := fun q hq => ?_, defers := ?_, shape := fun hb => ?_ }
  · have h1 : s.refs i = s.held.count i + (u :: f.L).count i := h.bal i
    show s.refs i = ({ s with defers := some (u, p) :: s.defers } : St).held.count i + f.L.count i
    rw [h1]
    simp only [St.held, deferUris_cons, Option.toList_some, List.map_cons, List.map_nil, List.count_append, List.cons_append, List.nil_append, List.count_cons]
    omega
  · have h1 : s.rrefs q = (deferRpps s.defers).count q + (p :: f.G).count q := h.rbal q
    show s.rrefs q = (deferRpps (some (u, p) :: s.defers)).count q + f.G.count q
    rw [h1]
    simp only [deferRpps_cons, Option.toList_some, List.map_cons, List.map_nil, List.cons_append, List.nil_append, List.count_cons]
    omega
  · have hq : q ∈ p :: deferRpps s.defers := hq
    rcases List.mem_cons.1 hq with rfl | hq
    · exact h.crls _ hc
    · exact h.crlsD q hq
  · show some (u, p) :: s.defers = _
    rw [h.defers]
  · obtain ⟨h1, h2⟩ := h.shape hb
    refine ⟨h1, ?_⟩
    show (some (u, p) :: s.defers).count none = s.metas.length
    rw [← h2]; simp

/-- The first deferred certificate is taken from the stack. -/
theorem own_pop {f : Fr} {s : St} {u : Id} {p : Nat} {l : List (Option (Id × Nat))} (h : Own f s) (hl : s.defers = some (u, p) :: l) :
    Own { f with L := u :: f.L, G := p :: f.G, C := p :: f.C, D := l } { s with defers := l } := by
  refine { h with bal := fun i => ?_, rbal := fun q => ?_, crls := fun q hq => ?_, crlsD := fun q hq => ?_, defers := rfl, shape := fun hb => ?_ }
  · show s.refs i = ({ s with defers := l } : St).held.count i + (u :: f.L).count i
    rw [h.bal i]
    simp only [St.held, hl, deferUris_cons, Option.toList_some, List.map_cons, List.map_nil, List.count_append, List.cons_append, List.nil_append, List.count_cons]
    omega
  · have h1 : s.rrefs q = (deferRpps s.defers).count q + f.G.count q := h.rbal q
    show s.rrefs q = (deferRpps l).count q + (p :: f.G).count q
    rw [h1, hl]
    simp only [deferRpps_cons, Option.toList_some, List.map_cons, List.map_nil, List.cons_append, List.nil_append, List.count_cons]
    omega
  · rcases List.mem_cons.1 hq with rfl | hq
    · exact h.crlsD _ (by rw [hl]; simp [deferRpps_cons])
    · exact h.crls q hq
  · exact h.crlsD q (by rw [hl]; exact List.mem_cons_of_mem _ hq)
  · obtain ⟨h1, h2⟩ := h.shape hb
    refine ⟨h1, ?_⟩
    rw [hl] at h2
    rw [← h2]; simp

/-- A separator is taken. -/
theorem own_sep {f : Fr} {s : St} {l : List (Option (Id × Nat))} (h : Own f s) (hl : s.defers = none :: l) (hs : f.B → s.metas.length = s.x509s.length ∧ l.count none = s.metas.length) :
    Own (f.def l) { s with defers := l } := by
  refine { h with bal := fun i => ?_, rbal := fun q => ?_, crls := fun q hq => h.crls q hq, crlsD := fun q hq => h.crlsD q (by rw [hl]; exact hq), defers := rfl, shape := hs }
  · rw [h.bal i]
    simp [St.held, hl, deferUris_cons]
  · have := h.rbal q
    rw [hl] at this
    exact this

/-- Properties of what `put` leaves alone. -/
theorem putAll_stacks : ∀ (l : List Id) (s : St), (putAll l s).2.metas = s.metas ∧ (putAll l s).2.x509s = s.x509s ∧ (putAll l s).2.defers = s.defers
  | [], _ => ⟨rfl, rfl, rfl⟩
  | _ :: l, s => putAll_stacks l _

theorem t_x509Pop {f : Fr} {n : Nat} {D : List (Option (Id × Nat))} (hA : ∀ u ∈ f.A, u ∈ f.L) : Tri (fun s => Own f s ∧ s.metas.length = n + 1 ∧ s.x509s.length = n + 1 ∧ s.defers = D) x509Pop
    (fun _ s => Own { f with B := False } s ∧ s.metas.length = n ∧ s.x509s.length = n ∧ s.defers = D) := by
  rintro s ⟨h, h1, h2, h3⟩
  cases hx : s.x509s with
  | nil => rw [hx] at h2; cases h2
  | cons c l =>
    cases hm : s.metas with
    | nil => rw [hm] at h1; cases h1
    | cons m l' =>
      rw [hm] at h1
      rw [hx] at h2
      have e : x509Pop s = (do put c; metaDestroy m : M Unit) { s with x509s := l, metas := l' } := by
        show (match s.x509s, s.metas with
          | c :: l, m :: l' => (do set { s with x509s := l, metas := l' }; put c; metaDestroy m : M Unit)
          | _, _ => crash) s = _
        rw [hx, hm]; rfl
      rw [e]
      have h4 : Own ({ f with B := False, L := c :: m.things ++ f.L }) { s with x509s := l, metas := l' } := { h with
        bal := fun i => by
          rw [h.bal i]
          simp only [St.held, hx, hm, List.flatMap_cons, List.count_append, List.cons_append, List.count_cons]
          omega
        shape := fun h => h.elim }
      refine ⟨t_putAll (f := { f with B := False }) (c :: m.things) (fun i _ hi => hA i hi) _ h4, ?_⟩
      obtain ⟨a, b, c'⟩ := putAll_stacks (c :: m.things) { s with x509s := l, metas := l' }
      exact ⟨a ▸ Nat.succ.inj h1, b ▸ Nat.succ.inj h2, c'.trans h3⟩

theorem t_deferDestroy {f : Fr} {u : Id} {p : Nat} (hA : ∀ u ∈ f.A, u ∈ f.L) (hC : p ∈ f.C → p ∈ f.G) :
    Tri (Own { f with L := u :: f.L, G := p :: f.G }) (deferDestroy (some (u, p))) (fun _ => Own f) :=
  Tri.bind (t_put (f := { f with G := p :: f.G }) fun h => hA u h) fun _ => t_rppPut hA hC

/-- The same; and the publication point has, still, a CRL. -/
theorem t_deferPop {f : Fr} (hB : f.B) (hA : ∀ u ∈ f.A, u ∈ f.L) : ∀ (n : Nat) (D : List (Option (Id × Nat))), Tri (Own (f.def D)) (deferPop n) (fun r s => match r with
    | none => ∃ D', Own (f.def D') s
    | some (u, p) => ∃ D', Own { f with L := u :: f.L, G := p :: f.G, C := p :: f.C, D := D' } s)
  | 0, D => Tri.pure fun _ h => ⟨D, h⟩
  | n + 1, D => by
    refine Tri.get fun s0 => ?_
    rintro s ⟨h, rfl⟩
    cases hd : s.defers with
    | nil => exact ⟨D, h⟩
    | cons d l =>
      cases d with
      | none =>
        obtain ⟨h1, h2⟩ := h.shape hB
        have h3 : s.metas.length = l.count none + 1 := by rw [← h2, hd]; simp
        have hx := t_x509Pop (f := f.def D) (n := l.count none) (D := none :: l) hA s ⟨h, h3, h1 ▸ h3, hd⟩
        have h4 := own_sep (l := l) hx.1 hx.2.2.2 (fun h => h.elim)
        have h5 : Own (f.def l) { (x509Pop s).2 with defers := l } := { h4 with shape := fun _ => ⟨hx.2.1.trans hx.2.2.1.symm, hx.2.1.symm⟩ }
        exact t_deferPop hB hA n l _ h5
      | some x =>
        obtain ⟨u, p⟩ := x
        refine ⟨l, ?_⟩
        show Own { f with L := u :: f.L, G := p :: f.G, C := p :: f.C, D := l } ((do get u; rppGet p; modify fun s => { s with defers := l }; deferDestroy (some (u, p)) : M Unit) s).2
        have hp : p ∈ deferRpps s.defers := by rw [hd]; simp [deferRpps_cons]
        have hu : u ∈ s.held := by simp [St.held, hd, deferUris_cons]
        -- what's in the stack is alive
        have h1 : Own { f with A := u :: f.A, D := D } s := { h with
          alive := fun v hv => by
            rcases List.mem_cons.1 hv with rfl | hv
            · exact h.held_ne hu
            · exact h.alive v hv
          named := fun v hv => List.mem_cons_of_mem _ (h.named v hv) }
        have h2 := t_get (f := { f with A := u :: f.A, D := D }) (i := u) (.inr List.mem_cons_self) s h1
        obtain ⟨r, hr, hr0⟩ := rpp_alive h (.inr hp)
        -- `rppGet`, of a publication point that is in the stack
        have h3 : Own { f with L := u :: f.L, A := u :: f.A, D := D, G := p :: f.G } (rppGet p (get u s).2).2 ∧ (rppGet p (get u s).2).2.defers = some (u, p) :: l := by
          have hst : ∀ s' : St, s'.defers = some (u, p) :: l → Own { f with L := u :: f.L, A := u :: f.A, D := D } s' →
              Own { f with L := u :: f.L, A := u :: f.A, D := D, G := p :: f.G } (rppGet p s').2 ∧ (rppGet p s').2.defers = some (u, p) :: l := by
            intro s' hd' h'
            have e1 := own_pop h' hd'
            -- pop it, take the reference, and put it back
            have e2 := t_rppGet (p := p) List.mem_cons_self _ e1
            have hp' : p ∈ deferRpps s'.defers := by rw [hd']; simp [deferRpps_cons]
            obtain ⟨r', hr', hr0'⟩ := rpp_alive h' (.inr hp')
            have e3 : rppGet p { s' with defers := l } = ((), { s' with defers := l, bad := s'.bad || decide (r'.refs = 0), rpps := s'.rpps.set p { r' with refs := r'.refs + 1 } }) := by
              show (rppAt p >>= fun r => rppSet p { r with refs := r.refs + 1 }) _ = _
              show (fun x : Rpp × St => rppSet p { x.1 with refs := x.1.refs + 1 } x.2) (rppAt p { s' with defers := l }) = _
              simp only [rppAt, hr']; rfl
            have e4 : rppGet p s' = ((), { s' with bad := s'.bad || decide (r'.refs = 0), rpps := s'.rpps.set p { r' with refs := r'.refs + 1 } }) := by
              show (fun x : Rpp × St => rppSet p { x.1 with refs := x.1.refs + 1 } x.2) (rppAt p s') = _
              simp only [rppAt, hr']; rfl
            rw [e3] at e2
            rw [e4]
            refine ⟨{ e2 with bal := fun i => ?_, rbal := fun q => ?_, crls := fun q hq => ?_, crlsD := fun q hq => ?_, defers := ?_, shape := fun hb => ?_ }, hd'⟩
            · have := e2.bal i
              rw [show ∀ a : St, a.refs i = a.refs i from fun _ => rfl] at this
              refine Eq.trans this ?_
              simp only [St.held, hd', deferUris_cons, Option.toList_some, List.map_cons, List.map_nil, List.count_append, List.cons_append, List.nil_append, List.count_cons]
              omega
            · refine (e2.rbal q).trans ?_
              show (deferRpps l).count q + (p :: p :: f.G).count q = (deferRpps s'.defers).count q + (p :: f.G).count q
              rw [hd']
              simp only [deferRpps_cons, Option.toList_some, List.map_cons, List.map_nil, List.cons_append, List.nil_append, List.count_cons]
              omega
            · exact e2.crls q (List.mem_cons_of_mem _ hq)
            · have hq : q ∈ deferRpps s'.defers := hq
              rw [hd'] at hq
              rcases List.mem_cons.1 hq with rfl | hq
              · exact e2.crls _ List.mem_cons_self
              · exact e2.crlsD q hq
            · exact h'.defers
            · exact h'.shape hb
          exact hst _ hd h2
        have h4 := own_pop h3.1 h3.2
        have h5 : Own { f with L := u :: u :: f.L, G := p :: p :: f.G, C := p :: f.C, D := l } { (rppGet p (get u s).2).2 with defers := l } :=
          h4.weaken (fun _ => rfl) (fun _ => rfl) rfl (fun v hv => .inl (List.mem_cons_of_mem _ hv)) h.named (fun _ h => h) rfl (fun h => h)
        exact t_deferDestroy (f := { f with L := u :: f.L, G := p :: f.G, C := p :: f.C, D := l }) (fun v hv => List.mem_cons_of_mem _ (hA v hv)) (fun _ => List.mem_cons_self) _ h5

theorem t_initResources {f : Fr} : Tri (Own f) initResources (fun r s => match r with | none => Own f s | some x => Own (f.own x) s ∧ x ∉ f.A) := by
  refine Tri.bind t_new fun r => Tri.pre fun hr => ?_
  refine Tri.bind t_fails fun b => ?_
  refine Tri.ite (fun _ => ?_) (fun _ => ?_)
  · exact Tri.bind (t_put (f := f) fun h => absurd h hr) fun _ => Tri.pure fun _ h => h
  · exact Tri.pure fun _ h => ⟨h, hr⟩

theorem t_x509Push {f : Fr} {u cert : Id} (hu : u ∈ f.L) : Tri (Own (f.own cert)) (x509Push u cert) (fun e => if e then Own (f.own cert) else Own (f.def (none :: f.D))) := by
  have hu' : u ∈ (f.own cert).L := List.mem_cons_of_mem _ hu
  refine Tri.bind (t_get (f := f.own cert) (.inl hu')) fun _ => ?_
  refine Tri.bind (t_initResources (f := (f.own cert).own u)) fun r => ?_
  cases r with
  | none => exact Tri.bind (t_put (f := f.own cert) fun _ => hu') fun _ => Tri.pure fun _ h => h
  | some res =>
    refine Tri.pre fun hr => ?_
    refine Tri.bind t_fails fun b => ?_
    refine Tri.ite (fun _ => ?_) (fun _ => ?_)
    · exact Tri.bind (t_put (f := (f.own cert).own u) fun h => absurd h hr) fun _ => Tri.bind (t_put (f := f.own cert) fun _ => hu') fun _ => Tri.pure fun _ h => h
    · refine Tri.bind (Q := fun _ => Own (f.def (none :: f.D))) ?_ fun _ => Tri.pure fun _ h => h
      intro s h
      refine { h with bal := fun i => ?_, crlsD := fun q hq => h.crlsD q hq, defers := ?_, shape := fun hb => ?_ }
      · refine (h.bal i).trans ?_
        show s.held.count i + (res :: u :: cert :: f.L).count i = ({ s with x509s := cert :: s.x509s, defers := none :: s.defers, metas := ⟨u, res, []⟩ :: s.metas } : St).held.count i + f.L.count i
        simp only [St.held, Meta.things, deferUris_cons, Option.toList_none, List.map_nil, List.nil_append, List.flatMap_cons, List.count_append, List.cons_append, List.count_cons]
        omega
      · show none :: s.defers = _
        rw [h.defers]
      · obtain ⟨h1, h2⟩ := h.shape hb
        refine ⟨congrArg (· + 1) h1, ?_⟩
        show (none :: s.defers).count none = s.metas.length + 1
        rw [← h2]; simp

theorem t_x509Cancel {f : Fr} {D : List (Option (Id × Nat))} (hB : f.B) (hA : ∀ u ∈ f.A, u ∈ f.L) : Tri (Own (f.def (none :: D))) x509Cancel (fun _ => Own (f.def D)) := by
  intro s h
  obtain ⟨h1, h2⟩ := h.shape hB
  have hd := h.defers
  have hd : s.defers = none :: D := hd
  have h3 : s.metas.length = D.count none + 1 := by rw [← h2, hd]; simp
  have hx := t_x509Pop (f := f.def (none :: D)) (n := D.count none) (D := none :: D) hA s ⟨h, h3, h1 ▸ h3, hd⟩
  have h4 := own_sep (l := D) hx.1 hx.2.2.2 (fun h => h.elim)
  have h5 : Own (f.def D) { (x509Pop s).2 with defers := D } := { h4 with shape := fun _ => ⟨hx.2.1.trans hx.2.2.1.symm, hx.2.1.symm⟩ }
  have e : x509Cancel s = ((), { (x509Pop s).2 with defers := D }) := by
    show (match (x509Pop s).2.defers with
      | [] => crash
      | d :: l => (do set { (x509Pop s).2 with defers := l }; deferDestroy d : M Unit)) (x509Pop s).2 = _
    rw [hx.2.2.2]; rfl
  rw [e]
  exact h5

theorem log_metas (s : St) : (log s).2.metas = s.metas := by unfold log; cases s.names <;> rfl

theorem fails_metas (s : St) : (fails s).2.metas = s.metas := by
  by_cases h : (askB s).1 = true
  · show ((if (askB s).1 then (do log; return true : M Bool) else pure false) (askB s).2).2.metas = _
    rw [if_pos h]
    exact log_metas _
  · show ((if (askB s).1 then (do log; return true : M Bool) else pure false) (askB s).2).2.metas = _
    rw [if_neg h]
    rfl

theorem t_storeSerial {f : Fr} [Fact f.S] : Tri (Own f) storeSerial (fun _ => Own f) := by
  refine Tri.bind t_create fun r => ?_
  cases r with
  | none => exact Tri.pure fun _ h => h
  | some n =>
    refine Tri.pre fun hn => ?_
    refine Tri.bind t_useTls fun _ => ?_
    refine Tri.get fun s0 => ?_
    rintro s ⟨h, rfl⟩
    have hput : Tri (Own (f.own n)) (do put n; return false : M Bool) (fun _ => Own f) := Tri.bind (t_put (f := f) fun h => absurd h hn) fun _ => Tri.pure fun _ h => h
    cases hm : s.metas with
    | nil => exact hput s h
    | cons m l =>
      have key : Tri (fun s => Own (f.own n) s ∧ s.metas = m :: l) (do
          if ← fails then
            put n
            return false
          modify fun s => { s with metas := { m with serials := m.serials ++ [n] } :: l }
          return false) (fun _ => Own f) := by
        refine Tri.bind (Q := fun _ s => Own (f.own n) s ∧ s.metas = m :: l) (fun s h => ⟨t_fails s h.1, (fails_metas s).trans h.2⟩) fun b => ?_
        refine Tri.ite (fun _ => hput.weaken (fun _ h => h.1) (fun _ _ h => h)) fun _ => ?_
        rintro s ⟨h, hm⟩
        refine { h with bal := fun i => ?_, shape := fun hb => ?_ }
        · refine (h.bal i).trans ?_
          show s.held.count i + (n :: f.L).count i = ({ s with metas := { m with serials := m.serials ++ [n] } :: l } : St).held.count i + f.L.count i
          simp only [St.held, hm, Meta.things, List.flatMap_cons, List.count_append, List.cons_append, List.count_cons, List.count_nil]
          omega
        · obtain ⟨h1, h2⟩ := h.shape hb
          rw [hm] at h1 h2
          exact ⟨h1, h2⟩
      exact key s ⟨h, hm⟩

theorem t_destroyDefers {f : Fr} (hA : ∀ u ∈ f.A, u ∈ f.L) (hC : ∀ p ∈ f.C, p ∈ f.G) (hB : f.B → False) : ∀ (n : Nat) (D : List (Option (Id × Nat))), D.length = n → Tri (Own (f.def D)) (destroyDefers n) (fun _ => Own (f.def []))
  | 0, D, hn => by
    obtain rfl := List.length_eq_zero_iff.1 hn
    exact Tri.pure fun _ h => h
  | n + 1, [], hn => by cases hn
  | n + 1, d :: l, hn => by
    refine Tri.get fun s0 => ?_
    rintro s ⟨h, rfl⟩
    have hd : s.defers = d :: l := h.defers
    rw [hd]
    show Own _ (destroyDefers n (deferDestroy d { s with defers := l }).2).2
    refine t_destroyDefers hA hC hB n l (Nat.succ.inj hn) _ ?_
    cases d with
    | none => exact own_sep (f := f.def (none :: l)) h hd fun hb => (hB hb).elim
    | some x =>
      obtain ⟨u, p⟩ := x
      have h1 := own_pop h hd
      exact t_deferDestroy (f := f.def l) hA (hC p) _ (h1.weaken (fun _ => rfl) (fun _ => rfl) rfl (fun _ h => .inl h) h.named (fun _ h => List.mem_cons_of_mem _ h) rfl (fun h => h))

theorem t_destroyMetas {f : Fr} (hA : ∀ u ∈ f.A, u ∈ f.L) (hB : f.B → False) : ∀ (l : List Meta), Tri (fun s => Own f s ∧ s.metas = l ∧ s.x509s = []) (destroyMetas l) (fun _ s => Own f s ∧ s.metas = [] ∧ s.x509s = [])
  | [] => Tri.pure fun _ h => h
  | m :: l => by
    refine Tri.bind (Q := fun _ s => Own (f.owns m.things) s ∧ s.metas = l ∧ s.x509s = []) ?_ fun _ => ?_
    · rintro s ⟨h, hm, hx⟩
      refine ⟨{ h with bal := fun i => ?_, shape := fun hb => (hB hb).elim }, rfl, hx⟩
      refine (h.bal i).trans ?_
      show s.held.count i + f.L.count i = ({ s with metas := l } : St).held.count i + (m.things ++ f.L).count i
      simp only [St.held, hm, List.flatMap_cons, List.count_append]
      omega
    · refine Tri.bind (Q := fun _ s => Own f s ∧ s.metas = l ∧ s.x509s = []) ?_ fun _ => t_destroyMetas hA hB l
      rintro s ⟨h, hm, hx⟩
      obtain ⟨a, b, -⟩ := putAll_stacks m.things s
      exact ⟨t_putAll (f := f) m.things (fun i _ hi => hA i hi) s h, a.trans hm, b.trans hx⟩

theorem t_certstackDestroy {f : Fr} (hA : ∀ u ∈ f.A, u ∈ f.L) (hC : ∀ p ∈ f.C, p ∈ f.G) :
    Tri (Own f) certstackDestroy (fun _ s => Own (f.def []) s ∧ s.metas = [] ∧ s.x509s = []) := by
  intro s h
  have h0 : Own ({ f with B := False } : Fr) s := { h with shape := fun h => h.elim }
  have h1 := t_destroyDefers (f := { f with B := False }) hA hC (fun h => h) s.defers.length s.defers rfl s { h0 with defers := rfl }
  set s1 := (destroyDefers s.defers.length s).2 with hs1
  have h2 : Own { f with B := False, D := [], L := s1.x509s ++ f.L } { s1 with x509s := [] } := { h1 with
    bal := fun i => by
      refine (h1.bal i).trans ?_
      show s1.held.count i + f.L.count i = ({ s1 with x509s := [] } : St).held.count i + (s1.x509s ++ f.L).count i
      simp only [St.held, List.count_append, List.count_nil]
      omega
    shape := fun h => h.elim }
  have h3 := t_putAll (f := { f with B := False, D := [] }) s1.x509s (fun i _ hi => hA i hi) _ h2
  obtain ⟨a, b, -⟩ := putAll_stacks s1.x509s { s1 with x509s := [] }
  set s2 := (putAll s1.x509s { s1 with x509s := [] }).2 with hs2
  have h4 := t_destroyMetas (f := { f with B := False, D := [] }) hA (fun h => h) s2.metas s2 ⟨h3, rfl, b⟩
  have e : (certstackDestroy s).2 = (destroyMetas s2.metas s2).2 := rfl
  rw [e]
  refine ⟨{ h4.1 with shape := fun _ => ?_ }, h4.2⟩
  have hd := h4.1.defers
  rw [h4.2.1, h4.2.2, hd]
  exact ⟨rfl, rfl⟩

end Verif.Mem
