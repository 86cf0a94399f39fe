import Verif.Mem.LemmasNet
/-
Triples for the traversal.
-/
namespace Verif.Mem

theorem t_certLoop {f : Fr} [Fact f.S] {p : Nat} (hp : p ∈ f.G) (hc : p ∈ f.C) : ∀ (l : List Id) (D : List (Option (Id × Nat))), (∀ u ∈ l, u ∈ f.A) → Tri (Own (f.def D)) (certLoop p l) (fun _ s => ∃ D', Own (f.def D') s)
  | [], D, _ => Tri.pure fun _ h => ⟨D, h⟩
  | u :: l, D, hl => by
    refine Tri.bind t_useTls fun _ => ?_
    refine Tri.bind (t_deferPush (f := f.def D) (.inr (hl u List.mem_cons_self)) hp hc) fun _ => ?_
    exact t_certLoop hp hc l _ fun v hv => hl v (List.mem_cons_of_mem _ hv)

theorem t_objectLoop {f : Fr} [Fact f.S] {p : Nat} (hp : p ∈ f.G) (hc : p ∈ f.C) : ∀ (l : List Id), (∀ u ∈ l, u ∈ f.A) → Tri (Own f) (objectLoop p l) (fun _ => Own f)
  | [], _ => Tri.pure fun _ h => h
  | u :: l, hl => Tri.bind (t_objectTraverse (hl u List.mem_cons_self) hp hc) fun _ => t_objectLoop hp hc l fun v hv => hl v (List.mem_cons_of_mem _ hv)

/-- What a publication point has is alive, as long as there's a reference to it. -/
theorem t_rppThings {f : Fr} {p : Nat} {α : Type} {k : Rpp → M α} {Q : α → St → Prop} (hp : p ∈ f.G) (hk : ∀ r, Tri (Own { f with A := r.things ++ f.A }) (k r) Q) :
    Tri (Own f) (do let r ← rppAt p; k r) Q := by
  refine Tri.bind (t_rppAt hp) fun r => ?_
  rintro s ⟨h, hr, -⟩
  refine hk r s { h with alive := fun v hv => ?_, named := fun v hv => List.mem_append_right _ (h.named v hv) }
  rcases List.mem_append.1 hv with hv | hv
  · exact h.held_ne (things_held hr hv)
  · exact h.alive v hv

theorem t_rppTraverse {f : Fr} [Fact f.S] {p : Nat} (hp : p ∈ f.G) (hc : p ∈ f.C) : Tri (Own f) (rppTraverse p) (fun _ s => ∃ D', Own (f.def D') s) := by
  refine Tri.named fun hN => ?_
  have hless : ∀ (r : Rpp) (D : List (Option (Id × Nat))) s, Own { f with A := r.things ++ f.A, D := D } s → Own (f.def D) s := fun r D s h =>
    h.less (A := f.A) (fun v hv => .inl (List.mem_append_right _ hv)) hN
  have h1 : Tri (Own f) (do let r ← rppAt p; certLoop p r.certs.reverse) (fun _ s => ∃ D', Own (f.def D') s) := by
    refine t_rppThings hp fun r => ?_
    refine Tri.weaken (t_certLoop (f := { f with A := r.things ++ f.A }) hp hc r.certs.reverse f.D fun u hu => ?_) (fun _ h => h) fun _ s ⟨D', h⟩ => ⟨D', hless r D' s h⟩
    exact List.mem_append_left _ (by simp only [Rpp.things, List.mem_append]; rw [List.mem_reverse] at hu; tauto)
  have h2 : ∀ (D : List (Option (Id × Nat))), Tri (Own (f.def D)) (do let r ← rppAt p; objectLoop p r.roas) (fun _ => Own (f.def D)) := fun D => by
    refine t_rppThings (f := f.def D) hp fun r => ?_
    refine Tri.weaken (t_objectLoop (f := { f with A := r.things ++ f.A, D := D }) hp hc r.roas fun u hu => ?_) (fun _ h => h) fun _ s h => hless r D s h
    exact List.mem_append_left _ (by simp only [Rpp.things, List.mem_append]; tauto)
  have h3 : ∀ (D : List (Option (Id × Nat))), Tri (Own (f.def D)) (do let r ← rppAt p; objectLoop p r.gbrs) (fun _ => Own (f.def D)) := fun D => by
    refine t_rppThings (f := f.def D) hp fun r => ?_
    refine Tri.weaken (t_objectLoop (f := { f with A := r.things ++ f.A, D := D }) hp hc r.gbrs fun u hu => ?_) (fun _ h => h) fun _ s h => hless r D s h
    exact List.mem_append_left _ (by simp only [Rpp.things, List.mem_append]; tauto)
  intro s h
  obtain ⟨D', h4⟩ := h1 s h
  exact ⟨D', h3 D' _ (h2 D' _ h4)⟩

theorem t_traverseUris {f : Fr} [Fact f.S] {parent : Option Nat} {u cert : Id} (hB : f.B) (hu : u ∈ f.L) (hA : ∀ v ∈ f.A, v ∈ f.L) (hC : ∀ p ∈ f.C, p ∈ f.G) (hp : ∀ p, parent = some p → p ∈ f.G ∧ p ∈ f.C) :
    Tri (Own (f.own cert)) (traverseUris parent u cert) (fun r s => if r.2 then Own (f.own cert) s else ∃ D', Own (f.def D') s) := by
  refine Tri.bind (t_extensionsCa (f := f.own cert) hp) fun r => Tri.pre fun hx => ?_
  obtain ⟨x, e⟩ := r
  obtain ⟨hx1, hx2⟩ := hx
  let g : Fr := f.owns x.sia
  have hgA : ∀ v ∈ g.A, v ∈ g.L := fun v hv => List.mem_append_right _ (hA v hv)
  refine Tri.weaken (P := Own (g.own cert)) ?_ (fun s h => h.perm fun i => by simp only [List.count_append, List.count_cons, g]; omega) (fun _ _ h => h)
  -- the end
  have hmine : Tri (Own (g.own cert)) (do putAll x.sia; return (true, true)) (fun r s => if r.2 then Own (f.own cert) s else ∃ D', Own (f.def D') s) := by
    refine Tri.bind (Tri.weaken (t_putAll (f := f.own cert) x.sia fun i hi hiA => absurd hiA (hx1 i hi)) (fun s h => h.perm fun i => by simp only [List.count_append, List.count_cons, g]; omega) (fun _ _ h => h)) fun _ => Tri.pure fun _ h => ?_
    exact h
  have hgone : ∀ (D : List (Option (Id × Nat))) (e : Bool), Tri (Own (g.def D)) (do putAll x.sia; return (e, false)) (fun r s => if r.2 then Own (f.own cert) s else ∃ D', Own (f.def D') s) := by
    intro D e
    refine Tri.bind (t_putAll (f := f.def D) x.sia fun i hi hiA => absurd hiA (hx1 i hi)) fun _ => Tri.pure fun _ h => ?_
    exact ⟨D, h⟩
  refine Tri.ite (fun _ => hmine) fun he => ?_
  have he : e = false := by simpa using he
  refine Tri.bind (t_downloadRpp (f := g.own cert) x.rpp fun i hi => List.mem_cons_of_mem _ (List.mem_append_left _ (List.mem_append_left _ hi))) fun r => Tri.pre fun hr => ?_
  cases r with
  | none => exact hmine
  | some d =>
    have hd : d ∈ g.L := List.mem_append_left _ (List.mem_append_left _ (hr d (by simp)))
    refine Tri.bind (t_x509Push (f := g) (List.mem_append_right _ hu)) fun e => ?_
    cases e with
    | true => exact hmine
    | false =>
      refine Tri.bind (t_use (f := g.def (none :: f.D)) (.inl hd)) fun _ => ?_
      have hrest : ∀ notif : Option Id, (∀ n ∈ notif.toList, n ∈ g.L) → Tri (Own (g.def (none :: f.D))) (do
          match ← handleManifest x.mft notif with
          | none =>
            x509Cancel
            putAll x.sia
            return (true, false)
          | some p =>
            rppTraverse p
            rppPut p
            putAll x.sia
            return (false, false) : M (Bool × Bool)) (fun r s => if r.2 then Own (f.own cert) s else ∃ D', Own (f.def D') s) := by
        intro notif hn
        refine Tri.named fun hN => ?_
        refine Tri.bind (t_handleManifest (f := g.def (none :: f.D)) (hx2 he) (fun m hm => List.mem_append_left _ (List.mem_append_right _ hm)) hn hgA hC) fun r => ?_
        cases r with
        | none => exact Tri.bind (t_x509Cancel (f := g) hB hgA) fun _ => hgone f.D true
        | some p =>
          refine Tri.bind (t_rppTraverse (f := (g.def (none :: f.D)).rpp p) List.mem_cons_self List.mem_cons_self) fun _ => ?_
          rintro s ⟨D', h⟩
          have h1 : Own { g with G := p :: g.G, D := D' } s := h.weaken (fun _ => rfl) (fun _ => rfl) rfl (fun _ h => .inl h) hN (fun _ h => List.mem_cons_of_mem _ h) rfl (fun h => h)
          exact hgone D' false _ (t_rppPut (f := g.def D') hgA (hC p) s h1)
      refine Tri.bind t_askB fun b => ?_
      cases b with
      | true => exact hrest (some d) fun n hn => by simp only [Option.toList_some, List.mem_singleton] at hn; subst hn; exact hd
      | false => exact hrest none fun n hn => by simp at hn

theorem t_certificateTraverse {f : Fr} [Fact f.S] {parent : Option Nat} {u : Id} (hB : f.B) (hu : u ∈ f.L) (hA : ∀ v ∈ f.A, v ∈ f.L) (hC : ∀ p ∈ f.C, p ∈ f.G) (hp : ∀ p, parent = some p → p ∈ f.G ∧ p ∈ f.C) :
    Tri (Own f) (certificateTraverse parent u) (fun _ s => ∃ D', Own (f.def D') s) := by
  refine Tri.named fun hN => ?_
  refine Tri.bind t_useTls fun _ => ?_
  refine Tri.bind t_fails fun e => Tri.ite (fun _ => Tri.pure fun _ h => ⟨f.D, h⟩) fun _ => ?_
  refine t_named hu ?_
  let g : Fr := { f with A := u :: f.A, N := u :: f.N }
  have hgA : ∀ v ∈ g.A, v ∈ g.L := fun v hv => by
    rcases List.mem_cons.1 hv with rfl | hv
    · exact hu
    · exact hA v hv
  have hgN : ∀ v ∈ g.N, v ∈ g.A := fun v hv => by
    rcases List.mem_cons.1 hv with rfl | hv
    · exact List.mem_cons_self
    · exact List.mem_cons_of_mem _ (hN v hv)
  have hpop : ∀ (b : Bool) (D : List (Option (Id × Nat))), Tri (Own (g.def D)) (do popName; return b) (fun _ s => ∃ D', Own (f.def D') s) := fun b D =>
    (t_unname (f := f.def D) hN).weaken (fun _ h => h) fun _ _ h => ⟨D, h⟩
  refine Tri.bind (t_rppCrl (f := g) hp) fun r => ?_
  cases r with
  | none => exact hpop true f.D
  | some crl =>
    -- the CRL is not known to be alive afterwards
    have hmain : ∀ k : Fr, k.L = g.L → k.G = g.G → k.C = g.C → k.N = g.N → k.D = g.D → k.B = g.B → k.S = g.S → (∀ v ∈ g.A, v ∈ k.A) → (∀ c ∈ crl.toList, c ∈ k.A) → Tri (Own k) (do
        use u
        match ← create with
        | none =>
          popName
          return true
        | some cert =>
          if ← validateChain cert crl then
            put cert
            popName
            return true
          if ← fails then
            put cert
            popName
            return true
          if ← validateRfc6487 cert then
            put cert
            popName
            return true
          let (e, mine) ← traverseUris parent u cert
          if mine then put cert
          popName
          return e : M Bool) (fun _ s => ∃ D', Own (f.def D') s) := by
      intro k e1 e2 e3 e4 e5 e6 e7 hk hcr
      obtain ⟨L, G, N, A, C, D, B, S⟩ := k
      simp only at e1 e2 e3 e4 e5 e6 e7 hk hcr
      subst e1 e2 e3 e4 e5 e6 e7
      have hless : ∀ (l : List Id) s, Own { g with A := A, L := l } s → Own { g with L := l } s := fun l s h => h.less (A := g.A) (fun v hv => .inl (hk v hv)) hgN
      refine Tri.bind (t_use (.inl hu)) fun _ => ?_
      refine Tri.bind t_create fun r => ?_
      cases r with
      | none => exact fun s h => hpop true f.D s (hless _ s h)
      | some cert =>
        refine Tri.pre fun hc => ?_
        have hc : cert ∉ g.A := fun h => hc (hk cert h)
        have hput : Tri (Own (g.own cert)) (do put cert; popName; return true) (fun _ s => ∃ D', Own (f.def D') s) := Tri.bind (t_put (f := g) fun h => absurd h hc) fun _ => hpop true f.D
        refine Tri.bind (Tri.weaken (t_validateChain (f := { g with A := A, L := cert :: g.L }) List.mem_cons_self hcr) (fun _ h => h) fun _ s h => hless _ s h) fun e => ?_
        refine Tri.ite (fun _ => hput) fun _ => ?_
        refine Tri.bind t_fails fun e => Tri.ite (fun _ => hput) fun _ => ?_
        refine Tri.bind (t_validateRfc6487 (f := g.own cert) List.mem_cons_self) fun e => Tri.ite (fun _ => hput) fun _ => ?_
        refine Tri.bind (t_traverseUris (f := g) (cert := cert) hB hu hgA hC hp) fun r => ?_
        obtain ⟨e, mine⟩ := r
        cases mine with
        | true => exact Tri.bind (t_put (f := g) fun h => absurd h hc) fun _ => hpop e f.D
        | false =>
          rintro s ⟨D', h⟩
          exact hpop e D' s h
    cases crl with
    | none => exact hmain g rfl rfl rfl rfl rfl rfl rfl (fun _ h => h) (fun c h => by simp at h)
    | some c => exact hmain (g.crl (some c)) rfl rfl rfl rfl rfl rfl rfl (fun _ h => List.mem_cons_of_mem _ h) (fun d h => by simp only [Option.toList_some, List.mem_singleton] at h; subst h; exact List.mem_cons_self)

theorem t_drain {f : Fr} [Fact f.S] (hB : f.B) (hA : ∀ v ∈ f.A, v ∈ f.L) (hC : ∀ p ∈ f.C, p ∈ f.G) : ∀ (n : Nat) (D : List (Option (Id × Nat))), Tri (Own (f.def D)) (drain n) (fun _ s => ∃ D', Own (f.def D') s)
  | 0, D => Tri.pure fun _ h => ⟨D, h⟩
  | n + 1, D => by
    refine Tri.get fun s0 => Tri.weaken (P := Own (f.def D)) ?_ (fun _ h => h.1) (fun _ _ h => h)
    refine Tri.bind (t_deferPop hB hA _ D) fun r => ?_
    cases r with
    | none => exact Tri.pure fun _ h => h
    | some x =>
      obtain ⟨u, p⟩ := x
      rintro s ⟨D', h⟩
      have h1 := t_certificateTraverse (f := { f with L := u :: f.L, G := p :: f.G, C := p :: f.C, D := D' }) (parent := some p) (u := u) hB List.mem_cons_self
        (fun v hv => List.mem_cons_of_mem _ (hA v hv)) (fun q hq => by
          rcases List.mem_cons.1 hq with rfl | hq
          · exact List.mem_cons_self
          · exact List.mem_cons_of_mem _ (hC q hq)) (fun q hq => by cases hq; exact ⟨List.mem_cons_self, List.mem_cons_self⟩) s h
      obtain ⟨D2, h2⟩ := h1
      have h3 := t_put (f := { f with G := p :: f.G, C := p :: f.C, D := D2 }) (fun h => hA u h) _ h2
      have h4 : Own { f with G := p :: f.G, D := D2 } (put u (certificateTraverse (some p) u s).2).2 :=
        h3.weaken (fun _ => rfl) (fun _ => rfl) rfl (fun _ h => .inl h) h.named (fun _ h => List.mem_cons_of_mem _ h) rfl (fun h => h)
      have h5 := t_rppPut (f := f.def D2) hA (hC p) _ h4
      exact t_drain hB hA hC n D2 _ h5

end Verif.Mem
