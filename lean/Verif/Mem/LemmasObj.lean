import Verif.Mem.LemmasExt
/-
Triples for signed objects and manifests.
-/
namespace Verif.Mem

theorem extPost_none {A : List Id} : ExtPost .ee A .none true :=
  ⟨(fun i hi => by cases hi), fun _ => rfl, fun _ => rfl, fun _ => rfl, nofun, nofun, nofun⟩

theorem ExtPost.bad {t : Type'} {A : List Id} {x : Exts} {e : Bool} (h : ExtPost t A x e) : ExtPost t A x true := ⟨h.fresh, h.ee, h.ca, h.ta, nofun, nofun, nofun⟩

theorem t_eeCertificate {f : Fr} [Fact f.S] {crl : Option Id} {res : Id} (hres : res ∈ f.L) (hl : ∀ c ∈ crl.toList, c ∈ f.A) :
    Tri (Own f) (eeCertificate crl res) (fun r s => Own (f.owns r.1.all) s ∧ ExtPost .ee f.A r.1 r.2) := by
  refine Tri.bind t_create fun r => ?_
  cases r with
  | none => exact Tri.pure fun s h => ⟨h, extPost_none⟩
  | some cert =>
    refine Tri.pre fun hc => ?_
    have hput : ∀ x : Exts, ∀ e, ExtPost .ee f.A x e → Tri (Own ((f.own cert).owns x.all)) (do put cert; return (x, e)) (fun r s => Own (f.owns r.1.all) s ∧ ExtPost .ee f.A r.1 r.2) := by
      intro x e hx
      refine Tri.bind (Tri.weaken (t_put (f := f.owns x.all) fun h => absurd h hc) (fun s h => h.perm fun i => ?_) (fun _ _ h => h)) fun _ => Tri.pure fun _ h => ⟨h, hx⟩
      simp only [List.count_append, List.count_cons]
      omega
    refine Tri.bind (t_validateChain (f := f.own cert) List.mem_cons_self hl) fun e => ?_
    refine Tri.ite (fun _ => hput .none true extPost_none) fun _ => ?_
    refine Tri.bind (t_validateRfc6487 (f := f.own cert) List.mem_cons_self) fun e => ?_
    refine Tri.ite (fun _ => hput .none true extPost_none) fun _ => ?_
    refine Tri.bind (t_handleExtensions (f := f.own cert) (t := .ee)) fun r => Tri.pre fun hx => ?_
    obtain ⟨x, e⟩ := r
    refine Tri.ite (fun _ => hput x true hx.bad) fun he => ?_
    have he : e = false := by simpa using he
    subst he
    refine Tri.bind (t_use (f := (f.own cert).owns x.all) (.inl (List.mem_append_right _ (List.mem_cons_of_mem _ hres)))) fun _ => ?_
    have hj : Tri (Own ((f.own cert).owns x.all)) (do let e ← fails; put cert; return (x, e)) (fun r s => Own (f.owns r.1.all) s ∧ ExtPost .ee f.A r.1 r.2) :=
      Tri.bind t_fails fun e => hput x e ⟨hx.fresh, hx.ee, hx.ca, hx.ta, fun _ => hx.cdp rfl, fun _ => hx.obj rfl, fun _ => hx.mft rfl⟩
    refine Tri.bind t_useTls fun _ => ?_
    refine Tri.get fun s0 => ?_
    rintro s ⟨h, rfl⟩
    cases hm : s.metas with
    | nil => exact hj s h
    | cons m l =>
      have hu : s.refs m.res ≠ 0 := h.held_ne (by simp [St.held, hm, Meta.things])
      have h1 : Own ((f.own cert).owns x.all) (use m.res s).2 := { h with good := by show (s.bad || decide (s.refs m.res = 0)) = false; simp [h.good, hu] }
      exact hj _ h1

theorem t_signedObjectValidate {f : Fr} [Fact f.S] {crl : Option Id} {res : Id} (hres : res ∈ f.L) (hl : ∀ c ∈ crl.toList, c ∈ f.A) :
    Tri (Own f) (signedObjectValidate crl res) (fun r s => Own (f.owns r.1.all) s ∧ ExtPost .ee f.A r.1 r.2) := by
  refine Tri.bind t_fails fun e => Tri.ite (fun _ => Tri.pure fun s h => ⟨h, extPost_none⟩) fun _ => ?_
  refine Tri.bind (t_eeCertificate hres hl) fun r => Tri.pre fun hx => ?_
  obtain ⟨x, e⟩ := r
  refine Tri.ite (fun _ => Tri.pure fun s h => ⟨h, hx.bad⟩) fun he => ?_
  have he : e = false := by simpa using he
  subst he
  exact Tri.bind t_fails fun e => Tri.pure fun s h => ⟨h, hx.fresh, hx.ee, hx.ca, hx.ta, fun _ => hx.cdp rfl, fun _ => hx.obj rfl, fun _ => hx.mft rfl⟩

theorem t_eeValidate {f : Fr} [Fact f.S] {u : Id} {p : Nat} {crl : Option Id} (hu : u ∈ f.L ∨ u ∈ f.A) (hp : p ∈ f.G) (hc : p ∈ f.C) (hl : ∀ c ∈ crl.toList, c ∈ f.A) :
    Tri (Own f) (eeValidate u p crl) (fun _ => Own f) := by
  refine Tri.bind t_new fun res => Tri.pre fun hr => ?_
  refine Tri.bind (t_signedObjectValidate (f := f.own res) List.mem_cons_self hl) fun r => Tri.pre fun hx => ?_
  obtain ⟨x, e⟩ := r
  have hall : x.all = x.refs := by simp [Exts.all, hx.ee rfl]
  have hj : ∀ e : Bool, Tri (Own ((f.own res).owns x.all)) (do put res; putAll x.refs; return e) (fun _ => Own f) := by
    intro e
    refine Tri.bind (Q := fun _ => Own (f.owns x.refs)) (Tri.weaken (t_put (f := f.owns x.refs) fun h => absurd h hr) (fun s h => h.perm fun i => ?_) (fun _ _ h => h)) fun _ => ?_
    · rw [hall]; simp only [List.count_append, List.count_cons]; omega
    · exact Tri.bind (t_putAll x.refs fun i hi hA => absurd hA (hx.fresh i (by rw [hall]; exact hi))) fun _ => Tri.pure fun _ h => h
  refine Tri.ite (fun _ => hj true) fun he => ?_
  have he : e = false := by simpa using he
  subst he
  refine Tri.bind (t_useTls (f := (f.own res).owns x.all)) fun _ => ?_
  refine Tri.bind (t_use (f := (f.own res).owns x.all) (.inl (List.mem_append_right _ List.mem_cons_self))) fun _ => ?_
  refine Tri.bind t_fails fun e => Tri.ite (fun _ => hj true) fun _ => ?_
  refine Tri.bind (t_refsValidateEe (f := (f.own res).owns x.all) (hx.cdp rfl (by decide)) (hx.obj rfl rfl) (fun i hi => List.mem_append_left _ (by rw [hall]; exact hi)) hp hc ?_) hj
  rcases hu with hu | hu
  · exact .inl (List.mem_append_right _ (List.mem_cons_of_mem _ hu))
  · exact .inr hu

/-- The names that are in the stack are alive. -/
theorem Tri.named {α : Type} {f : Fr} {m : M α} {Q : α → St → Prop} (h : (∀ v ∈ f.N, v ∈ f.A) → Tri (Own f) m Q) : Tri (Own f) m Q := fun s hs => h hs.named s hs

/-- The validation of a signed object with the CRL that was found. -/
theorem t_useEe {f : Fr} [Fact f.S] {u x : Id} {p : Nat} {crl : Option Id} (hx : x ∈ f.L) (hu : u ∈ f.L ∨ u ∈ f.A) (hp : p ∈ f.G) (hc : p ∈ f.C) (hN : ∀ v ∈ f.N, v ∈ f.A) :
    Tri (Own (f.crl crl)) (do use x; eeValidate u p crl) (fun _ => Own f) := by
  cases crl with
  | none => exact Tri.bind (t_use (.inl hx)) fun _ => t_eeValidate hu hp hc (fun c h => by simp at h)
  | some c =>
    refine Tri.weaken (Q := fun _ => Own (f.crl (some c))) (Tri.bind (t_use (f := f.crl (some c)) (.inl hx)) fun _ => t_eeValidate (f := f.crl (some c)) ?_ hp hc (fun d h => ?_)) (fun _ h => h)
      (fun _ s h => h.less (fun v hv => .inl (List.mem_cons_of_mem _ hv)) hN)
    · rcases hu with hu | hu
      · exact .inl hu
      · exact .inr (List.mem_cons_of_mem _ hu)
    · simp only [Option.toList_some, List.mem_singleton] at h
      subst h; exact List.mem_cons_self

theorem t_objectTraverse {f : Fr} [Fact f.S] {u : Id} {p : Nat} (hu : u ∈ f.A) (hp : p ∈ f.G) (hc : p ∈ f.C) : Tri (Own f) (objectTraverse p u) (fun _ => Own f) := by
  refine Tri.bind (t_pushName hu) fun _ => ?_
  refine Tri.bind (t_use (f := { f with N := u :: f.N }) (.inr hu)) fun _ => ?_
  refine Tri.bind (t_create (f := { f with N := u :: f.N })) fun r => ?_
  cases r with
  | none => exact t_popName
  | some sobj =>
    refine Tri.pre fun hs => ?_
    have hend : Tri (Own (Fr.own { f with N := u :: f.N } sobj)) (do put sobj; popName) (fun _ => Own f) :=
      Tri.bind (t_put (f := { f with N := u :: f.N }) fun h => absurd h hs) fun _ => t_popName
    refine Tri.named fun hN => ?_
    refine Tri.bind (t_rppCrl (f := Fr.own { f with N := u :: f.N } sobj) (parent := some p) fun q hq => by cases hq; exact ⟨hp, hc⟩) fun r => ?_
    cases r with
    | none => exact hend
    | some crl =>
      have h1 := t_useEe (f := Fr.own { f with N := u :: f.N } sobj) (u := u) (crl := crl) (x := sobj) List.mem_cons_self (.inr hu) hp hc hN
      exact fun s h => hend _ (h1 s h)

theorem t_rppLoop {f : Fr} {p : Nat} {mft : Id} (hp : p ∈ f.G) (hm : mft ∈ f.L ∨ mft ∈ f.A) : ∀ (n : Nat), Tri (Own f) (rppLoop p mft n) (fun _ => Own f)
  | 0 => Tri.pure fun _ h => h
  | n + 1 => by
    refine Tri.bind (t_use hm) fun _ => ?_
    refine Tri.bind t_create fun r => ?_
    cases r with
    | none => exact Tri.pure fun _ h => h
    | some u =>
      refine Tri.pre fun hu => ?_
      refine Tri.bind (t_use (f := f.own u) (.inl List.mem_cons_self)) fun _ => ?_
      have hput : Tri (Own (f.own u)) (put u) (fun _ => Own f) := t_put fun h => absurd h hu
      refine Tri.bind t_ask fun k => ?_
      match k with
      | 0 => exact Tri.bind t_log fun _ => Tri.bind hput fun _ => Tri.pure fun _ h => h
      | 1 => exact Tri.bind hput fun _ => t_rppLoop hp hm n
      | 2 => exact Tri.bind (t_rppAdd hp) fun _ => t_rppLoop hp hm n
      | 3 => exact Tri.bind (t_rppAdd hp) fun _ => t_rppLoop hp hm n
      | 4 => exact Tri.bind (t_rppAdd hp) fun _ => t_rppLoop hp hm n
      | 5 => exact Tri.bind hput fun _ => t_rppLoop hp hm n
      | k + 6 =>
        refine Tri.bind (t_rppAddCrl hp) fun e => ?_
        cases e with
        | true => exact Tri.bind hput fun _ => Tri.pure fun _ h => h
        | false => exact t_rppLoop hp hm n

/-- A frame with one more publication point. -/
abbrev Fr.rpp (f : Fr) (p : Nat) : Fr := { f with G := p :: f.G, C := p :: f.C }

theorem t_buildRpp {f : Fr} [Fact f.S] {mft : Id} (hm : mft ∈ f.L ∨ mft ∈ f.A) (hA : ∀ u ∈ f.A, u ∈ f.L) (hC : ∀ p ∈ f.C, p ∈ f.G) :
    Tri (Own f) (buildRpp mft) (fun r s => match r with | none => Own f s | some p => Own (f.rpp p) s) := by
  refine Tri.bind t_useTls fun _ => ?_
  refine Tri.bind t_rppNew fun p => ?_
  have hput : Tri (Own { f with G := p :: f.G }) (rppPut p) (fun _ => Own f) := t_rppPut hA (hC p)
  refine Tri.bind t_ask fun n => ?_
  refine Tri.bind (t_rppLoop (f := { f with G := p :: f.G }) List.mem_cons_self hm n) fun e => ?_
  refine Tri.ite (fun _ => Tri.bind hput fun _ => Tri.pure fun _ h => h) fun _ => ?_
  refine Tri.bind (t_rppAt (f := { f with G := p :: f.G }) List.mem_cons_self) fun r => ?_
  refine Tri.ite (fun hn => ?_) fun hn => ?_
  · exact Tri.weaken (Tri.bind t_log fun _ => Tri.bind hput fun _ => Tri.pure fun _ h => h) (fun _ h => h.1) (fun _ _ h => h)
  · refine Tri.pure fun s h => { h.1 with crls := fun q hq => ?_ }
    rcases List.mem_cons.1 hq with rfl | hq
    · refine ⟨r, h.2.1, ?_⟩
      cases hr : r.crl with
      | none => rw [hr] at hn; exact absurd rfl hn
      | some _ => rfl
    · exact h.1.crls q hq

theorem t_cage {f : Fr} [Fact f.S] {u : Id} {notif : Option Id} (hu : u ∈ f.L) (hn : ∀ n ∈ notif.toList, n ∈ f.L) : Tri (Own f) (cage u notif) (fun r s => match r with | none => Own f s | some x => Own (f.own x) s) := by
  cases notif with
  | none => exact Tri.bind (t_get (.inl hu)) fun _ => Tri.pure fun _ h => h
  | some n =>
    refine Tri.bind t_useTls fun _ => Tri.bind (t_use (.inl (hn n (by simp)))) fun _ => Tri.bind (t_use (.inl hu)) fun _ => ?_
    refine t_create.weaken (fun _ h => h) fun r s h => ?_
    cases r with
    | none => exact h
    | some x => exact h.1

theorem t_handleManifest {f : Fr} [Fact f.S] {mft notif : Option Id} (hm : mft.isSome = true) (hm' : ∀ m ∈ mft.toList, m ∈ f.L) (hn : ∀ n ∈ notif.toList, n ∈ f.L) (hA : ∀ u ∈ f.A, u ∈ f.L)
    (hC : ∀ p ∈ f.C, p ∈ f.G) : Tri (Own f) (handleManifest mft notif) (fun r s => match r with | none => Own f s | some p => Own (f.rpp p) s) := by
  cases mft with
  | none => cases hm
  | some m =>
    refine Tri.bind (t_cage (hm' m (by simp)) hn) fun r => ?_
    cases r with
    | none => exact Tri.pure fun _ h => h
    | some u =>
      refine Tri.named fun hN => ?_
      -- while `u` is in the stack of names
      let g : Fr := { f with L := u :: f.L, A := u :: f.A, N := u :: f.N }
      have hgA : ∀ v ∈ g.A, v ∈ g.L := fun v hv => by
        rcases List.mem_cons.1 hv with rfl | hv
        · exact List.mem_cons_self
        · exact List.mem_cons_of_mem _ (hA v hv)
      have hgN : ∀ v ∈ g.N, v ∈ g.A := fun v hv => by
        rcases List.mem_cons.1 hv with rfl | hv
        · exact List.mem_cons_self
        · exact List.mem_cons_of_mem _ (hN v hv)
      have hend : ∀ (f' : Fr), f'.A = f.A → f'.N = f.N → f'.L = f.L → Tri (Own { f' with L := u :: f'.L, A := u :: f'.A, N := u :: f'.N }) (do popName; put u) (fun _ => Own f') := by
        intro f' e1 e2 e3
        refine Tri.bind (t_popName (f := { f' with L := u :: f'.L, A := u :: f'.A })) fun _ => ?_
        refine Tri.weaken (t_put (f := f') fun h => ?_) (fun s h => h.less (A := f'.A) (fun v hv => .inl (List.mem_cons_of_mem _ hv)) (by rw [e1, e2]; exact hN)) (fun _ _ h => h)
        rw [e1] at h; rw [e3]; exact hA u h
      have hj : ∀ r : Option Nat, Tri (fun s => match r with | none => Own g s | some p => Own (g.rpp p) s) (do popName; put u; return r)
          (fun r s => match r with | none => Own f s | some p => Own (f.rpp p) s) := by
        intro r
        cases r with
        | none => exact fun s h => hend f rfl rfl rfl s h
        | some p => exact fun s h => hend (f.rpp p) rfl rfl rfl s h
      refine Tri.bind (Q := fun _ => Own g) (Tri.weaken (t_pushName (f := { f with L := u :: f.L, A := u :: f.A }) List.mem_cons_self) (fun s h => h.less (fun v hv => ?_) (fun v hv => List.mem_cons_of_mem _ (hN v hv))) (fun _ _ h => h)) fun _ => ?_
      · rcases List.mem_cons.1 hv with rfl | hv
        · exact .inr List.mem_cons_self
        · exact .inl hv
      refine Tri.bind (t_use (f := g) (.inl List.mem_cons_self)) fun _ => ?_
      refine Tri.bind (t_create (f := g)) fun r => ?_
      cases r with
      | none => exact hj none
      | some sobj =>
        refine Tri.pre fun hs => ?_
        have hAs : ∀ v ∈ (g.own sobj).A, v ∈ (g.own sobj).L := fun v hv => List.mem_cons_of_mem _ (hgA v hv)
        have hbad : Tri (Own (g.own sobj)) (do put sobj; popName; put u; return (none : Option Nat)) (fun r s => match r with | none => Own f s | some p => Own (f.rpp p) s) :=
          Tri.bind (t_put (f := g) fun h => absurd h hs) fun _ => hj none
        refine Tri.bind (t_buildRpp (f := g.own sobj) (.inl (List.mem_cons_of_mem _ List.mem_cons_self)) hAs hC) fun r => ?_
        cases r with
        | none => exact hbad
        | some p =>
          have hbad' : Tri (Own ((g.own sobj).rpp p)) (do rppPut p; put sobj; popName; put u; return (none : Option Nat)) (fun r s => match r with | none => Own f s | some p => Own (f.rpp p) s) := by
            refine Tri.bind (Tri.weaken (t_rppPut (f := g.own sobj) hAs (hC p)) (fun s h => h.weaken (fun _ => rfl) (fun _ => rfl) rfl (fun _ h => .inl h) hgN (fun _ h => List.mem_cons_of_mem _ h) rfl (fun h => h)) (fun _ _ h => h)) fun _ => hbad
          refine Tri.bind (t_rppCrl (f := (g.own sobj).rpp p) (parent := some p) fun q hq => by cases hq; exact ⟨List.mem_cons_self, List.mem_cons_self⟩) fun r => ?_
          cases r with
          | none => exact hbad'
          | some crl =>
            have h1 := t_useEe (f := (g.own sobj).rpp p) (u := u) (crl := crl) (x := sobj) (p := p) List.mem_cons_self (.inr List.mem_cons_self) List.mem_cons_self List.mem_cons_self hgN
            refine fun s h => ?_
            have h2 := h1 s h
            have hgood : Tri (Own ((g.own sobj).rpp p)) (do put sobj; popName; put u; return (some p : Option Nat)) (fun r s => match r with | none => Own f s | some p => Own (f.rpp p) s) :=
              Tri.bind (t_put (f := g.rpp p) fun h => absurd h hs) fun _ => hj (some p)
            have key : Tri (Own ((g.own sobj).rpp p)) (if (eeValidate u p crl (use sobj s).2).1 then (do rppPut p; put sobj; popName; put u; return (none : Option Nat))
                else (do put sobj; popName; put u; return (some p : Option Nat))) (fun r s => match r with | none => Own f s | some p => Own (f.rpp p) s) :=
              Tri.ite (fun _ => hbad') fun _ => hgood
            exact key _ h2

end Verif.Mem
