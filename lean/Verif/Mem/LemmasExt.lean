import Verif.Mem.LemmasStack
/-
Triples for certificates and signed objects.
-/
namespace Verif.Mem

/-- In another order. -/
theorem Own.perm {f : Fr} {l l' : List Id} {s : St} (h : Own { f with L := l } s) (hl : ∀ i, l.count i = l'.count i) : Own { f with L := l' } s :=
  { h with bal := fun i => by rw [h.bal i]; exact congrArg _ (hl i) }

/-- With less knowledge of what's alive. -/
theorem Own.less {f : Fr} {A : List Id} {s : St} (h : Own f s) (hA : ∀ u ∈ A, u ∈ f.A ∨ u ∈ f.L) (hN : ∀ u ∈ f.N, u ∈ A) : Own { f with A := A } s :=
  h.weaken (fun _ => rfl) (fun _ => rfl) rfl hA hN (fun _ h => h) rfl (fun h => h)

theorem t_adLoop {f : Fr} [Fact f.S] : ∀ (n : Nat) (found : Option Id), (∀ i ∈ found.toList, i ∉ f.A) →
    Tri (Own (f.owns found.toList)) (adLoop n found) (fun r s => Own (f.owns r.1.toList) s ∧ (∀ i ∈ r.1.toList, i ∉ f.A))
  | 0, found, hf => Tri.pure fun _ h => ⟨h, hf⟩
  | n + 1, found, hf => by
    refine Tri.bind t_ask fun k => ?_
    match k with
    | 0 => exact t_adLoop n found hf
    | 1 => exact Tri.bind t_log fun _ => Tri.pure fun _ h => ⟨h, hf⟩
    | k + 2 =>
      refine Tri.bind t_useTls fun _ => ?_
      refine Tri.bind t_new fun u => Tri.pre fun hu => ?_
      refine Tri.ite (fun hs => ?_) (fun hs => ?_)
      · exact Tri.bind (t_put (f := f.owns found.toList) fun h => absurd h hu) fun _ => Tri.bind t_log fun _ => Tri.pure fun _ h => ⟨h, hf⟩
      · cases found with
        | some x => exact absurd rfl hs
        | none =>
          refine Tri.bind (t_get (f := f.own u) (.inl List.mem_cons_self)) fun _ => ?_
          refine Tri.bind (t_put (f := f.own u) fun _ => List.mem_cons_self) fun _ => ?_
          exact t_adLoop n (some u) fun i hi => by
            simp only [Option.toList_some, List.mem_singleton] at hi
            subst hi; exact hu

theorem t_handleAd {f : Fr} [Fact f.S] (req : Bool) : Tri (Own f) (handleAd req) (fun r s => Own (f.owns r.1.toList) s ∧ ((∀ i ∈ r.1.toList, i ∉ f.A) ∧ (req = true → r.2 = false → r.1.isSome = true))) := by
  refine Tri.bind t_ask fun n => ?_
  refine Tri.bind (t_adLoop (f := f) n none (fun i hi => by simp at hi)) fun r => Tri.pre fun hr => ?_
  obtain ⟨found, e⟩ := r
  show Tri _ (if e = true then _ else _) _
  refine Tri.ite (fun he => ?_) (fun he => ?_)
  · exact Tri.pure fun _ h => ⟨h, hr, fun _ h => by cases h⟩
  · refine Tri.ite (fun hq => ?_) (fun hq => ?_)
    · have : found = none := by cases found <;> simp_all
      subst this
      exact Tri.bind t_log fun _ => Tri.pure fun _ h => ⟨h, hr, fun _ h => by cases h⟩
    · exact Tri.pure fun _ h => ⟨h, hr, fun h _ => by cases found <;> simp_all⟩

/-- What the URIs and the references refer to. -/
def Exts.all (x : Exts) : List Id := x.sia ++ x.refs

theorem t_handleSiaCa {f : Fr} [Fact f.S] {x : Exts} (hx : ∀ i ∈ x.all, i ∉ f.A) (hm : x.mft = none) : Tri (Own (f.owns x.all)) (handleSiaCa x) (fun r s => Own (f.owns r.1.all) s ∧
    ((∀ i ∈ r.1.all, i ∉ f.A) ∧ r.1.refs = x.refs ∧ (r.2 = false → r.1.mft.isSome = true) ∧ r.1.crldp = x.crldp ∧ r.1.caIssuers = x.caIssuers ∧ r.1.signedObject = x.signedObject ∧
      r.1.seenCdp = x.seenCdp ∧ r.1.seenAia = x.seenAia ∧ r.1.seenSia = x.seenSia)) := by
  have step : ∀ (y : Exts) (r : Option Id), ∀ i, (r.toList ++ (y.all ++ f.L)).count i = (({ y with rpp := y.rpp ++ r.toList } : Exts).all ++ f.L).count i := by
    intro y r i
    simp only [Exts.all, Exts.sia, Exts.refs, List.count_append]
    omega
  have fr : ∀ (y : Exts) (r : Option Id), (∀ i ∈ y.all, i ∉ f.A) → (∀ i ∈ r.toList, i ∉ f.A) → ∀ i ∈ ({ y with rpp := y.rpp ++ r.toList } : Exts).all, i ∉ f.A := by
    intro y r hy hr i hi
    simp only [Exts.all, Exts.sia, Exts.refs, List.mem_append] at hi hy
    by_cases h : i ∈ r.toList
    · exact hr i h
    · refine hy i ?_
      tauto
  refine Tri.bind (t_handleAd (f := f.owns x.all) false) fun r => Tri.pre fun hr => ?_
  obtain ⟨r, e⟩ := r
  have h1 := fr x r hx hr.1
  refine Tri.weaken (P := Own (f.owns ({ x with rpp := x.rpp ++ r.toList } : Exts).all)) (Tri.ite (fun he => ?_) (fun he => ?_)) (fun s h => h.perm (step x r)) (fun _ _ h => h)
  · exact Tri.pure fun _ h => ⟨h, h1, rfl, (fun h => by cases h), rfl, rfl, rfl, rfl, rfl, rfl⟩
  · refine Tri.bind (t_handleAd (f := f.owns ({ x with rpp := x.rpp ++ r.toList } : Exts).all) false) fun r' => Tri.pre fun hr' => ?_
    obtain ⟨r', e'⟩ := r'
    have h2 := fr _ r' h1 hr'.1
    refine Tri.weaken (P := Own (f.owns ({ x with rpp := x.rpp ++ r.toList ++ r'.toList } : Exts).all)) (Tri.ite (fun he => ?_) (fun he => ?_)) (fun s h => h.perm (step _ r')) (fun _ _ h => h)
    · exact Tri.pure fun _ h => ⟨h, h2, rfl, (fun h => by cases h), rfl, rfl, rfl, rfl, rfl, rfl⟩
    · refine Tri.bind (t_handleAd (f := f.owns ({ x with rpp := x.rpp ++ r.toList ++ r'.toList } : Exts).all) true) fun m => Tri.pre fun hm' => ?_
      obtain ⟨m, e''⟩ := m
      refine Tri.pure fun s h => ⟨h.perm fun i => ?_, ?_, rfl, hm'.2 rfl, rfl, rfl, rfl, rfl, rfl, rfl⟩
      · simp only [Exts.all, Exts.sia, Exts.refs, List.count_append, hm, Option.toList_none, List.count_nil]
        omega
      · intro i hi
        by_cases h : i ∈ m.toList
        · exact hm'.1 i h
        · refine h2 i ?_
          simp only [Exts.all, Exts.sia, Exts.refs, List.mem_append, hm] at hi ⊢
          tauto

theorem t_handleSiaEe {f : Fr} [Fact f.S] {x : Exts} (hx : ∀ i ∈ x.all, i ∉ f.A) (hm : x.signedObject = none) : Tri (Own (f.owns x.all)) (handleSiaEe x) (fun r s => Own (f.owns r.1.all) s ∧
    ((∀ i ∈ r.1.all, i ∉ f.A) ∧ r.1.sia = x.sia ∧ (r.2 = false → r.1.signedObject.isSome = true) ∧ r.1.crldp = x.crldp ∧ r.1.caIssuers = x.caIssuers ∧
      r.1.seenCdp = x.seenCdp ∧ r.1.seenAia = x.seenAia ∧ r.1.seenSia = x.seenSia)) := by
  refine Tri.bind (t_handleAd (f := f.owns x.all) true) fun r => Tri.pre fun hr => ?_
  obtain ⟨r, e⟩ := r
  refine Tri.pure fun s h => ⟨h.perm fun i => ?_, ?_, rfl, hr.2 rfl, rfl, rfl, rfl, rfl, rfl⟩
  · simp only [Exts.all, Exts.sia, Exts.refs, List.count_append, hm, Option.toList_none, List.count_nil]
    omega
  · intro i hi
    by_cases h : i ∈ r.toList
    · exact hr.1 i h
    · refine hx i ?_
      simp only [Exts.all, Exts.sia, Exts.refs, List.mem_append] at hi ⊢
      tauto

theorem t_handleAia {f : Fr} [Fact f.S] {x : Exts} (hx : ∀ i ∈ x.all, i ∉ f.A) (hm : x.caIssuers = none) : Tri (Own (f.owns x.all)) (handleAia x) (fun r s => Own (f.owns r.1.all) s ∧
    ((∀ i ∈ r.1.all, i ∉ f.A) ∧ r.1 = { x with caIssuers := r.1.caIssuers })) := by
  refine Tri.bind (t_handleAd (f := f.owns x.all) true) fun r => Tri.pre fun hr => ?_
  obtain ⟨r, e⟩ := r
  refine Tri.pure fun s h => ⟨h.perm fun i => ?_, ?_, rfl⟩
  · simp only [Exts.all, Exts.sia, Exts.refs, List.count_append, hm, Option.toList_none, List.count_nil]
    omega
  · intro i hi
    by_cases h : i ∈ r.toList
    · exact hr.1 i h
    · refine hx i ?_
      simp only [Exts.all, Exts.sia, Exts.refs, List.mem_append] at hi ⊢
      tauto

theorem t_handleCdp {f : Fr} {x : Exts} (hx : ∀ i ∈ x.all, i ∉ f.A) (hm : x.crldp = none) : Tri (Own (f.owns x.all)) (handleCdp x) (fun r s => Own (f.owns r.1.all) s ∧
    ((∀ i ∈ r.1.all, i ∉ f.A) ∧ r.1 = { x with crldp := r.1.crldp } ∧ (r.2 = false → r.1.crldp.isSome = true))) := by
  refine Tri.bind (t_create (f := f.owns x.all)) fun r => ?_
  cases r with
  | none => exact Tri.pure fun s h => ⟨h, hx, rfl, (fun h => by cases h)⟩
  | some c =>
    refine Tri.pre fun hc => ?_
    refine Tri.pure fun s h => ⟨h.perm fun i => ?_, ?_, rfl, fun _ => rfl⟩
    · simp only [Exts.all, Exts.sia, Exts.refs, List.count_append, hm, Option.toList_none, Option.toList_some, List.count_nil, List.count_cons]
      omega
    · intro i hi
      by_cases h : i = c
      · subst h; exact hc
      · refine hx i ?_
        simp only [Exts.all, Exts.sia, Exts.refs, List.mem_append, Option.toList_some, List.mem_singleton] at hi ⊢
        tauto

/-- What is known while the extensions are handled. -/
structure ExtInv (t : Type') (A : List Id) (x : Exts) : Prop where
  fresh : ∀ i ∈ x.all, i ∉ A
  cdp0 : x.seenCdp = false → x.crldp = none
  aia0 : x.seenAia = false → x.caIssuers = none
  mft0 : x.seenSia = false → x.mft = none
  obj0 : x.seenSia = false → x.signedObject = none
  cdp1 : x.seenCdp = true → x.crldp.isSome = true
  sia1 : x.seenSia = true → if t = .ee then x.signedObject.isSome = true else x.mft.isSome = true
  ee : t = .ee → x.sia = []
  ca : t ≠ .ee → x.signedObject = none
  ta : t = .ta → x.refs = []

/-- What is known when they have been. -/
structure ExtPost (t : Type') (A : List Id) (x : Exts) (e : Bool) : Prop where
  fresh : ∀ i ∈ x.all, i ∉ A
  ee : t = .ee → x.sia = []
  ca : t ≠ .ee → x.signedObject = none
  ta : t = .ta → x.refs = []
  cdp : e = false → t ≠ .ta → x.crldp.isSome = true
  obj : e = false → t = .ee → x.signedObject.isSome = true
  mft : e = false → t ≠ .ee → x.mft.isSome = true

theorem ExtInv.post {t : Type'} {A : List Id} {x : Exts} (h : ExtInv t A x) : ExtPost t A x true :=
  ⟨h.fresh, h.ee, h.ca, h.ta, nofun, nofun, nofun⟩

theorem t_extLoop {f : Fr} [Fact f.S] {t : Type'} : ∀ (n : Nat) (x : Exts), ExtInv t f.A x → Tri (Own (f.owns x.all)) (extLoop t n x) (fun r s => Own (f.owns r.1.all) s ∧ ExtPost t f.A r.1 r.2)
  | 0, x, hx => by
    refine Tri.ite (fun hc => ?_) (fun hc => ?_)
    · exact Tri.bind t_log fun _ => Tri.pure fun _ h => ⟨h, hx.post⟩
    · refine Tri.bind t_fails fun e => Tri.pure fun _ h => ⟨h, hx.fresh, hx.ee, hx.ca, hx.ta, fun _ ht => ?_, fun _ ht => ?_, fun _ ht => ?_⟩
      · refine hx.cdp1 ?_
        cases h1 : x.seenCdp <;> simp_all
      · have h1 := hx.sia1 (by cases h1 : x.seenSia <;> simp_all)
        rwa [if_pos ht] at h1
      · have h1 := hx.sia1 (by cases h1 : x.seenSia <;> simp_all)
        rwa [if_neg ht] at h1
  | n + 1, x, hx => by
    refine Tri.bind t_ask fun k => ?_
    match k with
    | 0 => exact t_extLoop n x hx
    | 1 => exact Tri.bind t_log fun _ => Tri.pure fun _ h => ⟨h, hx.post⟩
    | 2 =>
      refine Tri.ite (fun _ => t_extLoop n x hx) fun ht => ?_
      refine Tri.ite (fun _ => Tri.bind t_log fun _ => Tri.pure fun _ h => ⟨h, hx.post⟩) fun hs => ?_
      have hs : x.seenCdp = false := by simpa using hs
      refine Tri.bind (t_handleCdp (f := f) (x := { x with seenCdp := true }) hx.fresh (hx.cdp0 hs)) fun r => Tri.pre fun hr => ?_
      obtain ⟨y, e⟩ := r
      obtain ⟨h1, h2, h3⟩ := hr
      have h2 : y = { x with seenCdp := true, crldp := y.crldp } := h2
      have hp : ExtPost t f.A y true := ⟨h1, by rw [h2]; exact hx.ee, by rw [h2]; exact hx.ca, fun h => absurd h ht, nofun, nofun, nofun⟩
      refine Tri.ite (fun he => Tri.pure fun _ h => ⟨h, hp⟩) fun he => ?_
      have he : e = false := by simpa using he
      exact t_extLoop n y ⟨h1, by rw [h2]; exact nofun, by rw [h2]; exact hx.aia0, by rw [h2]; exact hx.mft0, by rw [h2]; exact hx.obj0, fun _ => h3 he, by rw [h2]; exact hx.sia1, by rw [h2]; exact hx.ee, by rw [h2]; exact hx.ca, fun h => absurd h ht⟩
    | 3 =>
      refine Tri.ite (fun _ => t_extLoop n x hx) fun ht => ?_
      refine Tri.ite (fun _ => Tri.bind t_log fun _ => Tri.pure fun _ h => ⟨h, hx.post⟩) fun hs => ?_
      have hs : x.seenAia = false := by simpa using hs
      refine Tri.bind (t_handleAia (f := f) (x := { x with seenAia := true }) hx.fresh (hx.aia0 hs)) fun r => Tri.pre fun hr => ?_
      obtain ⟨y, e⟩ := r
      obtain ⟨h1, h2⟩ := hr
      have h2 : y = { x with seenAia := true, caIssuers := y.caIssuers } := h2
      have hp : ExtPost t f.A y true := ⟨h1, by rw [h2]; exact hx.ee, by rw [h2]; exact hx.ca, fun h => absurd h ht, nofun, nofun, nofun⟩
      refine Tri.ite (fun he => Tri.pure fun _ h => ⟨h, hp⟩) fun he => ?_
      exact t_extLoop n y ⟨h1, by rw [h2]; exact hx.cdp0, by rw [h2]; exact nofun, by rw [h2]; exact hx.mft0, by rw [h2]; exact hx.obj0, by rw [h2]; exact hx.cdp1, by rw [h2]; exact hx.sia1, by rw [h2]; exact hx.ee, by rw [h2]; exact hx.ca, fun h => absurd h ht⟩
    | k + 4 =>
      refine Tri.ite (fun _ => Tri.bind t_log fun _ => Tri.pure fun _ h => ⟨h, hx.post⟩) fun hs => ?_
      have hs : x.seenSia = false := by simpa using hs
      have hj : ∀ r : Exts × Bool, Tri (fun s => Own (f.owns r.1.all) s ∧ (ExtPost t f.A r.1 true ∧ (r.2 = false → ExtInv t f.A r.1)))
          (if r.2 = true then pure (r.1, true) else extLoop t n r.1) (fun r s => Own (f.owns r.1.all) s ∧ ExtPost t f.A r.1 r.2) := by
        intro r
        refine Tri.pre fun hr => ?_
        obtain ⟨y, e⟩ := r
        refine Tri.ite (fun he => Tri.pure fun _ h => ⟨h, hr.1⟩) fun he => ?_
        exact t_extLoop n y (hr.2 (by simpa using he))
      · refine Tri.ite (fun ht => ?_) (fun ht => ?_)
        · refine Tri.bind (Tri.weaken (t_handleSiaEe (f := f) (x := { x with seenSia := true }) hx.fresh (hx.obj0 hs)) (fun _ h => h) ?_) hj
          rintro ⟨y, e⟩ s ⟨h0, h1, h2, h3, h4, h5, h6, h7, h8⟩
          have h2 : y.sia = x.sia := h2
          refine ⟨h0, ⟨h1, fun _ => h2.trans (hx.ee ht), fun h => absurd ht h, (fun h => by rw [ht] at h; cases h), nofun, nofun, nofun⟩, fun he => ⟨h1, fun h => ?_, fun h => ?_, fun h => ?_, fun h => ?_, fun h => ?_, fun _ => ?_, fun _ => h2.trans (hx.ee ht), fun h => absurd ht h, (fun h => by rw [ht] at h; cases h)⟩⟩
          · exact h4.trans (hx.cdp0 (h6.symm.trans h))
          · exact h5.trans (hx.aia0 (h7.symm.trans h))
          · rw [h8] at h; cases h
          · rw [h8] at h; cases h
          · show y.crldp.isSome = true
            rw [show y.crldp = x.crldp from h4]
            exact hx.cdp1 (h6.symm.trans h)
          · rw [if_pos ht]; exact h3 he
        · refine Tri.bind (Tri.weaken (t_handleSiaCa (f := f) (x := { x with seenSia := true }) hx.fresh (hx.mft0 hs)) (fun _ h => h) ?_) hj
          rintro ⟨y, e⟩ s ⟨h0, h1, h2, h3, h4, h5, h9, h6, h7, h8⟩
          refine ⟨h0, ⟨h1, fun h => absurd h ht, fun h => h9.trans (hx.ca ht), fun h => h2.trans (hx.ta h), nofun, nofun, nofun⟩, fun he => ⟨h1, fun h => ?_, fun h => ?_, fun h => ?_, fun h => ?_, fun h => ?_, fun _ => ?_, fun h => absurd h ht, fun h => h9.trans (hx.ca ht), fun h => h2.trans (hx.ta h)⟩⟩
          · exact h4.trans (hx.cdp0 (h6.symm.trans h))
          · exact h5.trans (hx.aia0 (h7.symm.trans h))
          · rw [h8] at h; cases h
          · rw [h8] at h; cases h
          · show y.crldp.isSome = true
            rw [show y.crldp = x.crldp from h4]
            exact hx.cdp1 (h6.symm.trans h)
          · rw [if_neg ht]; exact h3 he

theorem t_handleExtensions {f : Fr} [Fact f.S] {t : Type'} : Tri (Own f) (handleExtensions t) (fun r s => Own (f.owns r.1.all) s ∧ ExtPost t f.A r.1 r.2) := by
  refine Tri.bind t_ask fun n => ?_
  exact t_extLoop (f := f) n .none ⟨(fun i hi => by cases hi), fun _ => rfl, fun _ => rfl, fun _ => rfl, fun _ => rfl, (fun h => by cases h), (fun h => by cases h), fun _ => rfl, fun _ => rfl, fun _ => rfl⟩

theorem t_useOpt {f : Fr} {o : Option Id} (h : o.isSome = true) (hi : ∀ i ∈ o.toList, i ∈ f.L ∨ i ∈ f.A) : Tri (Own f) (useOpt o) (fun _ => Own f) := by
  cases o with
  | none => cases h
  | some i => exact t_use (hi i (by simp))

theorem t_validateCdp {f : Fr} {x : Exts} {p : Nat} (h : x.crldp.isSome = true) (hi : ∀ i ∈ x.refs, i ∈ f.L) (hp : p ∈ f.G) (hc : p ∈ f.C) : Tri (Own f) (validateCdp x p) (fun _ => Own f) := by
  refine Tri.bind (t_useOpt h fun i hi' => .inl (hi i (by simp only [Exts.refs, List.mem_append]; tauto))) fun _ => ?_
  refine Tri.bind (t_rppAt hp) fun r => ?_
  rintro s ⟨hs, hr, -⟩
  obtain ⟨r', hr', hcr⟩ := hs.crls p hc
  rw [hr] at hr'
  cases hr'
  cases ho : r.crl with
  | none => rw [ho] at hcr; cases hcr
  | some c =>
    have h1 : Own { f with A := c :: f.A } s := { hs with
      alive := fun v hv => by
        rcases List.mem_cons.1 hv with rfl | hv
        · exact hs.held_ne (things_held hr (by simp [Rpp.things, ho]))
        · exact hs.alive v hv
      named := fun v hv => List.mem_cons_of_mem _ (hs.named v hv) }
    have key : Tri (Own { f with A := c :: f.A }) (do use c; fails : M Bool) (fun _ => Own { f with A := c :: f.A }) := Tri.bind (t_use (.inr List.mem_cons_self)) fun _ => t_fails
    have h2 := (key s h1).less (A := f.A) (fun u hu => .inl (List.mem_cons_of_mem _ hu)) hs.named
    exact h2

theorem t_refsValidateEe {f : Fr} {x : Exts} {p : Nat} {u : Id} (h : x.crldp.isSome = true) (h' : x.signedObject.isSome = true) (hi : ∀ i ∈ x.refs, i ∈ f.L) (hp : p ∈ f.G) (hc : p ∈ f.C)
    (hu : u ∈ f.L ∨ u ∈ f.A) : Tri (Own f) (refsValidateEe x p u) (fun _ => Own f) := by
  refine Tri.bind (t_validateCdp h hi hp hc) fun e => Tri.ite (fun _ => Tri.pure fun _ h => h) fun _ => ?_
  refine Tri.bind (t_useOpt h' fun i hi' => .inl (hi i (by simp only [Exts.refs, List.mem_append]; tauto))) fun _ => ?_
  exact Tri.bind (t_use hu) fun _ => t_fails

theorem t_refsValidateCa {f : Fr} {x : Exts} {p : Nat} (h : x.crldp.isSome = true) (h' : x.signedObject = none) (hi : ∀ i ∈ x.refs, i ∈ f.L) (hp : p ∈ f.G) (hc : p ∈ f.C) :
    Tri (Own f) (refsValidateCa x p) (fun _ => Own f) := by
  refine Tri.bind (t_validateCdp h hi hp hc) fun e => Tri.ite (fun _ => Tri.pure fun _ h => h) fun _ => ?_
  rw [h']
  exact Tri.pure fun _ h => h

theorem t_extensionsCa {f : Fr} [Fact f.S] {parent : Option Nat} (hp : ∀ p, parent = some p → p ∈ f.G ∧ p ∈ f.C) : Tri (Own f) (extensionsCa parent)
    (fun r s => Own (f.owns r.1.sia) s ∧ ((∀ i ∈ r.1.sia, i ∉ f.A) ∧ (r.2 = false → r.1.mft.isSome = true))) := by
  cases parent with
  | none =>
    refine (t_handleExtensions (f := f) (t := .ta)).weaken (fun _ h => h) ?_
    rintro ⟨x, e⟩ s ⟨h, hx⟩
    refine ⟨h.perm fun i => ?_, fun i hi => hx.fresh i (List.mem_append_left _ hi), fun he => hx.mft he (by decide)⟩
    rw [Exts.all, hx.ta rfl, List.append_nil]
  | some p =>
    refine Tri.bind (t_handleExtensions (f := f) (t := .ca)) fun r => Tri.pre fun hx => ?_
    obtain ⟨x, e⟩ := r
    have hj : ∀ e' : Bool, (e' = false → e = false) → Tri (Own (f.owns x.all)) (do putAll x.refs; pure (x, e')) (fun r s => Own (f.owns r.1.sia) s ∧ ((∀ i ∈ r.1.sia, i ∉ f.A) ∧ (r.2 = false → r.1.mft.isSome = true))) := by
      intro e' he
      refine Tri.bind (Q := fun _ => Own (f.owns x.sia)) ?_ fun _ => Tri.pure fun _ h => ⟨h, fun i hi => hx.fresh i (List.mem_append_left _ hi), fun h => hx.mft (he h) (by decide)⟩
      refine Tri.weaken (t_putAll (f := f.owns x.sia) x.refs fun i hi hA => absurd hA (hx.fresh i (List.mem_append_right _ hi))) (fun s h => h.perm fun i => ?_) (fun _ _ h => h)
      simp only [Exts.all, List.count_append]
      omega
    refine Tri.ite (fun he => hj true nofun) fun he => ?_
    have he : e = false := by simpa using he
    refine Tri.bind (t_refsValidateCa (f := f.owns x.all) (hx.cdp he (by decide)) (hx.ca (by decide)) (fun i hi => ?_) (hp p rfl).1 (hp p rfl).2) fun e' => hj e' fun _ => he
    exact List.mem_append_left _ (List.mem_append_right _ hi)

theorem t_useX509s {f : Fr} {k : M Bool} (hk : Tri (Own f) k (fun _ => Own f)) : Tri (Own f) (do useAll (← MonadState.get).x509s; k) (fun _ => Own f) := by
  refine Tri.get fun s0 => ?_
  rintro s ⟨h, rfl⟩
  have h1 : Own { f with A := s.x509s ++ f.A } s := { h with
    alive := fun v hv => by
      rcases List.mem_append.1 hv with hv | hv
      · exact h.held_ne (by simp [St.held, hv])
      · exact h.alive v hv
    named := fun v hv => List.mem_append_right _ (h.named v hv) }
  have h2 := t_useAll (f := { f with A := s.x509s ++ f.A }) s.x509s (fun i hi => .inr (List.mem_append_left _ hi)) s h1
  exact hk _ (h2.less (fun u hu => .inl (List.mem_append_right _ hu)) h.named)

theorem t_validateChain {f : Fr} [Fact f.S] {cert : Id} {crl : Option Id} (hc : cert ∈ f.L) (hl : ∀ c ∈ crl.toList, c ∈ f.A) : Tri (Own f) (validateChain cert crl) (fun _ => Own f) := by
  refine Tri.bind t_useTls fun _ => ?_
  cases crl with
  | none => exact Tri.pure fun _ h => h
  | some c =>
    refine Tri.bind (t_use (.inl hc)) fun _ => ?_
    exact t_useX509s (Tri.bind (t_use (.inr (hl c (by simp)))) fun _ => t_fails)

theorem t_validateRfc6487 {f : Fr} [Fact f.S] {cert : Id} (hc : cert ∈ f.L) : Tri (Own f) (validateRfc6487 cert) (fun _ => Own f) := by
  refine Tri.bind (t_use (.inl hc)) fun _ => ?_
  refine Tri.bind t_useTls fun _ => ?_
  refine Tri.bind t_fails fun _ => Tri.ite (fun _ => Tri.pure fun _ h => h) fun _ => ?_
  refine Tri.bind t_storeSerial fun _ => Tri.ite (fun _ => Tri.pure fun _ h => h) fun _ => ?_
  exact t_fails

end Verif.Mem
