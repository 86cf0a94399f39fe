import Verif.Mem.LemmasTree
/-
Triples for a TAL.
-/
namespace Verif.Mem

theorem log_tls (s : St) : (log s).2.tls = s.tls := by unfold log; cases s.names <;> rfl

theorem fails_tls (s : St) : (fails s).2.tls = s.tls := by
  by_cases h : (askB s).1 = true
  · show ((if (askB s).1 then (do log; return true : M Bool) else pure false) (askB s).2).2.tls = _
    rw [if_pos h]
    exact log_tls _
  · show ((if (askB s).1 then (do log; return true : M Bool) else pure false) (askB s).2).2.tls = _
    rw [if_neg h]
    rfl

theorem t_validationDestroy {f : Fr} (hA : ∀ v ∈ f.A, v ∈ f.L) (hC : ∀ p ∈ f.C, p ∈ f.G) : Tri (Own { f with S := True }) validationDestroy (fun _ => Own { f with S := False, D := [] }) := by
  refine Tri.bind (t_certstackDestroy (f := { f with S := True }) hA hC) fun _ => ?_
  refine Tri.get fun s0 => ?_
  rintro s ⟨⟨h, -, -⟩, rfl⟩
  obtain ⟨-, h2⟩ := h.state trivial
  cases ht : s.state with
  | none => rw [ht] at h2; cases h2
  | some t =>
    show Own _ (put t { s with state := none }).2
    refine t_put (f := { f with S := False, D := [] }) (fun h => hA t h) _ { h with bal := fun i => ?_, state := nofun, nostate := fun _ => rfl }
    refine (h.bal i).trans ?_
    show s.held.count i + f.L.count i = ({ s with state := none } : St).held.count i + (t :: f.L).count i
    simp only [St.held, ht, Option.toList_some, Option.toList_none, List.count_append, List.count_cons, List.count_nil]
    omega

theorem t_handleTalUri {f : Fr} {n : Nat} {u : Id} (hS : f.S = False) (hB : f.B) (hu : u ∈ f.L) (hA : ∀ v ∈ f.A, v ∈ f.L) (hC : ∀ p ∈ f.C, p ∈ f.G) :
    Tri (Own (f.def [])) (handleTalUri n u) (fun r s => match r with
      | none => s.bad = false
      | some _ => Own (f.def []) s) := by
  obtain ⟨L, G, N, A, C, D, B, S⟩ := f
  simp only at hS hB hu hA hC
  subst hS
  refine Tri.bind (t_use (.inl hu)) fun _ => ?_
  refine Tri.bind t_new fun t => Tri.pre fun ht => ?_
  let g : Fr := ⟨L, G, N, A, C, [], B, False⟩
  show Tri (Own (g.own t)) _ _
  refine Tri.bind (Q := fun _ s => Own (g.own t) s ∧ s.tls = some t) (fun s h => ⟨{ h with state := nofun }, rfl⟩) fun _ => ?_
  refine Tri.bind (Q := fun _ s => Own (g.own t) s ∧ s.tls = some t) (fun s h => ⟨t_fails s h.1, (fails_tls s).trans h.2⟩) fun e => Tri.ite (fun _ => ?_) fun _ => ?_
  · exact fun s h => t_put (f := g) (fun h => absurd h ht) s h.1
  · let k : Fr := ⟨L, G, N, A, C, [], B, True⟩
    have : Fact k.S := ⟨trivial⟩
    refine Tri.bind (Q := fun _ => Own k) ?_ fun _ => ?_
    · rintro s ⟨h, h1⟩
      have h0 : s.state = none := h.nostate fun h => h
      refine { h with bal := fun i => ?_, state := fun _ => ⟨h1, rfl⟩, nostate := fun h => absurd trivial h }
      refine (h.bal i).trans ?_
      show s.held.count i + (t :: L).count i = ({ s with state := some t } : St).held.count i + L.count i
      simp only [St.held, h0, Option.toList_some, Option.toList_none, List.count_append, List.count_cons, List.count_nil]
      omega
    · have hend : ∀ b : Bool, Tri (fun s => ∃ D', Own (k.def D') s) (do validationDestroy; return some b) (fun r s => match r with
          | none => s.bad = false
          | some _ => Own g s) := by
        rintro b s ⟨D', h⟩
        exact t_validationDestroy (f := k.def D') hA hC s h
      refine Tri.bind t_fails fun e => Tri.ite (fun _ => (hend true).weaken (fun _ h => ⟨[], h⟩) (fun _ _ h => h)) fun _ => ?_
      refine Tri.bind (t_certificateTraverse (f := k) hB hu hA hC nofun) fun e => Tri.ite (fun _ => hend true) fun _ => ?_
      refine Tri.bind (Q := fun _ s => ∃ D', Own (k.def D') s) ?_ fun e => Tri.ite (fun _ => hend false) fun _ => Tri.pure fun _ ⟨_, h⟩ => h.good
      rintro s ⟨D', h⟩
      exact t_drain (f := k) hB hA hC n D' s h

theorem t_readUris {f : Fr} : ∀ (n : Nat) (l : List Id), (∀ i ∈ l, i ∉ f.A) → Tri (Own (f.owns l)) (readUris n l) (fun r s => Own (f.owns r.1) s ∧ ∀ i ∈ r.1, i ∉ f.A)
  | 0, l, hl => Tri.bind t_fails fun _ => Tri.pure fun _ h => ⟨h, hl⟩
  | n + 1, l, hl => by
    refine Tri.bind t_create fun r => ?_
    cases r with
    | none => exact Tri.pure fun _ h => ⟨h, hl⟩
    | some u =>
      refine Tri.pre fun hu => Tri.weaken (t_readUris (f := f) n (l ++ [u]) fun i hi => ?_) (fun s h => h.perm fun i => ?_) (fun _ _ h => h)
      · rcases List.mem_append.1 hi with hi | hi
        · exact hl i hi
        · rw [List.mem_singleton.1 hi]; exact hu
      · simp only [List.count_append, List.count_cons, List.count_nil]; omega

theorem t_loadNodes {f : Fr} : ∀ (n : Nat), Tri (Own f) (loadNodes n) (fun _ => Own f)
  | 0 => Tri.pure fun _ h => h
  | n + 1 => by
    refine Tri.bind t_create fun r => ?_
    cases r with
    | none => exact t_loadNodes n
    | some u =>
      refine Tri.pre fun hu => ?_
      refine Tri.bind t_fails fun e => Tri.ite (fun _ => ?_) fun _ => ?_
      · exact Tri.bind (t_put (f := f) fun h => absurd h hu) fun _ => t_loadNodes n
      · refine Tri.bind (Q := fun _ => Own f) (fun s h => { h with bal := fun i => ?_ }) fun _ => t_loadNodes n
        refine (h.bal i).trans ?_
        show s.held.count i + (u :: f.L).count i = ({ s with nodes := u :: s.nodes } : St).held.count i + f.L.count i
        simp only [St.held, List.count_append, List.count_cons]
        omega

theorem t_talInit {f : Fr} : Tri (Own f) talInit (fun r s => match r with
    | none => Own f s
    | some (l, spki) => Own (f.owns (spki :: l)) s ∧ (∀ i ∈ spki :: l, i ∉ f.A)) := by
  refine Tri.bind t_ask fun n => ?_
  refine Tri.bind (t_readUris (f := f) n [] (fun i hi => by cases hi)) fun r => Tri.pre fun hl => ?_
  obtain ⟨l, e⟩ := r
  have hput := t_putAll (f := f) l fun i hi hA => absurd hA (hl i hi)
  refine Tri.ite (fun _ => Tri.bind hput fun _ => Tri.pure fun _ h => h) fun _ => ?_
  refine Tri.bind (t_create (f := f.owns l)) fun r => ?_
  cases r with
  | none => exact Tri.bind hput fun _ => Tri.pure fun _ h => h
  | some spki =>
    refine Tri.pre fun hs => ?_
    refine Tri.bind t_ask fun n => ?_
    refine Tri.bind (t_loadNodes n) fun _ => Tri.pure fun _ h => ⟨h, fun i hi => ?_⟩
    rcases List.mem_cons.1 hi with rfl | hi
    · exact hs
    · exact hl i hi

theorem t_talLoop {f : Fr} {n : Nat} (hS : f.S = False) (hB : f.B) (hA : ∀ v ∈ f.A, v ∈ f.L) (hC : ∀ p ∈ f.C, p ∈ f.G) : ∀ (l : List Id), (∀ i ∈ l, i ∈ f.L) → Tri (Own (f.def [])) (talLoop n l) (fun r s => match r with
    | none => s.bad = false
    | some _ => Own (f.def []) s)
  | [], _ => Tri.pure fun _ h => h
  | u :: l, hl => by
    have ih := t_talLoop (n := n) hS hB hA hC l fun i hi => hl i (List.mem_cons_of_mem _ hi)
    refine Tri.bind t_askB fun _ => Tri.ite (fun _ => ih) fun _ => ?_
    refine Tri.bind (t_downloadTal (hl u List.mem_cons_self)) fun _ => Tri.ite (fun _ => ih) fun _ => ?_
    refine Tri.bind (t_handleTalUri hS hB (hl u List.mem_cons_self) hA hC) fun r => ?_
    cases r with
    | none => exact Tri.pure fun _ h => h
    | some e =>
      cases e with
      | false => exact Tri.bind t_askB fun _ => Tri.pure fun _ h => h
      | true => exact Tri.bind t_askB fun b => Tri.ite (fun _ => ih) fun _ => Tri.pure fun _ h => h

theorem t_talDownload {f : Fr} {n : Nat} (hS : f.S = False) (hB : f.B) (hA : ∀ v ∈ f.A, v ∈ f.L) (hC : ∀ p ∈ f.C, p ∈ f.G) (l : List Id) (hl : ∀ i ∈ l, i ∈ f.L) : Tri (Own (f.def [])) (talDownload n l) (fun r s => match r with
    | none => s.bad = false
    | some _ => Own (f.def []) s) := by
  refine Tri.bind (t_talLoop hS hB hA hC l hl) fun r => ?_
  cases r with
  | none => exact Tri.pure fun _ h => h
  | some b =>
    cases b with
    | true => exact Tri.pure fun _ h => h
    | false =>
      refine Tri.bind (t_talLoop hS hB hA hC l hl) fun r => ?_
      cases r with
      | none => exact Tri.pure fun _ h => h
      | some b =>
        cases b with
        | true => exact Tri.pure fun _ h => h
        | false =>
          refine Tri.bind (t_recoverLoop (f := f.def []) hl l none (fun _ h => h) (fun i hi => by simp at hi)) fun r => Tri.pre fun hr => ?_
          cases r with
          | none => exact Tri.pure fun _ h => h
          | some u =>
            refine Tri.bind (t_handleTalUri hS hB (hl u (hr u (by simp))) hA hC) fun r => ?_
            cases r with
            | none => exact Tri.pure fun _ h => h
            | some e => exact Tri.pure fun _ h => h

/-- What does not change the cache. -/
def KeepsN {α : Type} (m : M α) : Prop := ∀ s, (m s).2.nodes = s.nodes

theorem KeepsN.bind {α β : Type} {m : M α} {k : α → M β} (h : KeepsN m) (hk : ∀ a, KeepsN (k a)) : KeepsN (m >>= k) := fun s => (hk _ _).trans (h s)
theorem KeepsN.pure {α : Type} {a : α} : KeepsN (Pure.pure a : M α) := fun _ => rfl
theorem KeepsN.ite {α : Type} {c : Prop} [Decidable c] {a b : M α} (ha : KeepsN a) (hb : KeepsN b) : KeepsN (if c then a else b) := by
  by_cases h : c
  · rw [if_pos h]; exact ha
  · rw [if_neg h]; exact hb
theorem kn_askB : KeepsN askB := fun _ => rfl
theorem kn_log : KeepsN log := fun s => by unfold log; cases s.names <;> rfl
theorem kn_fails : KeepsN fails := kn_askB.bind fun _ => .ite (kn_log.bind fun _ => .pure) .pure
theorem kn_create : KeepsN create := kn_fails.bind fun _ => .ite .pure (KeepsN.bind (m := new) (fun _ => rfl) fun _ => .pure)
theorem kn_putAll : ∀ (l : List Id), KeepsN (putAll l)
  | [] => fun _ => rfl
  | _ :: l => KeepsN.bind (fun _ => rfl) fun _ => kn_putAll l

theorem t_deleteCage {f : Fr} : Tri (Own f) deleteCage (fun _ => Own f) := by
  refine Tri.bind t_askB fun b => Tri.ite (fun _ => ?_) fun _ => Tri.pure fun _ h => h
  refine Tri.bind t_create fun r => ?_
  cases r with
  | none => exact Tri.pure fun _ h => h
  | some c => exact Tri.pre fun hc => Tri.bind (t_use (f := f.own c) (.inl List.mem_cons_self)) fun _ => t_put (f := f) fun h => absurd h hc

theorem kn_deleteCage : KeepsN deleteCage := kn_askB.bind fun _ => .ite (kn_create.bind fun r => by
  cases r with
  | none => exact .pure
  | some c => exact KeepsN.bind (m := use c) (fun _ => rfl) fun _ _ => rfl) .pure

theorem t_cleanupNodes {f : Fr} (hA : ∀ v ∈ f.A, v ∈ f.L) : ∀ (l : List Id), Tri (fun s => Own f s ∧ ∀ i, l.count i ≤ s.nodes.count i) (cleanupNodes l) (fun _ => Own f)
  | [] => Tri.pure fun _ h => h.1
  | u :: l => by
    have ih := t_cleanupNodes hA l
    refine Tri.bind (Q := fun _ s => Own f s ∧ ∀ i, (u :: l).count i ≤ s.nodes.count i) ?_ fun _ => ?_
    · rintro s ⟨h, h1⟩
      have hu : u ∈ s.nodes := by
        have := h1 u
        rw [List.count_cons_self] at this
        exact List.count_pos_iff.1 (by omega)
      have hu' := h.held_ne (i := u) (by simp [St.held, hu])
      exact ⟨{ h with good := by show (s.bad || decide (s.refs u = 0)) = false; simp [h.good, hu'] }, h1⟩
    · refine Tri.bind (Q := fun _ s => Own f s ∧ ∀ i, (u :: l).count i ≤ s.nodes.count i) (fun s h => ⟨t_askB s h.1, h.2⟩) fun b => Tri.ite (fun _ => ?_) fun _ => ?_
      · refine Tri.bind (Q := fun _ s => Own f s ∧ ∀ i, (u :: l).count i ≤ s.nodes.count i) (fun s h => ⟨t_deleteCage s h.1, by rw [kn_deleteCage s]; exact h.2⟩) fun _ => ?_
        refine Tri.bind (Q := fun _ s => Own (f.own u) s ∧ ∀ i, l.count i ≤ s.nodes.count i) ?_ fun _ => ?_
        · rintro s ⟨h, h1⟩
          have h2 := h1 u
          rw [List.count_cons_self] at h2
          refine ⟨{ h with bal := fun i => ?_ }, fun i => ?_⟩
          · refine (h.bal i).trans ?_
            show s.held.count i + f.L.count i = ({ s with nodes := s.nodes.erase u } : St).held.count i + (u :: f.L).count i
            simp only [St.held, List.count_append, List.count_cons, List.count_erase]
            by_cases e : u = i
            · subst e; simp; omega
            · have e' : ¬ i = u := fun h => e h.symm
              simp [e, e']
          · show l.count i ≤ (s.nodes.erase u).count i
            have h3 := h1 i
            rw [List.count_erase]
            rw [List.count_cons] at h3
            by_cases e : u = i
            · subst e; simp at h3 ⊢; omega
            · have e' : ¬ i = u := fun h => e h.symm
              simp [e, e'] at h3 ⊢; exact h3
        · exact Tri.bind (fun s h => (⟨t_put (f := f) (fun h => hA u h) s h.1, h.2⟩ : Own f _ ∧ _)) fun _ => ih
      · exact ih.weaken (fun s h => ⟨h.1, fun i => by have := h.2 i; rw [List.count_cons] at this; omega⟩) (fun _ _ h => h)

theorem t_dncLoop {f : Fr} : ∀ (l dnc : List Id), (∀ i ∈ l, i ∈ f.A) → Tri (Own (f.owns dnc)) (dncLoop l dnc) (fun r s => Own (f.owns r) s)
  | [], dnc, _ => Tri.pure fun _ h => h
  | u :: l, dnc, hl => by
    have hl' : ∀ i ∈ l, i ∈ f.A := fun i hi => hl i (List.mem_cons_of_mem _ hi)
    have h1 : Tri (Own ((f.owns dnc).own u)) (dncLoop l (dnc ++ [u])) (fun r s => Own (f.owns r) s) :=
      Tri.weaken (t_dncLoop (f := f) l (dnc ++ [u]) hl') (fun s h => h.perm fun i => by simp only [List.count_append, List.count_cons, List.count_nil]; omega) (fun _ _ h => h)
    refine Tri.bind (t_get (.inr (hl u List.mem_cons_self))) fun _ => ?_
    refine Tri.bind t_askB fun b => Tri.ite (fun _ => ?_) fun _ => h1
    refine Tri.bind t_create fun r => ?_
    cases r with
    | none => exact h1
    | some c =>
      refine Tri.weaken (t_dncLoop (f := f) l (dnc ++ [u, c]) hl') (fun s h => h.1.perm fun i => ?_) (fun _ _ h => h)
      simp only [List.count_append, List.count_cons, List.count_nil]; omega

/-- The URLs of the cache are alive. -/
theorem own_nodes {f : Fr} {s : St} (h : Own f s) : Own { f with A := s.nodes ++ f.A } s := { h with
  alive := fun v hv => by
    rcases List.mem_append.1 hv with hv | hv
    · exact h.held_ne (by simp [St.held, hv])
    · exact h.alive v hv
  named := fun v hv => List.mem_append_right _ (h.named v hv) }

theorem t_deleteUnknown {f : Fr} (hA : ∀ v ∈ f.A, v ∈ f.L) : Tri (Own f) deleteUnknown (fun _ => Own f) := by
  refine Tri.bind t_fails fun e => Tri.ite (fun _ => Tri.pure fun _ h => h) fun _ => ?_
  refine Tri.named fun hN => ?_
  refine Tri.get fun s0 => ?_
  rintro s ⟨h, rfl⟩
  have h1 := t_new (f := { f with A := s.nodes ++ f.A }) s (own_nodes h)
  have h2 := t_dncLoop (f := { f with A := s.nodes ++ f.A }) s.nodes [(new s).1] (fun i hi => List.mem_append_left _ hi) _ h1.1
  have h3 := h2.less (A := f.A) (fun v hv => .inl (List.mem_append_right _ hv)) hN
  have key : ∀ dnc : List Id, Tri (Own (f.owns dnc)) (do useAll dnc; putAll dnc : M Unit) (fun _ => Own f) := fun dnc =>
    Tri.bind (t_useAll (f := f.owns dnc) dnc fun i hi => .inl (List.mem_append_left _ hi)) fun _ => t_putAll (f := f) dnc fun i _ hi => hA i hi
  exact key _ _ h3

theorem t_cacheDestroy {f : Fr} (hA : ∀ v ∈ f.A, v ∈ f.L) : Tri (Own f) cacheDestroy (fun _ s => Own f s ∧ s.nodes = []) := by
  have h0 : Tri (Own f) (do cleanupNodes (← MonadState.get).nodes; deleteUnknown : M Unit) (fun _ => Own f) := by
    refine Tri.get fun s0 => ?_
    rintro s ⟨h, rfl⟩
    exact t_deleteUnknown hA _ (t_cleanupNodes hA s.nodes s ⟨h, fun _ => Nat.le_refl _⟩)
  intro s h
  have h1 := h0 s h
  set s1 := ((do cleanupNodes (← MonadState.get).nodes; deleteUnknown : M Unit) s).2 with hs1
  have h2 := t_useAll (f := { f with A := s1.nodes ++ f.A }) s1.nodes (fun i hi => .inr (List.mem_append_left _ hi)) s1 (own_nodes h1)
  have h2' := h2.less (A := f.A) (fun v hv => .inl (List.mem_append_right _ hv)) h1.named
  set s2 := (useAll s1.nodes s1).2 with hs2
  have h3 : Own (f.owns s2.nodes) { s2 with nodes := [] } := { h2' with
    bal := fun i => by
      refine (h2'.bal i).trans ?_
      show s2.held.count i + f.L.count i = ({ s2 with nodes := [] } : St).held.count i + (s2.nodes ++ f.L).count i
      simp only [St.held, List.count_append, List.count_nil]
      omega }
  have e : (cacheDestroy s).2 = (putAll s2.nodes { s2 with nodes := [] }).2 := rfl
  rw [e]
  exact ⟨t_putAll (f := f) s2.nodes (fun i _ hi => hA i hi) _ h3, kn_putAll _ _⟩

/-- The thread's state, when it begins. -/
def St.init (orc : Nat → Nat) : St := ⟨fun _ => 0, 0, [], [], [], [], [], [], none, none, false, orc, 0⟩

/-- Nothing is owned, nor known. -/
def Fr.nil : Fr := ⟨[], [], [], [], [], [], True, False⟩

theorem own_init (orc : Nat → Nat) : Own Fr.nil (St.init orc) where
  good := rfl
  bal _ := rfl
  rbal _ := rfl
  dead p r h _ := by simp [St.init] at h
  fresh _ _ := rfl
  names := rfl
  alive _ h := by cases h
  named _ h := by cases h
  crls _ h := by cases h
  crlsD _ h := by cases h
  defers := rfl
  shape _ := ⟨rfl, rfl⟩
  state h := h.elim
  nostate _ := rfl

theorem kn_readUris : ∀ (n : Nat) (l : List Id), KeepsN (readUris n l)
  | 0, _ => kn_fails.bind fun _ => .pure
  | n + 1, l => kn_create.bind fun r => by
    cases r with
    | none => exact .pure
    | some u => exact kn_readUris n (l ++ [u])

theorem KeepsN.tri {α : Type} {m : M α} (h : KeepsN m) : Tri (fun s => s.nodes = []) m (fun _ s => s.nodes = []) := fun s hs => (h s).trans hs

theorem n_talInit : Tri (fun s => s.nodes = []) talInit (fun r s => r = none → s.nodes = []) := by
  refine Tri.bind (Q := fun _ s => s.nodes = []) (fun s h => h) fun n => ?_
  refine Tri.bind (kn_readUris n []).tri fun r => ?_
  obtain ⟨l, e⟩ := r
  refine Tri.ite (fun _ => Tri.bind (kn_putAll l).tri fun _ => Tri.pure fun _ h _ => h) fun _ => ?_
  refine Tri.bind kn_create.tri fun r => ?_
  cases r with
  | none => exact Tri.bind (kn_putAll l).tri fun _ => Tri.pure fun _ h _ => h
  | some spki => exact fun s h hn => by cases hn

theorem t_talEnd {debug : Bool} {name : Option Id} {file : Id} (hn : debug = true → name = some file) :
    Tri (fun s => Own ⟨[file], [], [file], [file], [], [], True, False⟩ s ∧ s.nodes = []) (talEnd debug name file) (fun r s => match r with
      | none => s.bad = false
      | some _ => Own Fr.nil s ∧ s.nodes = []) := by
  refine Tri.bind (Q := fun _ s => Own ⟨[file], [], [], [], [], [], True, False⟩ s ∧ s.nodes = []) ?_ fun _ => ?_
  · rintro s ⟨h, h0⟩
    have h1 := t_popName (f := ⟨[file], [], [], [file], [], [], True, False⟩) s h
    exact ⟨h1.less (A := []) (fun v hv => by cases hv) (fun v hv => by cases hv), h0⟩
  have hput : Tri (fun s => Own ⟨[file], [], [], [], [], [], True, False⟩ s ∧ s.nodes = []) (do put file; return (some () : Option Unit)) (fun r s => match r with
      | none => s.bad = false
      | some _ => Own Fr.nil s ∧ s.nodes = []) := fun s h => ⟨t_put (f := Fr.nil) (fun h => by cases h) s h.1, h.2⟩
  cases debug with
  | false => exact Tri.bind (Q := fun _ s => Own ⟨[file], [], [], [], [], [], True, False⟩ s ∧ s.nodes = []) (fun s h => ⟨t_askB s h.1, h.2⟩) fun b => hput
  | true =>
    rw [hn rfl]
    refine Tri.bind (Q := fun _ s => Own ⟨[file], [], [], [], [], [], True, False⟩ s ∧ s.nodes = []) (fun s h => ⟨t_askB s h.1, h.2⟩) fun b => ?_
    refine Tri.ite (fun _ => ?_) fun _ => hput
    exact Tri.bind (Q := fun _ s => Own ⟨[file], [], [], [], [], [], True, False⟩ s ∧ s.nodes = []) (fun s h => ⟨t_use (.inl List.mem_cons_self) s h.1, h.2⟩) fun _ => hput

theorem t_doFileValidation (debug : Bool) (n : Nat) : Tri (fun s => (Own Fr.nil s ∧ s.nodes = []) ∧ (debug = true → s.orc s.pos = 0)) (doFileValidation debug n) (fun r s => match r with
    | none => s.bad = false
    | some _ => Own Fr.nil s ∧ s.nodes = []) := by
  refine Tri.bind (Q := fun file s => (Own (Fr.nil.own file) s ∧ s.nodes = []) ∧ (debug = true → s.orc s.pos = 0)) (fun s h => ⟨⟨(t_new s h.1.1).1, h.1.2⟩, h.2⟩) fun file => ?_
  let g : Fr := ⟨[file], [], [file], [file], [], [], True, False⟩
  have hgA : ∀ v ∈ g.A, v ∈ g.L := fun _ h => h
  have hend : Tri (fun s => Own g s ∧ s.nodes = []) (talEnd debug (some file) file) _ := t_talEnd fun _ => rfl
  refine Tri.bind (Q := fun _ s => (Own g s ∧ s.nodes = []) ∧ (debug = true → s.orc s.pos = 0)) ?_ fun _ => ?_
  · rintro s ⟨⟨h, h0⟩, h1⟩
    refine ⟨⟨t_pushName (f := { g with N := [] }) List.mem_cons_self s (h.less (fun v hv => .inr hv) (fun v hv => by cases hv)), h0⟩, h1⟩
  refine Tri.bind (Q := fun b s => (Own g s ∧ s.nodes = []) ∧ (b = true → debug = false)) ?_ fun b => ?_
  · rintro s ⟨⟨h, h0⟩, h1⟩
    refine ⟨⟨t_fails s h, (kn_fails s).trans h0⟩, fun hb => ?_⟩
    cases hd : debug with
    | false => rfl
    | true =>
      have e : (fails s).1 = false := by
        have h2 := h1 hd
        have e2 : (askB s).1 = false := by show decide (s.orc s.pos ≠ 0) = false; simp [h2]
        show ((if (askB s).1 = true then (do log; return true : M Bool) else (return false)) (askB s).2).1 = false
        rw [e2]; rfl
      rw [e] at hb; cases hb
  refine Tri.pre fun hb => ?_
  refine Tri.ite (fun hf => t_talEnd fun hd => by rw [hb hf] at hd; cases hd) fun _ => ?_
  refine Tri.bind (Q := fun r s => match r with
    | none => Own g s ∧ s.nodes = []
    | some (l, spki) => Own (g.owns (spki :: l)) s ∧ (∀ i ∈ spki :: l, i ∉ g.A)) ?_ fun r => ?_
  · rintro s ⟨h, h0⟩
    have h1 := t_talInit (f := g) s h
    have h2 := n_talInit s h0
    cases hr : (talInit s).1 with
    | none => rw [hr] at h1; exact ⟨h1, h2 hr⟩
    | some x => rw [hr] at h1; exact h1
  cases r with
  | none => exact hend
  | some x =>
    obtain ⟨l, spki⟩ := x
    refine Tri.pre fun hl => ?_
    have hA' : ∀ v ∈ (g.owns (spki :: l)).A, v ∈ (g.owns (spki :: l)).L := fun v hv => List.mem_append_right _ hv
    refine Tri.bind (t_talDownload (f := g.owns (spki :: l)) (by exact rfl) trivial hA' (fun _ h => h) l fun i hi => List.mem_append_left _ (List.mem_cons_of_mem _ hi)) fun r => ?_
    cases r with
    | none => exact Tri.pure fun _ h => h
    | some _ =>
      refine Tri.bind t_log fun _ => ?_
      refine Tri.bind (t_cacheDestroy hA') fun _ => ?_
      refine Tri.bind (Q := fun _ s => Own (g.owns l) s ∧ s.nodes = []) (fun s h => ⟨t_put (f := g.owns l) (fun h => absurd h (hl spki List.mem_cons_self)) s h.1, h.2⟩) fun _ => ?_
      refine Tri.bind (Q := fun _ s => Own g s ∧ s.nodes = []) (fun s h => ⟨t_putAll (f := g) l (fun i hi h => absurd h (hl i (List.mem_cons_of_mem _ hi))) s h.1, (kn_putAll l s).trans h.2⟩) fun _ => ?_
      exact hend

/-- When nobody owns anything, there is nothing. -/
theorem own_nil {s : St} (h : Own Fr.nil s) (hn : s.nodes = []) : s.held = [] := by
  have hd : s.defers = [] := h.defers
  obtain ⟨h1, h2⟩ := h.shape trivial
  rw [hd] at h2
  have hm : s.metas = [] := List.length_eq_zero_iff.1 h2.symm
  have hx : s.x509s = [] := List.length_eq_zero_iff.1 (by rw [← h1, hm]; rfl)
  have hs : s.state = none := h.nostate fun h => h
  have hr : s.rpps.flatMap Rpp.things = [] := by
    rw [List.flatMap_eq_nil_iff]
    intro r hr
    obtain ⟨p, hp⟩ := List.getElem?_of_mem hr
    refine h.dead p r hp ?_
    have h3 := h.rbal p
    rw [hd] at h3
    have h4 : s.rrefs p = r.refs := by simp [St.rrefs, hp]
    rw [← h4, h3]
    rfl
  simp [St.held, hd, hm, hx, hs, hr, hn, deferUris]

end Verif.Mem
