import Verif.Mem.LemmasObj
/-
Triples for downloads.
-/
namespace Verif.Mem

theorem t_getUrl {f : Fr} {u : Id} (hu : u ∈ f.L) : Tri (Own f) (getUrl u) (fun r s => match r with | none => Own f s | some x => Own (f.own x) s ∧ (x ∈ f.A → x ∈ f.L)) := by
  refine Tri.bind (t_use (.inl hu)) fun _ => ?_
  refine Tri.bind t_askB fun b => Tri.ite (fun _ => ?_) fun _ => ?_
  · exact Tri.bind (t_get (.inl hu)) fun _ => Tri.pure fun _ h => ⟨h, fun _ => hu⟩
  · refine t_create.weaken (fun _ h => h) fun r s h => ?_
    cases r with
    | none => exact h
    | some x => exact ⟨h.1, fun hx => absurd hx h.2⟩

theorem t_cacheDownload {f : Fr} {u : Id} (hu : u ∈ f.L) : Tri (Own f) (cacheDownload u) (fun _ => Own f) := by
  refine Tri.bind (t_getUrl hu) fun r => ?_
  cases r with
  | none => exact Tri.pure fun _ h => h
  | some url =>
    refine Tri.pre fun hx => ?_
    refine Tri.bind t_ask fun k => ?_
    refine Tri.get fun s0 => ?_
    rintro s ⟨h, rfl⟩
    cases hn : s.nodes[k]? with
    | none =>
      have h1 : Own f { s with nodes := url :: s.nodes } := { h with
        bal := fun i => by
          refine (h.bal i).trans ?_
          show s.held.count i + (url :: f.L).count i = ({ s with nodes := url :: s.nodes } : St).held.count i + f.L.count i
          simp only [St.held, List.count_append, List.count_cons]
          omega }
      have hu' : ({ s with nodes := url :: s.nodes } : St).refs url ≠ 0 := h1.held_ne (by simp [St.held])
      have h2 : Own f (use url { s with nodes := url :: s.nodes }).2 := { h1 with good := by show (s.bad || decide (s.refs url = 0)) = false; simp only [h.good, Bool.false_or, decide_eq_false_iff_not]; exact hu' }
      exact t_fails _ h2
    | some node =>
      have hmem := List.mem_of_getElem? hn
      have key : Tri (fun s => Own (f.own url) s ∧ s.nodes[k]? = some node) (do
          use node
          use url
          put url
          if ← askB then return (← askB)
          use node
          fails : M Bool) (fun _ => Own f) := by
        have hu1 : Tri (fun s => Own (f.own url) s ∧ s.nodes[k]? = some node) (use node) (fun _ s => Own (f.own url) s ∧ s.nodes[k]? = some node) := by
          rintro s ⟨h, hn⟩
          have := h.held_ne (i := node) (by simp [St.held, List.mem_of_getElem? hn])
          exact ⟨{ h with good := by show (s.bad || decide (s.refs node = 0)) = false; simp [h.good, this] }, hn⟩
        have hu2 : Tri (fun s => Own f s ∧ s.nodes[k]? = some node) (use node) (fun _ s => Own f s) := by
          rintro s ⟨h, hn⟩
          have := h.held_ne (i := node) (by simp [St.held, List.mem_of_getElem? hn])
          exact { h with good := by show (s.bad || decide (s.refs node = 0)) = false; simp [h.good, this] }
        refine Tri.bind hu1 fun _ => ?_
        refine Tri.bind (Q := fun _ s => Own (f.own url) s ∧ s.nodes[k]? = some node) (fun s h => ⟨t_use (.inl List.mem_cons_self) s h.1, h.2⟩) fun _ => ?_
        refine Tri.bind (Q := fun _ s => Own f s ∧ s.nodes[k]? = some node) (fun s h => ⟨t_put (f := f) hx s h.1, h.2⟩) fun _ => ?_
        refine Tri.bind (Q := fun _ s => Own f s ∧ s.nodes[k]? = some node) (fun s h => ⟨t_askB s h.1, h.2⟩) fun b => Tri.ite (fun _ => ?_) fun _ => ?_
        · exact Tri.weaken (Tri.bind t_askB fun _ => Tri.pure fun _ h => h) (fun _ h => h.1) (fun _ _ h => h)
        · exact Tri.bind hu2 fun _ => t_fails
      exact key s ⟨h, hn⟩

theorem t_notifLoop {f : Fr} [Fact f.S] : ∀ (k : Nat) (n : Notif), (∀ i ∈ n.snapshot.toList ++ n.deltas, i ∉ f.A) →
    Tri (Own (f.owns n.things)) (notifLoop k n) (fun r s => Own (f.owns r.1.things) s ∧ (r.1.uri = n.uri ∧ (∀ i ∈ r.1.snapshot.toList ++ r.1.deltas, i ∉ f.A) ∧ (r.2 = false → r.1.snapshot.isSome = true)))
  | 0, n, hn => by
    refine Tri.ite (fun h => ?_) fun h => ?_
    · exact Tri.bind t_log fun _ => Tri.pure fun _ h => ⟨h, rfl, hn, nofun⟩
    · refine Tri.bind t_fails fun e => Tri.pure fun _ hs => ⟨hs, rfl, hn, fun _ => ?_⟩
      cases h1 : n.snapshot with
      | none => rw [h1] at h; exact absurd rfl h
      | some _ => rfl
  | k + 1, n, hn => by
    refine Tri.bind t_ask fun c => ?_
    match c with
    | 0 => exact Tri.bind t_log fun _ => Tri.pure fun _ h => ⟨h, rfl, hn, nofun⟩
    | 1 =>
      refine Tri.bind t_useTls fun _ => ?_
      refine Tri.bind t_create fun r => ?_
      cases r with
      | none => exact Tri.pure fun _ h => ⟨h, rfl, hn, nofun⟩
      | some u =>
        refine Tri.pre fun hu => ?_
        refine Tri.bind t_fails fun e => Tri.ite (fun _ => ?_) fun _ => ?_
        · exact Tri.bind (t_put (f := f.owns n.things) fun h => absurd h hu) fun _ => Tri.pure fun _ h => ⟨h, rfl, hn, nofun⟩
        · refine Tri.weaken (t_notifLoop (f := f) k { n with deltas := n.deltas ++ [u] } ?_) (fun s h => h.perm fun i => ?_) (fun _ _ h => h)
          · intro i hi
            by_cases e : i = u
            · subst e; exact hu
            · refine hn i ?_
              simp only [List.mem_append, List.mem_singleton] at hi ⊢
              tauto
          · simp only [Notif.things, List.count_append, List.count_cons, List.count_nil]
            omega
    | 2 =>
      refine Tri.ite (fun h => Tri.bind t_log fun _ => Tri.pure fun _ h => ⟨h, rfl, hn, nofun⟩) fun h => ?_
      have h0 : n.snapshot = none := by cases h1 : n.snapshot <;> simp_all
      refine Tri.bind t_useTls fun _ => ?_
      refine Tri.bind t_create fun r => ?_
      cases r with
      | none => exact Tri.pure fun _ h => ⟨h, rfl, hn, nofun⟩
      | some u =>
        refine Tri.pre fun hu => ?_
        refine Tri.bind t_fails fun e => Tri.ite (fun _ => ?_) fun _ => ?_
        · exact Tri.bind (t_put (f := f.owns n.things) fun h => absurd h hu) fun _ => Tri.pure fun _ h => ⟨h, rfl, hn, nofun⟩
        · refine Tri.weaken (t_notifLoop (f := f) k { n with snapshot := some u } ?_) (fun s h => h.perm fun i => ?_) (fun _ _ h => h)
          · intro i hi
            by_cases e : i = u
            · subst e; exact hu
            · refine hn i ?_
              simp only [List.mem_append, Option.toList_some, List.mem_singleton] at hi ⊢
              tauto
          · simp only [Notif.things, List.count_append, List.count_cons, List.count_nil, h0, Option.toList_some, Option.toList_none]
            omega
    | c + 3 => exact t_notifLoop k n hn

theorem t_parseNotification {f : Fr} [Fact f.S] {u : Id} (hu : u ∈ f.L) : Tri (Own f) (parseNotification u) (fun r s => match r with
    | none => Own f s
    | some n => Own (f.owns n.things) s ∧ ((∀ i ∈ n.things, i ∈ f.A → i ∈ f.L) ∧ n.snapshot.isSome = true)) := by
  refine Tri.bind (t_get (.inl hu)) fun _ => ?_
  refine Tri.bind t_ask fun k => ?_
  refine Tri.bind (t_notifLoop (f := f) k ⟨u, none, []⟩ (fun i hi => by simp at hi)) fun r => Tri.pre fun hr => ?_
  obtain ⟨n, e⟩ := r
  obtain ⟨h1, h2, h3⟩ := hr
  have hA : ∀ i ∈ n.things, i ∈ f.A → i ∈ f.L := by
    intro i hi hA
    rcases List.mem_append.1 hi with hi | hi
    · exact absurd hA (h2 i hi)
    · rw [List.mem_singleton.1 hi, show n.uri = u from h1]; exact hu
  refine Tri.ite (fun _ => ?_) fun he => ?_
  · exact Tri.bind (t_putAll n.things hA) fun _ => Tri.pure fun _ h => h
  · exact Tri.pure fun _ h => ⟨h, hA, h3 (by simpa using he)⟩

theorem t_publishLoop {f : Fr} {u : Id} (hu : u ∈ f.L) : ∀ (n : Nat), Tri (Own f) (publishLoop u n) (fun _ => Own f)
  | 0 => Tri.pure fun _ h => h
  | n + 1 => by
    refine Tri.bind (t_use (.inl hu)) fun _ => ?_
    refine Tri.bind t_create fun r => ?_
    cases r with
    | none => exact Tri.pure fun _ h => h
    | some x =>
      refine Tri.pre fun hx => ?_
      refine Tri.bind (t_use (.inl List.mem_cons_self)) fun _ => ?_
      refine Tri.bind t_fails fun e => ?_
      refine Tri.bind (t_put (f := f) fun h => absurd h hx) fun _ => ?_
      exact Tri.ite (fun _ => Tri.pure fun _ h => h) fun _ => t_publishLoop hu n

/-- Something is done while `u`, which is owned, is in the stack of names. -/
theorem t_named {f : Fr} {u : Id} {α : Type} {m : M α} {Q : α → St → Prop} (hu : u ∈ f.L) (hm : Tri (Own { f with A := u :: f.A, N := u :: f.N }) m Q) : Tri (Own f) (do pushName u; m) Q := by
  refine Tri.named fun hN => ?_
  refine Tri.bind (Tri.weaken (t_pushName (f := { f with A := u :: f.A }) List.mem_cons_self) (fun s h => h.less (fun v hv => ?_) fun v hv => List.mem_cons_of_mem _ (hN v hv)) (fun _ _ h => h)) fun _ => hm
  rcases List.mem_cons.1 hv with rfl | hv
  · exact .inr hu
  · exact .inl hv

/-- Until it's removed. -/
theorem t_unname {f : Fr} {u : Id} {α : Type} {a : α} (hN : ∀ v ∈ f.N, v ∈ f.A) : Tri (Own { f with A := u :: f.A, N := u :: f.N }) (do popName; return a) (fun _ => Own f) :=
  Tri.bind (t_popName (f := { f with A := u :: f.A })) fun _ => Tri.pure fun _ h => h.less (fun v hv => .inl (List.mem_cons_of_mem _ hv)) hN

theorem t_handleFile {f : Fr} [Fact f.S] {notif u : Id} (hn : notif ∈ f.L) (hu : u ∈ f.L) : Tri (Own f) (handleFile notif u) (fun _ => Own f) := by
  refine Tri.named fun hN => ?_
  refine Tri.bind t_useTls fun _ => Tri.bind (t_use (.inl hn)) fun _ => Tri.bind (t_use (.inl hu)) fun _ => t_named hu ?_
  refine Tri.bind (t_cacheDownload (f := { f with A := u :: f.A, N := u :: f.N }) hu) fun e => ?_
  refine Tri.ite (fun _ => t_unname hN) fun _ => ?_
  refine Tri.bind (t_use (.inl hu)) fun _ => ?_
  refine Tri.bind t_ask fun k => ?_
  refine Tri.bind (t_publishLoop (f := { f with A := u :: f.A, N := u :: f.N }) hn k) fun e => ?_
  exact Tri.bind (t_use (.inl hu)) fun _ => t_unname hN

theorem t_handleSnapshot {f : Fr} [Fact f.S] {n : Notif} (hn : ∀ i ∈ n.things, i ∈ f.L) (hs : n.snapshot.isSome = true) : Tri (Own f) (handleSnapshot n) (fun _ => Own f) := by
  unfold handleSnapshot
  cases h : n.snapshot with
  | none => rw [h] at hs; cases hs
  | some u => exact t_handleFile (hn _ (by simp [Notif.things])) (hn _ (by simp [Notif.things, h]))

theorem t_handleDeltas {f : Fr} [Fact f.S] {n : Notif} (hn : ∀ i ∈ n.things, i ∈ f.L) : ∀ (l : List Id), (∀ i ∈ l, i ∈ n.deltas) → Tri (Own f) (handleDeltas n l) (fun _ => Own f)
  | [], _ => Tri.pure fun _ h => h
  | u :: l, hl => by
    refine Tri.bind (t_handleFile (hn _ (by simp [Notif.things])) (hn u (by simp [Notif.things, hl u List.mem_cons_self]))) fun e => ?_
    exact Tri.ite (fun _ => Tri.pure fun _ h => h) fun _ => t_handleDeltas hn l fun i hi => hl i (List.mem_cons_of_mem _ hi)

theorem t_rrdpUpdate {f : Fr} [Fact f.S] {u : Id} (hu : u ∈ f.L) : Tri (Own f) (rrdpUpdate u) (fun _ => Own f) := by
  refine Tri.named fun hN => t_named hu ?_
  let g : Fr := { f with A := u :: f.A, N := u :: f.N }
  refine Tri.bind (t_use (f := g) (.inl hu)) fun _ => ?_
  have hj : ∀ e : Bool, Tri (Own g) (do
      if e then
        popName
        return true
      useTls
      if ← cacheDownload u then
        popName
        return true
      if ← askB then
        popName
        return false
      match ← parseNotification u with
      | none =>
        popName
        return true
      | some n =>
        let e ← match ← ask with
          | 0 => handleSnapshot n
          | 1 => do
            if ← handleDeltas n (n.deltas.drop (← ask)) then handleSnapshot n else pure false
          | _ => pure false
        putAll n.things
        popName
        return e : M Bool) (fun _ => Own f) := by
    intro e
    refine Tri.ite (fun _ => t_unname hN) fun _ => ?_
    refine Tri.bind (t_useTls (f := g)) fun _ => ?_
    refine Tri.bind (t_cacheDownload (f := g) hu) fun e => Tri.ite (fun _ => t_unname hN) fun _ => ?_
    refine Tri.bind t_askB fun e => Tri.ite (fun _ => t_unname hN) fun _ => ?_
    refine Tri.bind (t_parseNotification (f := g) hu) fun r => ?_
    cases r with
    | none => exact t_unname hN
    | some n =>
      refine Tri.pre fun hn => ?_
      have hown : ∀ i ∈ n.things, i ∈ (g.owns n.things).L := fun i hi => List.mem_append_left _ hi
      have hjj : ∀ e : Bool, Tri (Own (g.owns n.things)) (do putAll n.things; popName; return e) (fun _ => Own f) := fun e =>
        Tri.bind (t_putAll (f := g) n.things hn.1) fun _ => t_unname hN
      refine Tri.bind t_ask fun k => ?_
      match k with
      | 0 => exact Tri.bind (t_handleSnapshot hown hn.2) hjj
      | 1 =>
        refine Tri.bind t_ask fun d => ?_
        refine Tri.bind (t_handleDeltas hown _ fun i hi => List.mem_of_mem_drop hi) fun e => ?_
        exact Tri.ite (fun _ => Tri.bind (t_handleSnapshot hown hn.2) hjj) fun _ => hjj false
      | k + 2 => exact hjj false
  refine Tri.bind t_askB fun b => Tri.ite (fun _ => hj false) fun _ => ?_
  refine Tri.bind (t_parseNotification (f := g) hu) fun r => ?_
  cases r with
  | none => exact hj true
  | some n =>
    refine Tri.pre fun hn => ?_
    exact Tri.bind (t_putAll (f := g) n.things hn.1) fun _ => hj false

theorem t_download {f : Fr} [Fact f.S] {b : Bool} {u : Id} (hu : u ∈ f.L) : Tri (Own f) (download b u) (fun _ => Own f) := by
  refine Tri.bind (t_use (.inl hu)) fun _ => ?_
  cases b with
  | false => exact Tri.bind t_askB fun _ => t_cacheDownload hu
  | true => exact Tri.bind t_askB fun c => Tri.ite (fun _ => t_rrdpUpdate hu) fun _ => t_cacheDownload hu

/-- Without RRDP, no state is needed. -/
theorem t_downloadTal {f : Fr} {u : Id} (hu : u ∈ f.L) : Tri (Own f) (download false u) (fun _ => Own f) :=
  Tri.bind (t_use (.inl hu)) fun _ => Tri.bind t_askB fun _ => t_cacheDownload hu

theorem t_downloadLoop {f : Fr} [Fact f.S] : ∀ (l : List Id), (∀ i ∈ l, i ∈ f.L) → Tri (Own f) (downloadLoop l) (fun r s => Own f s ∧ ∀ i ∈ r.toList, i ∈ l)
  | [], _ => Tri.pure fun _ h => ⟨h, fun i hi => by simp at hi⟩
  | u :: l, hl => by
    have ih := t_downloadLoop l fun i hi => hl i (List.mem_cons_of_mem _ hi)
    have ih' : Tri (Own f) (downloadLoop l) (fun r s => Own f s ∧ ∀ i ∈ r.toList, i ∈ u :: l) := ih.weaken (fun _ h => h) fun _ _ h => ⟨h.1, fun i hi => List.mem_cons_of_mem _ (h.2 i hi)⟩
    refine Tri.bind t_askB fun _ => Tri.ite (fun _ => ih') fun _ => ?_
    refine Tri.bind (t_download (hl u List.mem_cons_self)) fun _ => Tri.ite (fun _ => ih') fun _ => ?_
    exact Tri.pure fun _ h => ⟨h, fun i hi => by simp at hi; subst hi; exact List.mem_cons_self⟩

theorem t_recoverLoop {f : Fr} {S : List Id} (hS : ∀ i ∈ S, i ∈ f.L) : ∀ (l : List Id) (best : Option Id), (∀ i ∈ l, i ∈ S) → (∀ i ∈ best.toList, i ∈ S) → Tri (Own f) (recoverLoop l best) (fun r s => Own f s ∧ ∀ i ∈ r.toList, i ∈ S)
  | [], best, _, hb => Tri.pure fun _ h => ⟨h, hb⟩
  | u :: l, best, hl, hb => by
    have hl' : ∀ i ∈ l, i ∈ S := fun i hi => hl i (List.mem_cons_of_mem _ hi)
    refine Tri.bind (t_getUrl (hS u (hl u List.mem_cons_self))) fun r => ?_
    cases r with
    | none => exact t_recoverLoop hS l best hl' hb
    | some url =>
      refine Tri.pre fun hx => ?_
      refine Tri.bind (t_use (.inl List.mem_cons_self)) fun _ => ?_
      refine Tri.bind (t_put (f := f) hx) fun _ => ?_
      refine Tri.bind t_askB fun _ => Tri.ite (fun _ => t_recoverLoop hS l (some u) hl' fun i hi => ?_) fun _ => t_recoverLoop hS l best hl' hb
      simp only [Option.toList_some, List.mem_singleton] at hi
      subst hi
      exact hl _ List.mem_cons_self

theorem t_downloadRpp {f : Fr} [Fact f.S] (l : List Id) (hl : ∀ i ∈ l, i ∈ f.L) : Tri (Own f) (downloadRpp l) (fun r s => Own f s ∧ ∀ i ∈ r.toList, i ∈ l) := by
  refine Tri.ite (fun _ => Tri.bind t_log fun _ => Tri.pure fun _ h => ⟨h, fun i hi => by simp at hi⟩) fun _ => ?_
  refine Tri.bind t_useTls fun _ => ?_
  refine Tri.bind (t_downloadLoop l hl) fun r => Tri.pre fun hr => ?_
  cases r with
  | some u => exact Tri.pure fun _ h => ⟨h, hr⟩
  | none =>
    refine Tri.bind (t_downloadLoop l hl) fun r => Tri.pre fun hr => ?_
    cases r with
    | some u => exact Tri.pure fun _ h => ⟨h, hr⟩
    | none => exact t_recoverLoop hl l none (fun _ h => h) fun i hi => by simp at hi

end Verif.Mem
