import Verif.Mem.Model
import Mathlib.Data.List.Basic
import Mathlib.Logic.Basic
/-
The invariant: references are owned by somebody. Triples for the primitives.
-/
namespace Verif.Mem

/-- A Hoare triple. -/
def Tri {α : Type} (P : St → Prop) (m : M α) (Q : α → St → Prop) : Prop := ∀ s, P s → Q (m s).1 (m s).2

theorem Tri.bind {α β : Type} {P : St → Prop} {m : M α} {k : α → M β} {Q : α → St → Prop} {R : β → St → Prop} (h : Tri P m Q) (hk : ∀ a, Tri (Q a) (k a) R) : Tri P (m >>= k) R :=
  fun s hs => hk _ _ (h s hs)

theorem Tri.pure {α : Type} {P : St → Prop} {a : α} {Q : α → St → Prop} (h : ∀ s, P s → Q a s) : Tri P (Pure.pure a : M α) Q := fun s hs => h s hs

theorem Tri.weaken {α : Type} {P P' : St → Prop} {m : M α} {Q Q' : α → St → Prop} (h : Tri P m Q) (hp : ∀ s, P' s → P s) (hq : ∀ a s, Q a s → Q' a s) : Tri P' m Q' :=
  fun s hs => hq _ _ (h s (hp s hs))

/-- The precondition implies something pure. -/
theorem Tri.pre {α : Type} {P : St → Prop} {p : Prop} {m : M α} {Q : α → St → Prop} (h : p → Tri P m Q) : Tri (fun s => P s ∧ p) m Q := fun s hs => h hs.2 s hs.1

theorem Tri.ite {α : Type} {P : St → Prop} {c : Prop} [Decidable c] {a b : M α} {Q : α → St → Prop} (ha : c → Tri P a Q) (hb : ¬ c → Tri P b Q) : Tri P (if c then a else b) Q := by
  by_cases h : c
  · rw [if_pos h]; exact ha h
  · rw [if_neg h]; exact hb h

theorem Tri.get {α : Type} {P : St → Prop} {k : St → M α} {Q : α → St → Prop} (h : ∀ s, Tri (fun s' => P s' ∧ s' = s) (k s) Q) : Tri P (MonadState.get >>= k) Q :=
  fun s hs => h s s ⟨hs, rfl⟩

def deferUris (D : List (Option (Id × Nat))) : List Id := D.flatMap fun d => d.toList.map Prod.fst
def deferRpps (D : List (Option (Id × Nat))) : List Nat := D.flatMap fun d => d.toList.map Prod.snd

/-- What the thread's structures own. -/
def St.held (s : St) : List Id := deferUris s.defers ++ s.metas.flatMap Meta.things ++ s.x509s ++ s.rpps.flatMap Rpp.things ++ s.nodes ++ s.state.toList

def St.rrefs (s : St) (p : Nat) : Nat := s.rpps[p]?.elim 0 Rpp.refs

/-- What the functions that are active know. -/
structure Fr where
  /-- the references they own -/
  L : List Id
  /-- to publication points -/
  G : List Nat
  /-- the stack of names -/
  N : List Id
  /-- what's alive -/
  A : List Id
  /-- publication points that have a CRL -/
  C : List Nat
  /-- the deferred certificates -/
  D : List (Option (Id × Nat))
  /-- the stacks correspond -/
  B : Prop
  /-- there is a state -/
  S : Prop

def HasCrl (s : St) (p : Nat) : Prop := ∃ r, s.rpps[p]? = some r ∧ r.crl.isSome = true

structure Own (f : Fr) (s : St) : Prop where
  good : s.bad = false
  bal : ∀ i, s.refs i = s.held.count i + f.L.count i
  rbal : ∀ p, s.rrefs p = (deferRpps s.defers).count p + f.G.count p
  dead : ∀ (p : Nat) r, s.rpps[p]? = some r → r.refs = 0 → r.things = []
  fresh : ∀ i, s.next ≤ i → s.refs i = 0
  names : s.names = f.N
  alive : ∀ u ∈ f.A, s.refs u ≠ 0
  named : ∀ u ∈ f.N, u ∈ f.A
  crls : ∀ p ∈ f.C, HasCrl s p
  crlsD : ∀ p ∈ deferRpps s.defers, HasCrl s p
  defers : s.defers = f.D
  shape : f.B → s.metas.length = s.x509s.length ∧ s.defers.count none = s.metas.length
  state : f.S → s.tls = s.state ∧ s.state.isSome = true
  nostate : ¬ f.S → s.state = none

theorem count_ne_zero {l : List Id} {i : Id} (h : i ∈ l) : l.count i ≠ 0 := by
  have := List.count_pos_iff.2 h
  omega

theorem Own.refs_ne {f : Fr} {s : St} (h : Own f s) {i : Id} (hi : i ∈ f.L ∨ i ∈ f.A) : s.refs i ≠ 0 := by
  rcases hi with hi | hi
  · have := count_ne_zero hi
    have := h.bal i
    omega
  · exact h.alive i hi

theorem Own.held_ne {f : Fr} {s : St} (h : Own f s) {i : Id} (hi : i ∈ s.held) : s.refs i ≠ 0 := by
  have := count_ne_zero hi
  have := h.bal i
  omega

/-- The same, but for what is known, and the order. -/
theorem Own.weaken {f g : Fr} {s : St} (h : Own f s) (hL : ∀ i, f.L.count i = g.L.count i) (hG : ∀ i, f.G.count i = g.G.count i) (hN : f.N = g.N) (hA : ∀ u ∈ g.A, u ∈ f.A ∨ u ∈ f.L)
    (hNA : ∀ u ∈ g.N, u ∈ g.A) (hC : ∀ p ∈ g.C, p ∈ f.C) (hD : f.D = g.D) (hB : g.B → f.B) (hS : g.S ↔ f.S := by exact Iff.rfl) : Own g s where
  good := h.good
  bal i := by rw [h.bal, hL]
  rbal i := by rw [h.rbal, hG]
  dead := h.dead
  fresh := h.fresh
  names := h.names.trans hN
  alive u hu := h.refs_ne (hA u hu).symm
  named := hNA
  crls p hp := h.crls p (hC p hp)
  crlsD := h.crlsD
  defers := h.defers.trans hD
  shape hb := h.shape (hB hb)
  state hs := h.state (hS.1 hs)
  nostate hs := h.nostate fun h => hs (hS.2 h)

/-! ### Primitives -/

theorem t_ask {f : Fr} : Tri (Own f) ask (fun _ => Own f) := fun _ h => { h with }

theorem t_askB {f : Fr} : Tri (Own f) askB (fun _ => Own f) := Tri.bind t_ask fun _ => Tri.pure fun _ h => h

theorem t_use {f : Fr} {i : Id} (hi : i ∈ f.L ∨ i ∈ f.A) : Tri (Own f) (use i) (fun _ => Own f) := fun s h => { h with
  good := by
    show (s.bad || decide (s.refs i = 0)) = false
    simp [h.good, h.refs_ne hi] }

theorem t_useTls {f : Fr} [hS : Fact f.S] : Tri (Own f) useTls (fun _ => Own f) := by
  intro s h
  obtain ⟨h1, h2⟩ := h.state hS.out
  cases ht : s.state with
  | none => rw [ht] at h2; cases h2
  | some t =>
    have h3 := h.held_ne (i := t) (by simp [St.held, ht])
    have e : useTls s = use t s := by unfold useTls; rw [h1, ht]; rfl
    rw [e]
    exact { h with good := by show (s.bad || decide (s.refs t = 0)) = false; simp [h.good, h3] }

theorem t_useAll {f : Fr} : ∀ (l : List Id), (∀ i ∈ l, i ∈ f.L ∨ i ∈ f.A) → Tri (Own f) (useAll l) (fun _ => Own f)
  | [], _ => Tri.pure fun _ h => h
  | _ :: l, hl => Tri.bind (t_use (hl _ List.mem_cons_self)) fun _ => t_useAll l fun i hi => hl i (List.mem_cons_of_mem _ hi)

theorem t_log {f : Fr} : Tri (Own f) log (fun _ => Own f) := by
  intro s h
  unfold log
  cases hn : s.names with
  | nil => exact h
  | cons n l => exact t_use (.inr (h.named n (by rw [← h.names, hn]; exact List.mem_cons_self))) s h

theorem t_fails {f : Fr} : Tri (Own f) fails (fun _ => Own f) := by
  refine Tri.bind t_askB fun b => ?_
  exact Tri.ite (fun _ => Tri.bind t_log fun _ => Tri.pure fun _ h => h) (fun _ => Tri.pure fun _ h => h)

/-- One more reference. -/
abbrev Fr.own (f : Fr) (i : Id) : Fr := { f with L := i :: f.L }

/-- More references. -/
abbrev Fr.owns (f : Fr) (l : List Id) : Fr := { f with L := l ++ f.L }

theorem t_new {f : Fr} : Tri (Own f) new (fun x s => Own (f.own x) s ∧ x ∉ f.A) := by
  intro s h
  have h0 : s.refs s.next = 0 := h.fresh _ (Nat.le_refl _)
  refine ⟨{ h with bal := ?_, fresh := ?_, alive := ?_ }, fun hA => h.alive _ hA h0⟩
  · intro i
    show (if i = s.next then 1 else s.refs i) = s.held.count i + (s.next :: f.L).count i
    have := h.bal i
    rw [List.count_cons]
    by_cases hi : i = s.next
    · subst hi; simp; omega
    · have : ¬ s.next = i := fun e => hi e.symm
      simp [hi, this, h.bal i]
  · intro i hi
    show (if i = s.next then 1 else s.refs i) = 0
    have hi : Nat.lt s.next i := hi
    rw [if_neg (fun e => Nat.lt_irrefl _ (e ▸ hi))]
    exact h.fresh i (Nat.le_of_lt hi)
  · intro u hu
    show (if u = s.next then 1 else s.refs u) ≠ 0
    by_cases e : u = s.next
    · simp [e]
    · rw [if_neg e]; exact h.alive u hu

theorem t_create {f : Fr} : Tri (Own f) create (fun r s => match r with | none => Own f s | some x => Own (f.own x) s ∧ x ∉ f.A) := by
  refine Tri.bind t_fails fun b => ?_
  refine Tri.ite (fun _ => Tri.pure fun _ h => h) fun _ => ?_
  exact Tri.bind t_new fun x => Tri.pure fun _ h => h

theorem t_get {f : Fr} {i : Id} (hi : i ∈ f.L ∨ i ∈ f.A) : Tri (Own f) (get i) (fun _ => Own (f.own i)) := by
  intro s h
  have h0 := h.refs_ne hi
  refine { h with good := ?_, bal := ?_, fresh := ?_, alive := ?_ }
  · show (s.bad || decide (s.refs i = 0)) = false
    simp [h.good, h0]
  · intro j
    show (if j = i then s.refs i + 1 else s.refs j) = s.held.count j + (i :: f.L).count j
    rw [List.count_cons]
    by_cases hj : j = i
    · subst hj; simp [h.bal j]; omega
    · have : ¬ i = j := fun e => hj e.symm
      simp [hj, this, h.bal j]
  · intro j hj
    show (if j = i then s.refs i + 1 else s.refs j) = 0
    have hf := h.fresh j hj
    rw [if_neg (by rintro rfl; exact h0 hf)]
    exact hf
  · intro u hu
    show (if u = i then s.refs i + 1 else s.refs u) ≠ 0
    by_cases e : u = i
    · simp [e]
    · rw [if_neg e]; exact h.alive u hu

theorem t_put {f : Fr} {i : Id} (hi : i ∈ f.A → i ∈ f.L) : Tri (Own (f.own i)) (put i) (fun _ => Own f) := by
  intro s h
  have h0 : s.refs i ≠ 0 := h.refs_ne (.inl List.mem_cons_self)
  have hb : s.refs i = s.held.count i + (i :: f.L).count i := h.bal i
  rw [List.count_cons_self] at hb
  refine { h with good := ?_, bal := ?_, fresh := ?_, alive := ?_ }
  · show (s.bad || decide (s.refs i = 0)) = false
    simp [h.good, h0]
  · intro j
    show (if j = i then s.refs i - 1 else s.refs j) = s.held.count j + f.L.count j
    by_cases hj : j = i
    · subst hj; simp; omega
    · have h1 := h.bal j
      rw [show (f.own i).L = i :: f.L from rfl, List.count_cons] at h1
      have : ¬ i = j := fun e => hj e.symm
      simpa [hj, this] using h1
  · intro j hj
    show (if j = i then s.refs i - 1 else s.refs j) = 0
    have hf := h.fresh j hj
    rw [if_neg (by rintro rfl; exact h0 hf)]
    exact hf
  · intro u hu
    show (if u = i then s.refs i - 1 else s.refs u) ≠ 0
    by_cases e : u = i
    · subst e
      have := count_ne_zero (hi hu)
      simp; omega
    · rw [if_neg e]; exact h.alive u hu

theorem t_putAll {f : Fr} : ∀ (l : List Id), (∀ i ∈ l, i ∈ f.A → i ∈ f.L) → Tri (Own (f.owns l)) (putAll l) (fun _ => Own f)
  | [], _ => Tri.pure fun _ h => h
  | i :: l, hl => by
    refine Tri.bind (t_put (f := f.owns l) (i := i) fun hA => ?_) fun _ => t_putAll l fun j hj => hl j (List.mem_cons_of_mem _ hj)
    exact List.mem_append_right _ (hl i List.mem_cons_self hA)

theorem t_pushName {f : Fr} {i : Id} (hi : i ∈ f.A) : Tri (Own f) (pushName i) (fun _ => Own { f with N := i :: f.N }) := fun s h => { h with
  good := by
    show (s.bad || decide (s.refs i = 0)) = false
    simp [h.good, h.alive i hi]
  names := by
    show i :: s.names = _
    rw [h.names]
  named := fun u hu => by
    rcases List.mem_cons.1 hu with rfl | hu
    · exact hi
    · exact h.named u hu }

theorem t_popName {f : Fr} {i : Id} : Tri (Own { f with N := i :: f.N }) popName (fun _ => Own f) := fun s h => { h with
  names := by
    show s.names.tail = _
    rw [h.names]; rfl
  named := fun u hu => h.named u (List.mem_cons_of_mem _ hu) }

end Verif.Mem
