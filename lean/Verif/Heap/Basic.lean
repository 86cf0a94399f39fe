import Mathlib.Data.List.Basic
import Mathlib.Logic.Basic
/-
A heap, and what happens (an oracle); triples about who owns what. For the models of Verif/Upd and Verif/Conn.
-/
namespace Verif.Heap

abbrev Id := Nat

/-- The heap. `refs i` is 1 if `i` is allocated. -/
structure H where
  refs : Id → Nat
  next : Id
  /-- something that isn't allocated was used or released, or a NULL pointer was used -/
  bad : Bool
  /-- what nobody has a pointer to any more. A record for the theorems: nothing depends on it -/
  lost : List Id
  orc : Nat → Nat
  pos : Nat

abbrev HM := StateM H

def H.init (orc : Nat → Nat) : H := ⟨fun _ => 0, 0, false, [], orc, 0⟩

/-- What happens next. -/
def ask : HM Nat := fun s => (s.orc s.pos, { s with pos := s.pos + 1 })
def askB : HM Bool := do return (← ask) ≠ 0
def crash : HM Unit := fun s => ((), { s with bad := true })
/-- src/alloc.c:5-15 `pmalloc` and the like. Allocations don't fail. -/
def new : HM Id := fun s => (s.next, { s with refs := fun j => if j = s.next then 1 else s.refs j, next := s.next + 1 })
def use (i : Id) : HM Unit := fun s => ((), { s with bad := s.bad || s.refs i = 0 })
/-- `free`. -/
def free (i : Id) : HM Unit := fun s => ((), { s with bad := s.bad || s.refs i = 0, refs := fun j => if j = i then s.refs i - 1 else s.refs j })
/-- The last pointer to `i` goes out of scope. The program does nothing. -/
def lose (i : Id) : HM Unit := fun s => ((), { s with lost := i :: s.lost })
def freeAll : List Id → HM Unit
  | [] => pure ()
  | i :: l => do free i; freeAll l
def useAll : List Id → HM Unit
  | [] => pure ()
  | i :: l => do use i; useAll l
/-- Something that is created, or this fails. -/
def create : HM (Option Id) := do
  if ← askB then return none
  return some (← new)

/-! ### Triples -/

def Tri {α : Type} (P : H → Prop) (m : HM α) (Q : α → H → Prop) : Prop := ∀ s, P s → Q (m s).1 (m s).2

theorem Tri.bind {α β : Type} {P : H → Prop} {m : HM α} {k : α → HM β} {Q : α → H → Prop} {R : β → H → Prop} (h : Tri P m Q) (hk : ∀ a, Tri (Q a) (k a) R) : Tri P (m >>= k) R :=
  fun s hs => hk _ _ (h s hs)
theorem Tri.pure {α : Type} {P : H → Prop} {a : α} {Q : α → H → Prop} (h : ∀ s, P s → Q a s) : Tri P (Pure.pure a : HM α) Q := fun s hs => h s hs
theorem Tri.weaken {α : Type} {P P' : H → Prop} {m : HM α} {Q Q' : α → H → Prop} (h : Tri P m Q) (hp : ∀ s, P' s → P s) (hq : ∀ a s, Q a s → Q' a s) : Tri P' m Q' :=
  fun s hs => hq _ _ (h s (hp s hs))
theorem Tri.pre {α : Type} {P : H → Prop} {p : Prop} {m : HM α} {Q : α → H → Prop} (h : p → Tri P m Q) : Tri (fun s => P s ∧ p) m Q := fun s hs => h hs.2 s hs.1
theorem Tri.ite {α : Type} {P : H → Prop} {c : Prop} [Decidable c] {a b : HM α} {Q : α → H → Prop} (ha : c → Tri P a Q) (hb : ¬ c → Tri P b Q) : Tri P (if c then a else b) Q := by
  by_cases h : c
  · rw [if_pos h]; exact ha h
  · rw [if_neg h]; exact hb h

/-- What's allocated is what is owned (`L`), and what is lost. -/
structure Own (L : List Id) (s : H) : Prop where
  good : s.bad = false
  bal : ∀ i, s.refs i = L.count i + s.lost.count i
  fresh : ∀ i, s.next ≤ i → s.refs i = 0

theorem own_init (orc : Nat → Nat) : Own [] (H.init orc) := ⟨rfl, fun _ => rfl, fun _ _ => rfl⟩

theorem count_ne_zero {l : List Id} {i : Id} (h : i ∈ l) : l.count i ≠ 0 := by
  have := List.count_pos_iff.2 h
  omega

theorem Own.ne {L : List Id} {s : H} (h : Own L s) {i : Id} (hi : i ∈ L) : s.refs i ≠ 0 := by
  have := count_ne_zero hi
  have := h.bal i
  omega

theorem Own.perm {L L' : List Id} {s : H} (h : Own L s) (hL : ∀ i, L.count i = L'.count i) : Own L' s := { h with bal := fun i => by rw [h.bal, hL] }

theorem Tri.perm {α : Type} {L L' : List Id} {m : HM α} {Q : α → H → Prop} (h : Tri (Own L) m Q) (hL : ∀ i, L'.count i = L.count i) : Tri (Own L') m Q := fun s hs => h s (hs.perm hL)

theorem t_ask {L : List Id} : Tri (Own L) ask (fun _ => Own L) := fun _ h => { h with }
theorem t_askB {L : List Id} : Tri (Own L) askB (fun _ => Own L) := Tri.bind t_ask fun _ => Tri.pure fun _ h => h

theorem t_use {L : List Id} {i : Id} (hi : i ∈ L) : Tri (Own L) (use i) (fun _ => Own L) := fun s h => { h with
  good := by
    show (s.bad || decide (s.refs i = 0)) = false
    simp [h.good, h.ne hi] }

theorem t_useAll {L : List Id} : ∀ (l : List Id), (∀ i ∈ l, i ∈ L) → Tri (Own L) (useAll l) (fun _ => Own L)
  | [], _ => Tri.pure fun _ h => h
  | _ :: l, hl => Tri.bind (t_use (hl _ List.mem_cons_self)) fun _ => t_useAll l fun i hi => hl i (List.mem_cons_of_mem _ hi)

theorem t_new {L : List Id} : Tri (Own L) new (fun x => Own (x :: L)) := by
  intro s h
  have h0 : s.refs s.next = 0 := h.fresh _ (Nat.le_refl _)
  refine { h with bal := ?_, fresh := ?_ }
  · intro i
    show (if i = s.next then 1 else s.refs i) = (s.next :: L).count i + s.lost.count i
    have := h.bal i
    rw [List.count_cons]
    by_cases hi : i = s.next
    · subst hi; simp; omega
    · have : ¬ s.next = i := fun e => hi e.symm
      simp [hi, this, h.bal i]
  · intro i hi
    show (if i = s.next then 1 else s.refs i) = 0
    have hi : Nat.lt s.next i := hi
    rw [if_neg (fun e => Nat.lt_irrefl _ (e ▸ hi))]
    exact h.fresh i (Nat.le_of_lt hi)

theorem t_create {L : List Id} : Tri (Own L) create (fun r => Own (r.toList ++ L)) := by
  refine Tri.bind t_askB fun b => Tri.ite (fun _ => Tri.pure fun _ h => h) fun _ => Tri.bind t_new fun x => Tri.pure fun _ h => h

theorem t_free {L : List Id} {i : Id} : Tri (Own (i :: L)) (free i) (fun _ => Own L) := by
  intro s h
  have h0 : s.refs i ≠ 0 := h.ne List.mem_cons_self
  have hb := h.bal i
  rw [List.count_cons_self] at hb
  refine { h with good := ?_, bal := ?_, fresh := ?_ }
  · show (s.bad || decide (s.refs i = 0)) = false
    simp [h.good, h0]
  · intro j
    show (if j = i then s.refs i - 1 else s.refs j) = L.count j + s.lost.count j
    by_cases hj : j = i
    · subst hj; simp; omega
    · have h1 := h.bal j
      rw [List.count_cons] at h1
      have : ¬ i = j := fun e => hj e.symm
      simpa [hj, this] using h1
  · intro j hj
    show (if j = i then s.refs i - 1 else s.refs j) = 0
    have hf := h.fresh j hj
    rw [if_neg (by rintro rfl; exact h0 hf)]
    exact hf

theorem t_lose {L : List Id} {i : Id} : Tri (Own (i :: L)) (lose i) (fun _ => Own L) := fun s h => { h with
  bal := fun j => by
    show s.refs j = L.count j + (i :: s.lost).count j
    rw [h.bal, List.count_cons, List.count_cons]; omega }

theorem t_freeAll {L : List Id} : ∀ (l : List Id), Tri (Own (l ++ L)) (freeAll l) (fun _ => Own L)
  | [] => Tri.pure fun _ h => h
  | _ :: l => Tri.bind t_free fun _ => t_freeAll l

end Verif.Heap
