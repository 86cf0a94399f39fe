/-
Helper lemmas about tables, deltas and the strict router.
-/
import Mathlib.Data.Finset.Basic
import Mathlib.Data.Finset.Dedup
import Mathlib.Data.List.Nodup
import Mathlib.Data.List.Basic
import Verif.Rtr.Spec

namespace Verif.Rtr

section hash
variable {α : Type} [DecidableEq α]

theorem hashReplace_nodup {l : List α} (h : l.Nodup) (x : α) : (hashReplace l x).Nodup := by
  unfold hashReplace
  rw [List.nodup_append]
  refine ⟨h.erase x, List.nodup_singleton x, ?_⟩
  intro a ha b hb
  simp only [List.mem_singleton] at hb
  subst hb
  rintro rfl
  exact (h.not_mem_erase) ha

theorem mem_hashReplace {l : List α} {x y : α} : y ∈ hashReplace l x ↔ y = x ∨ y ∈ l := by
  unfold hashReplace
  by_cases hxy : y = x
  · simp [hxy]
  · simp [hxy, List.mem_erase_of_ne hxy]

theorem foldl_hashReplace_nodup (xs : List α) {l : List α} (h : l.Nodup) :
    (xs.foldl hashReplace l).Nodup := by
  induction xs generalizing l with
  | nil => exact h
  | cons x xs ih => exact ih (hashReplace_nodup h x)

theorem mem_foldl_hashReplace (xs : List α) {l : List α} {y : α} :
    y ∈ xs.foldl hashReplace l ↔ y ∈ l ∨ y ∈ xs := by
  induction xs generalizing l with
  | nil => simp
  | cons x xs ih =>
    simp only [List.foldl_cons, ih, mem_hashReplace, List.mem_cons]
    tauto

end hash

theorem foldl_addRoa (xs : List Vrp) (t : Table) :
    xs.foldl Table.addRoa t = { t with roas := xs.foldl hashReplace t.roas } := by
  induction xs generalizing t with
  | nil => rfl
  | cons x xs ih => simp [ih, Table.addRoa]

theorem foldl_addKey (xs : List RouterKey) (t : Table) :
    xs.foldl Table.addKey t = { t with keys := xs.foldl hashReplace t.keys } := by
  induction xs generalizing t with
  | nil => rfl
  | cons x xs ih => simp [ih, Table.addKey]

theorem join_eq (d s : Table) :
    d.join s = ⟨s.roas.foldl hashReplace d.roas, s.keys.foldl hashReplace d.keys⟩ := by
  simp [Table.join, foldl_addRoa, foldl_addKey]

/-! ### Well-formedness is preserved -/

theorem WF.create : Table.create.WF := ⟨List.nodup_nil, List.nodup_nil, by simp [Table.create]⟩

theorem WF.addRoa {t : Table} (h : t.WF) {v : Vrp} (hv : v.WF) : (t.addRoa v).WF :=
  ⟨hashReplace_nodup h.roasNodup v, h.keysNodup, by
    intro w hw
    rcases mem_hashReplace.1 hw with rfl | hw
    · exact hv
    · exact h.vrpsWF w hw⟩

theorem WF.addKey {t : Table} (h : t.WF) (k : RouterKey) : (t.addKey k).WF :=
  ⟨h.roasNodup, hashReplace_nodup h.keysNodup k, h.vrpsWF⟩

theorem WF.join {d s : Table} (hd : d.WF) (hs : s.WF) : (d.join s).WF := by
  rw [join_eq]
  refine ⟨foldl_hashReplace_nodup _ hd.roasNodup, foldl_hashReplace_nodup _ hd.keysNodup, ?_⟩
  intro v hv
  rcases (mem_foldl_hashReplace _).1 hv with h | h
  · exact hd.vrpsWF v h
  · exact hs.vrpsWF v h

theorem WF.removeRoa {t : Table} (h : t.WF) (v : Vrp) : (t.removeRoa v).WF :=
  ⟨h.roasNodup.erase v, h.keysNodup, fun w hw => h.vrpsWF w (List.mem_of_mem_erase hw)⟩

theorem WF.removeKey {t : Table} (h : t.WF) (k : RouterKey) : (t.removeKey k).WF :=
  ⟨h.roasNodup, h.keysNodup.erase k, h.vrpsWF⟩

theorem vrpWF_v4 (asn a : BitVec 32) (l m : BitVec 8) :
    Vrp.WF { asn, fam := .v4, prefix_ := a.setWidth 128, len := l, maxLen := m } := by
  intro _
  have := a.isLt
  simp only [BitVec.toNat_setWidth]
  omega

theorem vrpWF_v6 (asn : BitVec 32) (a : BitVec 128) (l m : BitVec 8) :
    Vrp.WF { asn, fam := .v6, prefix_ := a, len := l, maxLen := m } := by
  intro h; cases h

/-- On well-formed VRPs, `vrp_equals` is equality. -/
theorem vrpEquals_iff {a b : Vrp} (ha : a.WF) (hb : b.WF) : vrpEquals a b = true ↔ a = b := by
  obtain ⟨asn, fam, pre, len, ml⟩ := a
  obtain ⟨asn', fam', pre', len', ml'⟩ := b
  unfold vrpEquals
  simp only
  split
  · rename_i h
    simp only [Bool.false_eq_true, Vrp.mk.injEq, false_iff]
    rintro ⟨rfl, rfl, rfl, rfl, rfl⟩
    simp at h
  · rename_i h
    simp only [ne_eq, not_or, not_not] at h
    obtain ⟨rfl, rfl, rfl, rfl⟩ := h
    cases fam with
    | v4 =>
      have h1 := ha rfl
      have h2 := hb rfl
      simp only at h1 h2
      simp only [decide_eq_true_eq, Vrp.mk.injEq, and_true, true_and]
      constructor
      · intro h
        have := congrArg BitVec.toNat h
        simp only [BitVec.toNat_setWidth] at this
        apply BitVec.eq_of_toNat_eq
        omega
      · rintro rfl; rfl
    | v6 => simp

/-! ### Deltas -/

theorem addRoaDeltas_announcement (l1 l2 : List Vrp) (d : Deltas) :
    addRoaDeltas l1 l2 d .announcement =
      { d with v4adds := d.v4adds ++ l1.filter (fun v => decide (v ∉ l2) && decide (v.fam = .v4))
               v6adds := d.v6adds ++ l1.filter (fun v => decide (v ∉ l2) && decide (v.fam = .v6)) } := by
  unfold addRoaDeltas
  induction l1 generalizing d with
  | nil => simp
  | cons x xs ih =>
    rw [List.foldl_cons, ih]
    by_cases hx : x ∈ l2
    · simp [hx]
    · obtain ⟨asn, fam, pre, len, ml⟩ := x
      cases fam <;> simp [hx, Deltas.addRoa]

theorem addRoaDeltas_withdrawal (l1 l2 : List Vrp) (d : Deltas) :
    addRoaDeltas l1 l2 d .withdrawal =
      { d with v4rems := d.v4rems ++ l1.filter (fun v => decide (v ∉ l2) && decide (v.fam = .v4))
               v6rems := d.v6rems ++ l1.filter (fun v => decide (v ∉ l2) && decide (v.fam = .v6)) } := by
  unfold addRoaDeltas
  induction l1 generalizing d with
  | nil => simp
  | cons x xs ih =>
    rw [List.foldl_cons, ih]
    by_cases hx : x ∈ l2
    · simp [hx]
    · obtain ⟨asn, fam, pre, len, ml⟩ := x
      cases fam <;> simp [hx, Deltas.addRoa]

theorem addKeyDeltas_announcement (l1 l2 : List RouterKey) (d : Deltas) :
    addKeyDeltas l1 l2 d .announcement =
      { d with rkadds := d.rkadds ++ l1.filter (fun v => decide (v ∉ l2)) } := by
  unfold addKeyDeltas
  induction l1 generalizing d with
  | nil => simp
  | cons x xs ih =>
    rw [List.foldl_cons, ih]
    by_cases hx : x ∈ l2 <;> simp [hx, Deltas.addKey]

theorem addKeyDeltas_withdrawal (l1 l2 : List RouterKey) (d : Deltas) :
    addKeyDeltas l1 l2 d .withdrawal =
      { d with rkrems := d.rkrems ++ l1.filter (fun v => decide (v ∉ l2)) } := by
  unfold addKeyDeltas
  induction l1 generalizing d with
  | nil => simp
  | cons x xs ih =>
    rw [List.foldl_cons, ih]
    by_cases hx : x ∈ l2 <;> simp [hx, Deltas.addKey]

/-- The delta between two tables, in closed form. -/
def diffDeltas (old new : Table) : Deltas where
  v4adds := new.roas.filter (fun v => decide (v ∉ old.roas) && decide (v.fam = .v4))
  v6adds := new.roas.filter (fun v => decide (v ∉ old.roas) && decide (v.fam = .v6))
  v4rems := old.roas.filter (fun v => decide (v ∉ new.roas) && decide (v.fam = .v4))
  v6rems := old.roas.filter (fun v => decide (v ∉ new.roas) && decide (v.fam = .v6))
  rkadds := new.keys.filter (fun v => decide (v ∉ old.keys))
  rkrems := old.keys.filter (fun v => decide (v ∉ new.keys))

theorem computeDeltas_eq (old new : Table) :
    computeDeltas old new = if (diffDeltas old new).isEmpty then none else some (diffDeltas old new) := by
  have : addKeyDeltas old.keys new.keys
      (addKeyDeltas new.keys old.keys
        (addRoaDeltas old.roas new.roas
          (addRoaDeltas new.roas old.roas Deltas.create .announcement) .withdrawal) .announcement)
      .withdrawal = diffDeltas old new := by
    simp [addRoaDeltas_announcement, addRoaDeltas_withdrawal, addKeyDeltas_announcement,
      addKeyDeltas_withdrawal, diffDeltas, Deltas.create]
  unfold computeDeltas
  simp only [this]

/-! ### Strict router -/

section router
variable {α : Type} [DecidableEq α]

theorem run_append (s : Finset α) (l1 l2 : List (Ev α)) :
    Router.run s (l1 ++ l2) = (Router.run s l1).bind (fun s' => Router.run s' l2) := by
  induction l1 generalizing s with
  | nil => rfl
  | cons e es ih =>
    simp only [List.cons_append, Router.run]
    cases Router.step s e with
    | none => rfl
    | some s' => simp [ih]

/-- Announcing distinct unknown records. -/
theorem run_announce (s : Finset α) (l : List α) (hn : l.Nodup) (hd : ∀ x ∈ l, x ∉ s) :
    Router.run s (l.map (⟨.announcement, ·⟩)) = some (s ∪ l.toFinset) := by
  induction l generalizing s with
  | nil => simp [Router.run]
  | cons x xs ih =>
    rw [List.nodup_cons] at hn
    have hx : x ∉ s := hd x (by simp)
    simp only [List.map_cons, Router.run, Router.step, hx, if_false, Option.bind_some]
    rw [ih _ hn.2]
    · congr 1; ext y; simp; tauto
    · intro y hy
      have : y ≠ x := by rintro rfl; exact hn.1 hy
      simp [this, hd y (by simp [hy])]

/-- Withdrawing distinct known records. -/
theorem run_withdraw (s : Finset α) (l : List α) (hn : l.Nodup) (hd : ∀ x ∈ l, x ∈ s) :
    Router.run s (l.map (⟨.withdrawal, ·⟩)) = some (s \ l.toFinset) := by
  induction l generalizing s with
  | nil => simp [Router.run]
  | cons x xs ih =>
    rw [List.nodup_cons] at hn
    have hx : x ∈ s := hd x (by simp)
    simp only [List.map_cons, Router.run, Router.step, hx, if_true, Option.bind_some]
    rw [ih _ hn.2]
    · congr 1; ext y; simp; tauto
    · intro y hy
      have : y ≠ x := by rintro rfl; exact hn.1 hy
      simp [this, hd y (by simp [hy])]

end router

/-- Applying the VRP part of the delta between two tables. -/
theorem run_vrp_diff {old new : Table} (ho : old.WF) (hn : new.WF) :
    Router.run old.vrpSet (diffDeltas old new).vrpEvents = some new.vrpSet := by
  have no := ho.roasNodup
  have nn := hn.roasNodup
  unfold Deltas.vrpEvents diffDeltas Table.vrpSet
  rw [run_append, run_append, run_append]
  rw [run_announce _ _ (nn.filter _) (by intro x hx; simp at hx; simp [hx.2.1])]
  rw [Option.bind_some, run_withdraw _ _ (no.filter _)
    (by intro x hx; simp at hx; simp [hx.1])]
  rw [Option.bind_some, run_announce _ _ (nn.filter _)
    (by intro x hx; simp at hx; simp [hx.2.1, hx.2.2])]
  rw [Option.bind_some, run_withdraw _ _ (no.filter _)
    (by intro x hx; simp at hx; simp [hx.1, hx.2.1, hx.2.2])]
  congr 1
  ext v
  obtain ⟨asn, fam, pre, len, ml⟩ := v
  cases fam <;> simp <;> tauto

theorem run_key_diff {old new : Table} (ho : old.WF) (hn : new.WF) :
    Router.run old.keySet (diffDeltas old new).rkEvents = some new.keySet := by
  have no := ho.keysNodup
  have nn := hn.keysNodup
  unfold Deltas.rkEvents diffDeltas Table.keySet
  rw [run_append]
  rw [run_announce _ _ (nn.filter _) (by intro x hx; simp at hx; simp [hx.2])]
  rw [Option.bind_some, run_withdraw _ _ (no.filter _)
    (by intro x hx; simp at hx; simp [hx.1])]
  congr 1
  ext v
  simp
  tauto

theorem diff_isEmpty_iff (old new : Table) :
    (diffDeltas old new).isEmpty = true ↔ old.vrpSet = new.vrpSet ∧ old.keySet = new.keySet := by
  simp only [Deltas.isEmpty, diffDeltas, Table.vrpSet, Table.keySet, Bool.and_eq_true, beq_iff_eq,
    List.length_eq_zero_iff, List.filter_eq_nil_iff, Finset.ext_iff, List.mem_toFinset]
  simp only [Bool.and_eq_true, decide_eq_true_eq, not_and, not_not]
  constructor
  · rintro ⟨⟨⟨⟨⟨h1, h2⟩, h3⟩, h4⟩, h5⟩, h6⟩
    refine ⟨fun v => ⟨fun h => ?_, fun h => ?_⟩, fun k => ⟨fun h => h6 k h, fun h => h5 k h⟩⟩
    · by_contra hc
      have a := h2 v h hc
      have b := h4 v h hc
      cases hf : v.fam <;> simp_all
    · by_contra hc
      have a := h1 v h hc
      have b := h3 v h hc
      cases hf : v.fam <;> simp_all
  · rintro ⟨h1, h2⟩
    refine ⟨⟨⟨⟨⟨?_, ?_⟩, ?_⟩, ?_⟩, ?_⟩, ?_⟩
    all_goals (intro v h)
    all_goals first
      | (intro hc; exact absurd ((h1 v).1 h) hc)
      | (intro hc; exact absurd ((h1 v).2 h) hc)
      | exact (h2 v).1 h
      | exact (h2 v).2 h

end Verif.Rtr
