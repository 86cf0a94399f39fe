/-
Lemmas behind C06, C07 and C08: cancellation keeps a strict router in sync, and the update cycle keeps the
stored deltas connecting consecutive published snapshots.
-/
import Verif.Rtr.DArrayLemmas
import Verif.Rtr.TableLemmas

namespace Verif.Rtr

/-! ### Cancellation -/

section Cancel
variable {α : Type} [DecidableEq α]

/-- `acc` is the net difference from `S` to `cur`. -/
structure Net (S cur : Finset α) (acc : List (Ev α)) : Prop where
  nodup : (acc.map Ev.item).Nodup
  ann : ∀ x, (⟨.announcement, x⟩ : Ev α) ∈ acc ↔ x ∉ S ∧ x ∈ cur
  wd : ∀ x, (⟨.withdrawal, x⟩ : Ev α) ∈ acc ↔ x ∈ S ∧ x ∉ cur

theorem Net.init (S : Finset α) : Net S S [] := by
  refine ⟨by simp, ?_, ?_⟩ <;> intro x <;> simp

/-- The other flag. -/
def Flag.other : Flag → Flag
  | .announcement => .withdrawal
  | .withdrawal => .announcement

theorem flag_ne_iff (a b : Flag) : a ≠ b ↔ b = a.other := by
  cases a <;> cases b <;> simp [Flag.other]

theorem eraseP_item_eq {acc : List (Ev α)} (e : Ev α) :
    acc.eraseP (fun p => decide (e.item = p.item) && decide (e.flag ≠ p.flag)) =
      acc.erase ⟨e.flag.other, e.item⟩ := by
  induction acc with
  | nil => rfl
  | cons p acc ih =>
    rw [List.eraseP_cons, List.erase_cons, ih]
    have : (decide (e.item = p.item) && decide (e.flag ≠ p.flag)) = (p == ⟨e.flag.other, e.item⟩) := by
      obtain ⟨pf, pi⟩ := p
      obtain ⟨ef, ei⟩ := e
      rw [Bool.eq_iff_iff]
      simp only [Bool.and_eq_true, decide_eq_true_eq, beq_iff_eq, Ev.mk.injEq, flag_ne_iff]
      constructor
      · rintro ⟨h1, h2⟩; exact ⟨h2, h1.symm⟩
      · rintro ⟨h1, h2⟩; exact ⟨h2.symm, h1⟩
    rw [this]
    cases (p == (⟨e.flag.other, e.item⟩ : Ev α)) <;> rfl

theorem any_item_eq {acc : List (Ev α)} (e : Ev α) :
    acc.any (fun p => decide (e.item = p.item) && decide (e.flag ≠ p.flag)) = true ↔
      (⟨e.flag.other, e.item⟩ : Ev α) ∈ acc := by
  rw [List.any_eq_true]
  constructor
  · rintro ⟨p, hp, h⟩
    simp only [Bool.and_eq_true, decide_eq_true_eq, flag_ne_iff] at h
    obtain ⟨pf, pi⟩ := p
    simp only at h
    rw [h.1, ← h.2]; exact hp
  · intro h
    refine ⟨_, h, ?_⟩
    simp [flag_ne_iff]

theorem ovrdRemove_eq (acc : List (Ev α)) (e : Ev α) :
    ovrdRemove (fun a b => decide (a = b)) acc e =
      if (⟨e.flag.other, e.item⟩ : Ev α) ∈ acc then acc.erase ⟨e.flag.other, e.item⟩ else e :: acc := by
  unfold ovrdRemove
  by_cases h : (⟨e.flag.other, e.item⟩ : Ev α) ∈ acc
  · rw [if_pos ((any_item_eq e).2 h), if_pos h, eraseP_item_eq]
  · rw [if_neg (fun hh => h ((any_item_eq e).1 hh)), if_neg h]

theorem Net.step {S cur cur' : Finset α} {acc : List (Ev α)} (h : Net S cur acc) {e : Ev α}
    (he : Router.step cur e = some cur') : Net S cur' (ovrdRemove (fun a b => decide (a = b)) acc e) := by
  obtain ⟨hn, ha, hw⟩ := h
  obtain ⟨f, x⟩ := e
  have hnd : acc.Nodup := List.Nodup.of_map _ hn
  have hmem : ∀ y, y ∈ acc.map Ev.item ↔ (⟨.announcement, y⟩ : Ev α) ∈ acc ∨ (⟨.withdrawal, y⟩ : Ev α) ∈ acc := by
    intro y
    rw [List.mem_map]
    constructor
    · rintro ⟨⟨g, z⟩, hz, rfl⟩
      cases g
      · exact Or.inr hz
      · exact Or.inl hz
    · rintro (h | h) <;> exact ⟨_, h, rfl⟩
  cases f with
  | announcement =>
    simp only [Router.step] at he
    split at he
    · cases he
    · rename_i hx
      injection he with he
      subst he
      rw [show ovrdRemove (fun a b => decide (a = b)) acc ⟨.announcement, x⟩ =
        if (⟨.withdrawal, x⟩ : Ev α) ∈ acc then acc.erase ⟨.withdrawal, x⟩ else ⟨.announcement, x⟩ :: acc from
        ovrdRemove_eq acc ⟨.announcement, x⟩]
      by_cases hwx : (⟨.withdrawal, x⟩ : Ev α) ∈ acc
      · rw [if_pos hwx]
        have hxS := ((hw x).1 hwx).1
        refine ⟨?_, ?_, ?_⟩
        · exact hn.sublist (List.Sublist.map _ List.erase_sublist)
        · intro y
          rw [List.mem_erase_of_ne (by simp), ha]
          by_cases hy : y = x
          · subst hy; simp [hxS]
          · simp [hy]
        · intro y
          rw [hnd.mem_erase_iff, hw]
          by_cases hy : y = x
          · subst hy; simp
          · simp [hy]
      · rw [if_neg hwx]
        have hxS : x ∉ S := fun hh => hwx ((hw x).2 ⟨hh, hx⟩)
        refine ⟨?_, ?_, ?_⟩
        · simp only [List.map_cons, List.nodup_cons]
          refine ⟨?_, hn⟩
          rw [hmem]
          rintro (h | h)
          · exact hx ((ha x).1 h).2
          · exact hwx h
        · intro y
          rw [List.mem_cons, ha]
          by_cases hy : y = x
          · subst hy; simp [hxS]
          · simp [hy]
        · intro y
          rw [List.mem_cons, hw]
          by_cases hy : y = x
          · subst hy; simp [hxS]
          · simp [hy]
  | withdrawal =>
    simp only [Router.step] at he
    split at he
    · rename_i hx
      injection he with he
      subst he
      rw [show ovrdRemove (fun a b => decide (a = b)) acc ⟨.withdrawal, x⟩ =
        if (⟨.announcement, x⟩ : Ev α) ∈ acc then acc.erase ⟨.announcement, x⟩ else ⟨.withdrawal, x⟩ :: acc from
        ovrdRemove_eq acc ⟨.withdrawal, x⟩]
      by_cases hwx : (⟨.announcement, x⟩ : Ev α) ∈ acc
      · rw [if_pos hwx]
        have hxS := ((ha x).1 hwx).1
        refine ⟨?_, ?_, ?_⟩
        · exact hn.sublist (List.Sublist.map _ List.erase_sublist)
        · intro y
          rw [hnd.mem_erase_iff, ha]
          by_cases hy : y = x
          · subst hy; simp
          · simp [hy]
        · intro y
          rw [List.mem_erase_of_ne (by simp), hw]
          by_cases hy : y = x
          · subst hy; simp [hxS]
          · simp [hy]
      · rw [if_neg hwx]
        have hxS : x ∈ S := by by_contra hh; exact hwx ((ha x).2 ⟨hh, hx⟩)
        refine ⟨?_, ?_, ?_⟩
        · simp only [List.map_cons, List.nodup_cons]
          refine ⟨?_, hn⟩
          rw [hmem]
          rintro (h | h)
          · exact hwx h
          · exact ((hw x).1 h).2 hx
        · intro y
          rw [List.mem_cons, ha]
          by_cases hy : y = x
          · subst hy; simp [hxS]
          · simp [hy]
        · intro y
          rw [List.mem_cons, hw]
          by_cases hy : y = x
          · subst hy; simp [hxS]
          · simp [hy]
    · cases he

theorem Net.fold {S cur cur' : Finset α} {acc : List (Ev α)} (h : Net S cur acc) {es : List (Ev α)}
    (he : Router.run cur es = some cur') :
    Net S cur' (es.foldl (ovrdRemove (fun a b => decide (a = b))) acc) := by
  induction es generalizing cur acc with
  | nil => simp only [Router.run, Option.some.injEq] at he; subst he; exact h
  | cons e es ih =>
    simp only [Router.run, Option.bind_eq_some_iff] at he
    obtain ⟨c, h1, h2⟩ := he
    exact ih (h.step h1) h2

/-- A net difference can be applied by a strict router in any order. -/
theorem Net.run {S cur : Finset α} {acc : List (Ev α)} (h : Net S cur acc) :
    Router.run S acc = some cur := by
  induction acc generalizing S with
  | nil =>
    simp only [Router.run, Option.some.injEq]
    ext x
    have h1 := h.ann x
    have h2 := h.wd x
    simp only [List.not_mem_nil, false_iff] at h1 h2
    tauto
  | cons e acc ih =>
    obtain ⟨f, x⟩ := e
    obtain ⟨hn, ha, hw⟩ := h
    simp only [List.map_cons, List.nodup_cons] at hn
    have hx : ∀ g, (⟨g, x⟩ : Ev α) ∉ acc := fun g hg => hn.1 (List.mem_map.2 ⟨_, hg, rfl⟩)
    cases f with
    | announcement =>
      have h1 := (ha x).1 (by simp)
      simp only [Router.run, Router.step, if_neg h1.1, Option.bind_some]
      apply ih
      refine ⟨hn.2, ?_, ?_⟩
      · intro y
        by_cases hy : y = x
        · subst hy; simp [hx]
        · have := ha y; simp [hy] at this; simp [hy, this]
      · intro y
        by_cases hy : y = x
        · subst hy; simp [hx, h1.2]
        · have := hw y; simp at this; simp [hy, this]
    | withdrawal =>
      have h1 := (hw x).1 (by simp)
      simp only [Router.run, Router.step, if_pos h1.1, Option.bind_some]
      apply ih
      refine ⟨hn.2, ?_, ?_⟩
      · intro y
        by_cases hy : y = x
        · subst hy; simp [hx, h1.2]
        · have := ha y; simp at this; simp [hy, this]
      · intro y
        by_cases hy : y = x
        · subst hy; simp [hx]
        · have := hw y; simp [hy] at this; simp [hy, this]

end Cancel

/-- On well-formed VRPs cancellation by `vrp_equals` is cancellation by equality. -/
theorem foldl_ovrd_vrp (es acc : List (Ev Vrp)) (h1 : ∀ e ∈ es, e.item.WF) (h2 : ∀ e ∈ acc, e.item.WF) :
    es.foldl (ovrdRemove vrpEquals) acc = es.foldl (ovrdRemove (fun a b => decide (a = b))) acc := by
  induction es generalizing acc with
  | nil => rfl
  | cons e es ih =>
    have he := h1 e (by simp)
    have heq : ovrdRemove vrpEquals acc e = ovrdRemove (fun a b => decide (a = b)) acc e := by
      have : ∀ p ∈ acc, (vrpEquals e.item p.item && decide (e.flag ≠ p.flag)) =
          (decide (e.item = p.item) && decide (e.flag ≠ p.flag)) := by
        intro p hp
        have := vrpEquals_iff he (h2 p hp)
        by_cases hq : e.item = p.item
        · rw [this.2 hq]; simp [hq]
        · have hf : vrpEquals e.item p.item = false := by
            rw [Bool.eq_false_iff]; exact fun hh => hq (this.1 hh)
          simp [hf, hq]
      unfold ovrdRemove
      have hany : acc.any (fun p => vrpEquals e.item p.item && decide (e.flag ≠ p.flag)) =
          acc.any (fun p => decide (e.item = p.item) && decide (e.flag ≠ p.flag)) := by
        rw [Bool.eq_iff_iff, List.any_eq_true, List.any_eq_true]
        constructor
        · rintro ⟨p, hp, h⟩; exact ⟨p, hp, by rw [← this p hp]; exact h⟩
        · rintro ⟨p, hp, h⟩; exact ⟨p, hp, by rw [this p hp]; exact h⟩
      rw [hany]
      congr 1
      clear ih h2 hany
      induction acc with
      | nil => rfl
      | cons a acc ih =>
        rw [List.eraseP_cons, List.eraseP_cons, this a (by simp)]
        rw [ih (fun p hp => this p (by simp [hp]))]
    rw [List.foldl_cons, List.foldl_cons, heq]
    apply ih
    · exact fun e he => h1 e (by simp [he])
    · intro p hp
      rw [ovrdRemove_eq] at hp
      split at hp
      · exact h2 p (List.mem_of_mem_erase hp)
      · rcases List.mem_cons.1 hp with rfl | hp
        · exact he
        · exact h2 p hp

/-! ### Update cycles -/

/-- `ds` are the differences between consecutive snapshots. -/
def Connects (snaps : List Table) (ds : List Deltas) : Prop :=
  ds.length = snaps.length - 1 ∧
  ∀ k (h : k + 1 < snaps.length), ds[k]? = some (diffDeltas (snaps[k]'(by omega)) snaps[k + 1])

/-- Invariant of the RTR state after publishing `snaps`. -/
structure State.Inv (st : State) (cap : Nat) (snaps : List Table) : Prop where
  base : st.base = snaps.getLast?
  serial : st.serial = BitVec.ofNat 32 snaps.length
  wf : ∀ t ∈ snaps, t.WF
  capEq : st.deltas.cap = cap
  capLt : st.deltas.cap < 2 ^ 31
  hist : ∃ ds, st.deltas.Inv ds ∧ Connects snaps ds

theorem State.inv_init {cap : Nat} (h1 : 1 ≤ cap) (h2 : cap < 2 ^ 31) (now : BitVec 64) :
    (State.init cap now).Inv cap [] :=
  ⟨rfl, rfl, by simp, rfl, h2, [], DArray.inv_create h1 (by omega), by simp [Connects]⟩

theorem Connects.snoc {snaps : List Table} {ds : List Deltas} (h : Connects snaps ds) {last t : Table}
    (hl : snaps.getLast? = some last) : Connects (snaps ++ [t]) (ds ++ [diffDeltas last t]) := by
  obtain ⟨h1, h2⟩ := h
  have hne : snaps ≠ [] := by rintro rfl; simp at hl
  have hpos : 0 < snaps.length := List.length_pos_of_ne_nil hne
  refine ⟨by simp; omega, ?_⟩
  intro k hk
  simp only [List.length_append, List.length_singleton] at hk
  by_cases hlast : k + 1 = snaps.length
  · have hkd : k = ds.length := by omega
    rw [List.getElem?_append_right (by omega), show k - ds.length = 0 by omega]
    simp only [List.getElem?_cons_zero, Option.some.injEq]
    congr 1
    · rw [List.getElem_append_left (by omega)]
      rw [List.getLast?_eq_some_getLast hne, Option.some.injEq] at hl
      rw [← hl, List.getLast_eq_getElem]
      congr 1; omega
    · rw [List.getElem_append_right (by omega)]
      simp
  · rw [List.getElem?_append_left (by omega), h2 k (by omega)]
    rw [List.getElem_append_left (by omega), List.getElem_append_left (by omega)]

theorem Connects.single (t : Table) {ds : List Deltas} (h : Connects [] ds) : Connects [t] ds := by
  refine ⟨by simpa using h.1, ?_⟩
  intro k hk
  simp at hk

/-- One update cycle: what it returns and what it publishes. -/
theorem State.Inv.update {st : State} {cap : Nat} {snaps : List Table} (h : st.Inv cap snaps)
    {r : Option Table} (hr : ∀ t, r = some t → t.WF) :
    (st.update r).1.Inv cap (publish snaps r) ∧
    (st.update r).2 = (match r with
      | none => .failed false
      | some _ => .ok (decide (publish snaps r ≠ snaps))) ∧
    (publish snaps r = snaps → (st.update r).1 = st) := by
  obtain ⟨hb, hs, hw, hc, hc2, ds, hd, hcon⟩ := h
  cases r with
  | none =>
    refine ⟨⟨hb, hs, hw, hc, hc2, ds, hd, hcon⟩, rfl, fun _ => rfl⟩
  | some t =>
    have ht := hr t rfl
    cases hl : snaps.getLast? with
    | none =>
      have hnil : snaps = [] := List.getLast?_eq_none_iff.1 hl
      subst hnil
      have hu : st.update (some t) = ({ st with base := some t, serial := st.serial + 1 }, .ok true) := by
        unfold State.update
        rw [hb]; simp
      rw [hu]
      refine ⟨⟨by simp [publish], by simp [publish, hs], by simpa [publish] using ht, hc, hc2, ds, hd, ?_⟩, ?_, ?_⟩
      · exact Connects.single t hcon
      · simp [publish]
      · simp [publish]
    | some last =>
      have hlw : last.WF := hw last (List.mem_of_getLast? hl)
      have hiff := diff_isEmpty_iff last t
      by_cases he : last.SameData t
      · have hp : publish snaps (some t) = snaps := by simp [publish, hl, he]
        have hu : st.update (some t) = (st, .ok false) := by
          unfold State.update
          rw [hb, hl]; simp only
          rw [computeDeltas_eq, if_pos (hiff.2 he)]
        rw [hu, hp]
        exact ⟨⟨hb, hs, hw, hc, hc2, ds, hd, hcon⟩, by simp, fun _ => rfl⟩
      · have hp : publish snaps (some t) = snaps ++ [t] := by simp [publish, hl, he]
        obtain ⟨d', hd1, hd2, hd3⟩ := hd.add (diffDeltas last t)
        have hu : st.update (some t) =
            ({ st with base := some t, serial := st.serial + 1, deltas := d' }, .ok true) := by
          unfold State.update
          rw [hb, hl]; simp only
          rw [computeDeltas_eq, if_neg (fun hh => he (hiff.1 hh))]
          simp only [hd1]
        rw [hu, hp]
        refine ⟨⟨by simp, ?_, ?_, by rw [← hc]; exact hd3, by rw [hd3]; exact hc2, _, hd2, hcon.snoc hl⟩, by simp, by simp⟩
        · simp only [hs, List.length_append, List.length_singleton]
          rw [BitVec.ofNat_add]; rfl
        · intro x hx
          rcases List.mem_append.1 hx with hx | hx
          · exact hw x hx
          · rw [List.mem_singleton] at hx; subst hx; exact ht

theorem State.Inv.updates {st : State} {cap : Nat} {snaps : List Table} (h : st.Inv cap snaps)
    {rs : List (Option Table)} (hr : ResultsWF rs) :
    ∃ st', st.updates rs = some st' ∧ st'.Inv cap (rs.foldl publish snaps) := by
  induction rs generalizing st snaps with
  | nil => exact ⟨st, rfl, h⟩
  | cons r rs ih =>
    obtain ⟨h1, h2, _⟩ := h.update (r := r) (fun t ht => hr t (by simp [ht]))
    obtain ⟨st', h3, h4⟩ := ih h1 (fun t ht => hr t (by simp [ht]))
    refine ⟨st', ?_, h4⟩
    unfold State.updates
    cases hu : st.update r with
    | mk st1 out =>
      rw [hu] at h2 h3
      simp only at h2 h3
      cases out with
      | ub => cases r <;> simp at h2
      | failed c => exact h3
      | ok c => exact h3

/-! ### Serving the difference -/

theorem vrpEvents_wf {old new : Table} (ho : old.WF) (hn : new.WF) :
    ∀ e ∈ (diffDeltas old new).vrpEvents, e.item.WF := by
  intro e he
  simp only [Deltas.vrpEvents, diffDeltas, List.mem_append, List.mem_map, List.mem_filter] at he
  rcases he with ((⟨v, hv, rfl⟩ | ⟨v, hv, rfl⟩) | ⟨v, hv, rfl⟩) | ⟨v, hv, rfl⟩
  · exact hn.vrpsWF v hv.1
  · exact ho.vrpsWF v hv.1
  · exact hn.vrpsWF v hv.1
  · exact ho.vrpsWF v hv.1

/-- Serving the deltas from snapshot `j` on gives the net difference to the last snapshot. -/
theorem fold_deltas_net (S : Finset Vrp) (K : Finset RouterKey) (snaps : List Table) (ds : List Deltas)
    (hcon : Connects snaps ds) (hw : ∀ t ∈ snaps, t.WF) :
    ∀ (m j : Nat) (l : Lists) (hm : j + m + 1 = snaps.length),
      Net S (snaps[j]'(by omega)).vrpSet l.vrps → Net K (snaps[j]'(by omega)).keySet l.rks →
      (∀ e ∈ l.vrps, e.item.WF) →
      Net S (snaps[j + m]'(by omega)).vrpSet ((ds.drop j).foldl deltasForeach l).vrps ∧
      Net K (snaps[j + m]'(by omega)).keySet ((ds.drop j).foldl deltasForeach l).rks := by
  intro m
  induction m with
  | zero =>
    intro j l hm h1 h2 h3
    have : ds.drop j = [] := by
      rw [List.drop_eq_nil_iff]; have := hcon.1; omega
    rw [this]
    exact ⟨h1, h2⟩
  | succ m ih =>
    intro j l hm h1 h2 h3
    have hjd : j < ds.length := by have := hcon.1; omega
    have hdj : ds[j] = diffDeltas (snaps[j]'(by omega)) (snaps[j + 1]'(by omega)) := by
      have := hcon.2 j (by omega)
      rw [List.getElem?_eq_getElem hjd, Option.some.injEq] at this
      exact this
    rw [List.drop_eq_getElem_cons hjd, List.foldl_cons]
    have w1 := hw (snaps[j]'(by omega)) (List.getElem_mem _)
    have w2 := hw (snaps[j + 1]'(by omega)) (List.getElem_mem _)
    have hwf := vrpEvents_wf w1 w2
    have hv : (deltasForeach l ds[j]).vrps =
        ds[j].vrpEvents.foldl (ovrdRemove (fun a b => decide (a = b))) l.vrps := by
      unfold deltasForeach
      simp only
      rw [foldl_ovrd_vrp _ _ (by rw [hdj]; exact hwf) h3]
    have h1' : Net S (snaps[j + 1]'(by omega)).vrpSet (deltasForeach l ds[j]).vrps := by
      rw [hv, hdj]
      exact h1.fold (run_vrp_diff w1 w2)
    have h2' : Net K (snaps[j + 1]'(by omega)).keySet (deltasForeach l ds[j]).rks := by
      unfold deltasForeach
      simp only
      rw [hdj]
      exact h2.fold (run_key_diff w1 w2)
    have h3' : ∀ e ∈ (deltasForeach l ds[j]).vrps, e.item.WF := by
      rw [hv, hdj]
      generalize (diffDeltas _ _).vrpEvents = es at hwf
      clear hv h1' h2'
      generalize l.vrps = acc at h3
      induction es generalizing acc with
      | nil => exact h3
      | cons e es ihe =>
        rw [List.foldl_cons]
        apply ihe (fun e he => hwf e (by simp [he]))
        intro p hp
        rw [ovrdRemove_eq] at hp
        split at hp
        · exact h3 p (List.mem_of_mem_erase hp)
        · rcases List.mem_cons.1 hp with rfl | hp
          · exact hwf _ (by simp)
          · exact h3 p hp
    have := ih (j + 1) (deltasForeach l ds[j]) (by omega) h1' h2' h3'
    simp only [show j + 1 + m = j + (m + 1) by omega] at this
    exact this

theorem serialLt_toNat (a b : Serial) :
    serialLt a b = true ↔ 0 < (b - a).toNat ∧ (b - a).toNat < 2 ^ 31 := by
  have ha := a.isLt
  have hb := b.isLt
  unfold serialLt
  by_cases h : a = b
  · subst h; simp
  · have hne : a.toNat ≠ b.toNat := fun hh => h (BitVec.eq_of_toNat_eq hh)
    rw [if_neg h]
    simp only [Bool.or_eq_true, Bool.and_eq_true, decide_eq_true_eq, BitVec.lt_def, gt_iff_lt, BitVec.toNat_sub]
    simp only [BitVec.toNat_ofNat]
    omega

end Verif.Rtr
