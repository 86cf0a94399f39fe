import Verif.Res.SetLemmas
/-
C23: resource sets stay sorted, disjoint and non-adjacent. C24: containment lookup is exact.
-/
namespace Verif.Res

/-- Successive additions to a set. -/
def addAll {α} (cmp : α → α → Cmp) : List α → List α → Option (List α)
  | l, [] => some l
  | l, x :: xs =>
    match sarrayAdd cmp l x with
    | none => none
    | some l' => addAll cmp l' xs

theorem sarrayAdd_iff {α} {ok : α → Prop} {cmp : α → α → Cmp} {val : α → Rng} (law : CmpLaw ok cmp val)
    {l : List α} (hok : ∀ a ∈ l, ok a) (hcan : Canonical (l.map val)) {x : α} (hx : ok x)
    (hxi : (val x).min ≤ (val x).max) (l' : List α) :
    sarrayAdd cmp l x = some l' ↔ l' = l ++ [x] ∧ Canonical ((l ++ [x]).map val) := by
  have hc : sarrayCompare cmp l x = true ↔ Canonical ((l ++ [x]).map val) := by
    rw [List.map_append, List.map_singleton, canonical_append]
    unfold sarrayCompare
    rw [List.getLast?_map]
    cases hl : l.getLast? with
    | none => simp [hcan, hxi]
    | some last =>
      have hm : last ∈ l := List.mem_of_getLast? hl
      have hi := canonical_mem hcan (val last) (List.mem_map_of_mem hm)
      simp only [beq_iff_eq, law last x (hok last hm) hx, cmpN_right hi hxi, Option.map_some, Option.some.injEq,
        forall_eq']
      simp [hcan, hxi]
  unfold sarrayAdd
  by_cases h : sarrayCompare cmp l x = true
  · rw [if_pos h, ← hc]; simp only [Option.some.injEq, h, and_true]; exact eq_comm
  · rw [if_neg h, ← hc]; simp [h]

theorem addAll_iff {α} {ok : α → Prop} {cmp : α → α → Cmp} {val : α → Rng} (law : CmpLaw ok cmp val)
    {l : List α} (hok : ∀ a ∈ l, ok a) (hcan : Canonical (l.map val)) {xs : List α} (hx : ∀ x ∈ xs, ok x)
    (hxi : ∀ x ∈ xs, (val x).min ≤ (val x).max) (r : List α) :
    addAll cmp l xs = some r ↔ r = l ++ xs ∧ Canonical ((l ++ xs).map val) := by
  induction xs generalizing l with
  | nil => simp [addAll, hcan]; exact eq_comm
  | cons x xs ih =>
    have key := sarrayAdd_iff law hok hcan (hx x List.mem_cons_self) (hxi x List.mem_cons_self)
    simp only [addAll]
    cases hs : sarrayAdd cmp l x with
    | none =>
      simp only [reduceCtorEq, false_iff, not_and]
      rintro rfl hc
      have : Canonical ((l ++ [x]).map val) := by
        have e : (l ++ x :: xs).map val = ((l ++ [x]).map val) ++ xs.map val := by simp
        rw [e] at hc
        clear ih key hs
        generalize (l ++ [x]).map val = p at hc ⊢
        generalize xs.map val = q at hc
        induction p with
        | nil => trivial
        | cons a p ihp =>
          cases p with
          | nil => exact hc.head
          | cons b p => exact ⟨hc.1, hc.2.1, ihp hc.2.2⟩
      have := (key (l ++ [x])).2 ⟨rfl, this⟩
      rw [hs] at this; cases this
    | some l' =>
      obtain ⟨rfl, hc⟩ := (key l').1 hs
      simp only
      rw [ih (l := l ++ [x]) (by
          intro a ha; rcases List.mem_append.1 ha with ha | ha
          · exact hok a ha
          · rw [List.mem_singleton.1 ha]; exact hx x List.mem_cons_self)
        hc (fun y hy => hx y (List.mem_cons_of_mem _ hy)) (fun y hy => hxi y (List.mem_cons_of_mem _ hy))]
      simp

/-! ### C23 -/

/-- C23 (AS numbers, IPv4). Adding ranges one by one to an empty set succeeds exactly when they are in increasing
order with a gap between neighbours; the set then consists of exactly these ranges, in this order. -/
theorem C23_sets32 (xs : List R32) (hxi : ∀ x ∈ xs, x.min ≤ x.max) (r : List R32) :
    addAll cmp32 [] xs = some r ↔ r = xs ∧ Canonical (xs.map R32.rng) := by
  simpa using addAll_iff law32 (l := []) (by simp) trivial (xs := xs) (by simp)
    (fun x hx => by simpa [R32.rng, BitVec.le_def] using hxi x hx) r

/-- C23 (IPv6). -/
theorem C23_sets6 (xs : List R6) (hwf : ∀ x ∈ xs, x.WF) (hxi : ∀ x ∈ xs, be x.min ≤ be x.max) (r : List R6) :
    addAll cmp6 [] xs = some r ↔ r = xs ∧ Canonical (xs.map R6.rng) := by
  simpa using addAll_iff law6 (l := []) (by simp) trivial (xs := xs) hwf hxi r

/-- 1-5, 7-9 is accepted; the adjacent 1-5, 6-9 and the unordered 7-9, 1-5 are not. -/
example : addAll cmp32 [] [⟨1, 5⟩, ⟨7, 9⟩] = some [⟨1, 5⟩, ⟨7, 9⟩] ∧ addAll cmp32 [] [⟨1, 5⟩, ⟨6, 9⟩] = none ∧
    addAll cmp32 [] [⟨7, 9⟩, ⟨1, 5⟩] = none := by decide

/-! ### C24 -/

theorem contains_iff {α} {ok : α → Prop} {cmp : α → α → Cmp} {val : α → Rng} (law : CmpLaw ok cmp val)
    {l : List α} (hok : ∀ a ∈ l, ok a) (hcan : Canonical (l.map val)) {x : α} (hx : ok x)
    (hxi : (val x).min ≤ (val x).max) :
    ∃ b, sarrayContains cmp (some l) x = some b ∧ (b = true ↔ ∀ n, (val x).Has n → Covered (l.map val) n) := by
  unfold sarrayContains
  rw [covered_iff hcan hxi]
  simp only
  split
  · rename_i h0
    rw [List.eq_nil_of_length_eq_zero h0]
    exact ⟨false, rfl, by simp⟩
  · obtain ⟨b, h1, h2⟩ := sarraySearch_spec law hok hcan hx hxi 0 (l.length - 1) (by omega)
      (fun i r h _ _ => by
        have := (List.getElem?_eq_some_iff.1 h).1
        omega)
    refine ⟨b, h1, ?_⟩
    rw [h2]
    constructor
    · rintro ⟨r, hr, h⟩; exact ⟨val r, List.mem_map_of_mem hr, h⟩
    · rintro ⟨r, hr, h⟩
      obtain ⟨a, ha, rfl⟩ := List.mem_map.1 hr
      exact ⟨a, ha, h⟩

/-- C24 (AS numbers, IPv4). On a set that was built by additions, the lookup does not read outside of the array, and
its answer is yes exactly when every number of the range is in the set. -/
theorem C24_contains32 (xs l : List R32) (hxi : ∀ x ∈ xs, x.min ≤ x.max) (hb : addAll cmp32 [] xs = some l) (x : R32)
    (hx : x.min ≤ x.max) :
    ∃ b, sarrayContains cmp32 (some l) x = some b ∧ (b = true ↔ ∀ n, x.rng.Has n → Covered (l.map R32.rng) n) := by
  obtain ⟨rfl, hc⟩ := (C23_sets32 xs hxi l).1 hb
  exact contains_iff law32 (by simp) hc trivial (by simpa [R32.rng, BitVec.le_def] using hx)

/-- C24 (IPv6). -/
theorem C24_contains6 (xs l : List R6) (hwf : ∀ x ∈ xs, x.WF) (hxi : ∀ x ∈ xs, be x.min ≤ be x.max)
    (hb : addAll cmp6 [] xs = some l) (x : R6) (hxw : x.WF) (hx : be x.min ≤ be x.max) :
    ∃ b, sarrayContains cmp6 (some l) x = some b ∧ (b = true ↔ ∀ n, x.rng.Has n → Covered (l.map R6.rng) n) := by
  obtain ⟨rfl, hc⟩ := (C23_sets6 xs hwf hxi l).1 hb
  exact contains_iff law6 hwf hc hxw hx

/-- A set that does not exist contains nothing. -/
theorem C24_null {α} (cmp : α → α → Cmp) (x : α) : sarrayContains cmp none x = some false := rfl

example : addAll cmp32 [] [⟨1, 5⟩, ⟨7, 9⟩, ⟨20, 30⟩] = some [⟨1, 5⟩, ⟨7, 9⟩, ⟨20, 30⟩] ∧
    sarrayContains cmp32 (some [⟨1, 5⟩, ⟨7, 9⟩, ⟨20, 30⟩]) ⟨8, 9⟩ = some true ∧
    sarrayContains cmp32 (some [⟨1, 5⟩, ⟨7, 9⟩, ⟨20, 30⟩]) ⟨5, 7⟩ = some false := by
  refine ⟨by decide, ?_, ?_⟩ <;> simp [sarrayContains, sarraySearch, cmp32]

end Verif.Res
