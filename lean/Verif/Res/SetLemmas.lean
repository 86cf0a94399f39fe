import Verif.Res.ModelSet
import Verif.Res.RangeLemmas
/-
Lemmas about resource sets.
-/
namespace Verif.Res

/-- What the comparison functions mean, on numbers. -/
def cmpN (a b : Rng) : Cmp :=
  if a.min = b.min ∧ a.max = b.max then .equal
  else if a.min ≤ b.min ∧ b.max ≤ a.max then .child
  else if b.min ≤ a.min ∧ a.max ≤ b.max then .parent
  else if a.max + 1 = b.min then .adjRight
  else if a.max < b.min then .right
  else if b.max + 1 = a.min then .adjLeft
  else if b.max < a.min then .left
  else .intersection

/-- Numbers of a 32-bit range. -/
def R32.rng (r : R32) : Rng := ⟨r.min.toNat, r.max.toNat⟩
/-- Numbers of an IPv6 range. -/
def R6.rng (r : R6) : Rng := ⟨be r.min, be r.max⟩
/-- The ends of the range are addresses. -/
def R6.WF (r : R6) : Prop := r.min.length = 16 ∧ r.max.length = 16

theorem pred_iff (x y : BitVec 32) : (y ≠ 0 ∧ x = y - 1) ↔ x.toNat + 1 = y.toNat := by
  constructor
  · rintro ⟨h0, rfl⟩
    have : y.toNat ≠ 0 := fun h => h0 (BitVec.eq_of_toNat_eq (by simpa using h))
    have := y.isLt
    rw [BitVec.toNat_sub]
    simp
    omega
  · intro h
    have hy := y.isLt
    refine ⟨fun h0 => by rw [h0] at h; simp at h, BitVec.eq_of_toNat_eq ?_⟩
    rw [BitVec.toNat_sub]
    simp
    omega

theorem cmp32_eq (a b : R32) : cmp32 a b = cmpN a.rng b.rng := by
  unfold cmp32 cmpN R32.rng
  simp only [pred_iff]
  simp only [BitVec.le_def, BitVec.lt_def, ← BitVec.toNat_inj]

theorem memcmp_eq {a b : List Byte} (hl : a.length = b.length) : memcmp a b = compare (be a) (be b) := by
  induction a generalizing b with
  | nil => cases b with
    | nil => simp [memcmp, be, compare, compareOfLessAndEq]
    | cons => simp at hl
  | cons x a ih => cases b with
    | nil => simp at hl
    | cons y b =>
      simp only [List.length_cons, Nat.add_right_cancel_iff] at hl
      have h1 := be_lt a
      have h2 := be_lt b
      simp only [memcmp, be, hl, BitVec.lt_def]
      rw [hl] at h1
      generalize hP : 256 ^ b.length = P at *
      by_cases hxy : x.toNat < y.toNat
      · rw [if_pos hxy]
        have : (x.toNat + 1) * P ≤ y.toNat * P := Nat.mul_le_mul_right _ hxy
        rw [Nat.add_mul] at this
        exact (Nat.compare_eq_lt.2 (by omega)).symm
      · rw [if_neg hxy]
        by_cases hyx : y.toNat < x.toNat
        · rw [if_pos hyx]
          have : (y.toNat + 1) * P ≤ x.toNat * P := Nat.mul_le_mul_right _ hyx
          rw [Nat.add_mul] at this
          exact (Nat.compare_eq_gt.2 (by omega)).symm
        · rw [if_neg hyx, ih hl]
          have : x.toNat = y.toNat := by omega
          rw [this]
          simp only [compare, compareOfLessAndEq]
          congr 1
          · simp
          · simp

theorem addrEquals_iff {a b : In6} (ha : a.length = 16) (hb : b.length = 16) :
    addrEquals a b = true ↔ be a = be b := by
  unfold addrEquals
  rw [memcmp_eq (by rw [ha, hb])]
  simp

theorem addrLe_iff {a b : In6} (ha : a.length = 16) (hb : b.length = 16) :
    addrLe a b = true ↔ be a ≤ be b := by
  unfold addrLe
  rw [memcmp_eq (by rw [ha, hb])]
  simp only [bne_iff_ne, ne_eq, Nat.compare_eq_gt]
  omega

theorem addrLt_iff {a b : In6} (ha : a.length = 16) (hb : b.length = 16) :
    addrLt a b = true ↔ be a < be b := by
  unfold addrLt
  rw [memcmp_eq (by rw [ha, hb])]
  simp only [beq_iff_eq, Nat.compare_eq_lt]

theorem modify_mid {α} (p : List α) (b : α) (t : List α) (f : α → α) :
    (p ++ b :: t).modify p.length f = p ++ f b :: t := by
  induction p with
  | nil => simp [List.modify_cons]
  | cons x p ih => simp [List.modify_cons, ih]

theorem incrAddr_spec (i : Nat) : ∀ (p : List Byte) (k : Nat), p.length = i →
    (∀ c, incrAddr (p ++ List.replicate k 0) i = some c → c.length = i + k ∧ be c = (be p + 1) * 256 ^ k) ∧
    (incrAddr (p ++ List.replicate k 0) i = none → be p + 1 = 256 ^ i) := by
  induction i with
  | zero =>
    intro p k hp
    have : p = [] := List.eq_nil_of_length_eq_zero hp
    subst this
    simp [incrAddr, be]
  | succ i ih =>
    intro p k hp
    obtain ⟨p', b, rfl⟩ : ∃ p' b, p = p' ++ [b] := by
      rcases List.eq_nil_or_concat p with h | ⟨l, b, h⟩
      · subst h; simp at hp
      · exact ⟨l, b, by simpa using h⟩
    have hp' : p'.length = i := by simpa using hp
    simp only [incrAddr, List.append_assoc, List.singleton_append]
    have hget : (p' ++ b :: List.replicate k 0).getD i 0 = b := by
      rw [← hp']; simp
    rw [hget]
    by_cases hb : b = 255
    · rw [if_neg (by simpa using hb)]
      have hset : (p' ++ b :: List.replicate k 0).set i 0 = p' ++ List.replicate (k + 1) 0 := by
        rw [← hp', List.set_append_right _ _ (Nat.le_refl _), Nat.sub_self, List.set_cons_zero, List.replicate_succ]
      rw [hset]
      obtain ⟨h1, h2⟩ := ih p' (k + 1) hp'
      subst hb
      refine ⟨fun c hc => ?_, fun hc => ?_⟩
      · obtain ⟨h3, h4⟩ := h1 c hc
        refine ⟨by omega, ?_⟩
        rw [h4, be_append]
        simp [be]
        rw [Nat.pow_succ, Nat.mul_comm (256 ^ k) 256, ← Nat.mul_assoc, Nat.add_mul]
      · have := h2 hc
        rw [be_append]
        simp [be]
        rw [Nat.pow_succ]
        omega
    · rw [if_pos (by simpa using hb)]
      have hmod : (p' ++ b :: List.replicate k 0).modify i (· + 1) = p' ++ (b + 1) :: List.replicate k 0 := by
        rw [← hp', modify_mid]
      rw [hmod]
      refine ⟨fun c hc => ?_, fun hc => by cases hc⟩
      simp only [Option.some.injEq] at hc
      subst hc
      refine ⟨by simp; omega, ?_⟩
      have hb1 : (b + 1).toNat = b.toNat + 1 := by
        have := b.isLt
        have : b.toNat ≠ 255 := fun h => hb (BitVec.eq_of_toNat_eq (by simpa using h))
        rw [BitVec.toNat_add]
        simp
        omega
      have e := be_zeros k
      have e' : (List.replicate k (0 : Byte)).length = k := List.length_replicate
      rw [be_append, be_append]
      generalize List.replicate k (0 : Byte) = z at e e'
      simp only [be, List.length_cons, e, e', hb1, List.length_nil]
      rw [Nat.pow_succ, Nat.mul_comm (256 ^ k) 256, ← Nat.mul_assoc]
      simp only [Nat.add_mul, Nat.zero_add, Nat.pow_one, Nat.pow_zero, Nat.mul_one, Nat.one_mul, Nat.add_zero]
      omega

theorem successor_iff {a b : In6} (ha : a.length = 16) (hb : b.length = 16) :
    addrIsSuccessor a b = true ↔ be a + 1 = be b := by
  unfold addrIsSuccessor
  have := incrAddr_spec 16 a 0 ha
  simp only [List.replicate_zero, List.append_nil, Nat.pow_zero, Nat.mul_one, Nat.add_zero] at this
  obtain ⟨h1, h2⟩ := this
  cases hc : incrAddr a 16 with
  | none =>
    have := h2 hc
    have hlt := be_lt b
    rw [hb] at hlt
    simp; omega
  | some c =>
    obtain ⟨h3, h4⟩ := h1 c hc
    simp only
    rw [memcmp_eq (by rw [h3, hb])]
    simp [h4]

theorem cmp6_eq {a b : R6} (ha : a.WF) (hb : b.WF) : cmp6 a b = cmpN a.rng b.rng := by
  obtain ⟨a1, a2⟩ := ha
  obtain ⟨b1, b2⟩ := hb
  unfold cmp6 cmpN R6.rng
  simp only [Bool.and_eq_true, addrEquals_iff a1 b1, addrEquals_iff a2 b2, addrLe_iff a1 b1, addrLe_iff b2 a2,
    addrLe_iff b1 a1, addrLe_iff a2 b2, successor_iff a2 b1, successor_iff b2 a1, addrLt_iff a2 b1, addrLt_iff b2 a1]

/-! ### Sets of ranges -/

theorem Canonical.tail {r : Rng} {l : List Rng} (h : Canonical (r :: l)) : Canonical l := by
  cases l with
  | nil => trivial
  | cons s l => exact h.2.2

theorem Canonical.head {r : Rng} {l : List Rng} (h : Canonical (r :: l)) : r.min ≤ r.max := by
  cases l with
  | nil => exact h
  | cons s l => exact h.1

theorem Canonical.gap {r : Rng} {l : List Rng} (h : Canonical (r :: l)) : ∀ s ∈ l, r.max + 1 < s.min := by
  induction l generalizing r with
  | nil => simp
  | cons s l ih =>
    intro t ht
    rcases List.mem_cons.1 ht with rfl | ht
    · exact h.2.1
    · have h1 := ih h.2.2 t ht
      have h2 := h.2.2.head
      have := h.2.1
      omega

/-- Canonical lists, with indexes. -/
theorem canonical_get {l : List Rng} (h : Canonical l) {i j : Nat} {a b : Rng} (hij : i < j) (ha : l[i]? = some a)
    (hb : l[j]? = some b) : a.max + 1 < b.min := by
  induction l generalizing i j with
  | nil => simp at ha
  | cons r l ih =>
    cases j with
    | zero => omega
    | succ j =>
      simp only [List.getElem?_cons_succ] at hb
      cases i with
      | zero =>
        simp only [List.getElem?_cons_zero, Option.some.injEq] at ha
        subst ha
        exact h.gap b (List.mem_of_getElem? hb)
      | succ i => exact ih h.tail (i := i) (j := j) (by omega) (by simpa using ha) hb

theorem canonical_mem {l : List Rng} (h : Canonical l) : ∀ r ∈ l, r.min ≤ r.max := by
  induction l with
  | nil => simp
  | cons r l ih =>
    intro s hs
    rcases List.mem_cons.1 hs with rfl | hs
    · exact h.head
    · exact ih h.tail s hs

theorem canonical_append {l : List Rng} {x : Rng} :
    Canonical (l ++ [x]) ↔ Canonical l ∧ x.min ≤ x.max ∧ ∀ last, l.getLast? = some last → last.max + 1 < x.min := by
  induction l with
  | nil => simp [Canonical]
  | cons r l ih =>
    cases l with
    | nil => simp [Canonical]; omega
    | cons s l =>
      simp only [List.cons_append] at ih ⊢
      simp only [Canonical]
      rw [ih]
      simp only [List.getLast?_cons_cons]
      constructor
      · rintro ⟨h1, h2, h3, h4⟩; exact ⟨⟨h1, h2, h3⟩, h4⟩
      · rintro ⟨⟨h1, h2, h3⟩, h4⟩; exact ⟨h1, h2, h3, h4⟩

theorem cmpN_right {a x : Rng} (ha : a.min ≤ a.max) (hx : x.min ≤ x.max) :
    cmpN a x = .right ↔ a.max + 1 < x.min := by
  unfold cmpN
  repeat' split
  all_goals simp
  all_goals omega

/-- In a canonical set, a range of numbers is covered by the set only if it is inside one of its ranges. -/
theorem covered_iff {l : List Rng} (h : Canonical l) {x : Rng} (hx : x.min ≤ x.max) :
    (∀ n, x.Has n → Covered l n) ↔ ∃ r ∈ l, r.min ≤ x.min ∧ x.max ≤ r.max := by
  constructor
  · intro hc
    induction l with
    | nil => obtain ⟨r, hr, _⟩ := hc x.min ⟨Nat.le_refl _, hx⟩; cases hr
    | cons r l ih =>
      have hg := h.gap
      by_cases h1 : x.min ≤ r.max
      · -- then all of x is in r: the successor of r.max is in no range
        obtain ⟨s, hs, hsn⟩ := hc x.min ⟨Nat.le_refl _, hx⟩
        have hrm : r.min ≤ x.min := by
          rcases List.mem_cons.1 hs with rfl | hs
          · exact hsn.1
          · have := hg s hs; have := hsn.1; omega
        refine ⟨r, List.mem_cons_self, hrm, ?_⟩
        apply Classical.byContradiction
        intro hgt
        obtain ⟨t, ht, htn⟩ := hc (r.max + 1) ⟨by omega, by omega⟩
        rcases List.mem_cons.1 ht with rfl | ht
        · have := htn.2; omega
        · have := hg t ht; have := htn.1; omega
      · obtain ⟨s, hs, h2⟩ := ih h.tail (fun n hn => by
          obtain ⟨s, hs, hsn⟩ := hc n hn
          rcases List.mem_cons.1 hs with rfl | hs
          · have := hsn.2; have := hn.1; omega
          · exact ⟨s, hs, hsn⟩)
        exact ⟨s, List.mem_cons_of_mem _ hs, h2⟩
  · rintro ⟨r, hr, h1, h2⟩ n ⟨h3, h4⟩
    exact ⟨r, hr, by omega, by omega⟩

/-- A comparison function that means `cmpN`. -/
def CmpLaw {α} (ok : α → Prop) (cmp : α → α → Cmp) (val : α → Rng) : Prop :=
  ∀ a b, ok a → ok b → cmp a b = cmpN (val a) (val b)

theorem law32 : CmpLaw (fun _ => True) cmp32 R32.rng := fun a b _ _ => cmp32_eq a b
theorem law6 : CmpLaw R6.WF cmp6 R6.rng := fun _ _ ha hb => cmp6_eq ha hb

theorem sarraySearch_spec {α} {ok : α → Prop} {cmp : α → α → Cmp} {val : α → Rng} (law : CmpLaw ok cmp val)
    {l : List α} (hok : ∀ a ∈ l, ok a) (hcan : Canonical (l.map val)) {x : α} (hx : ok x)
    (hxi : (val x).min ≤ (val x).max) (left right : Nat) (hr : right < l.length)
    (inv : ∀ (i : Nat) r, l[i]? = some r → (val r).min ≤ (val x).min → (val x).max ≤ (val r).max → left ≤ i ∧ i ≤ right) :
    ∃ b, sarraySearch cmp l x left right = some b ∧
      (b = true ↔ ∃ r ∈ l, (val r).min ≤ (val x).min ∧ (val x).max ≤ (val r).max) := by
  have none_found : (∀ (i : Nat) r, l[i]? = some r → (val r).min ≤ (val x).min → (val x).max ≤ (val r).max → False) →
      ¬ ∃ r ∈ l, (val r).min ≤ (val x).min ∧ (val x).max ≤ (val r).max := by
    rintro h ⟨r, hr, h1, h2⟩
    obtain ⟨i, hi⟩ := List.mem_iff_getElem?.1 hr
    exact h i r hi h1 h2
  have getv : ∀ (i : Nat) r, l[i]? = some r → (l.map val)[i]? = some (val r) := by
    intro i r h; rw [List.getElem?_map, h]; rfl
  induction hn : right + 1 - left using Nat.strongRecOn generalizing left right with
  | _ n ih =>
    unfold sarraySearch
    by_cases hlr : left ≤ right
    · rw [dif_pos hlr]
      generalize hm : left + (right - left) / 2 = mid
      have hmid : left ≤ mid ∧ mid ≤ right := by omega
      obtain ⟨e, he⟩ : ∃ e, l[mid]? = some e := ⟨_, List.getElem?_eq_getElem (by omega)⟩
      simp only [he]
      have hem : e ∈ l := List.mem_of_getElem? he
      have hcmp := law e x (hok e hem) hx
      have hei := canonical_mem hcan (val e) (List.mem_map_of_mem hem)
      have before : ∀ (i : Nat) r, l[i]? = some r → i < mid → (val r).max + 1 < (val e).min :=
        fun i r h1 h2 => canonical_get hcan h2 (getv i r h1) (getv mid e he)
      have after : ∀ (i : Nat) r, l[i]? = some r → mid < i → (val e).max + 1 < (val r).min :=
        fun i r h1 h2 => canonical_get hcan h2 (getv mid e he) (getv i r h1)
      have go_left : (val x).max < (val e).min → ∀ (i : Nat) r, l[i]? = some r → (val r).min ≤ (val x).min →
          (val x).max ≤ (val r).max → left ≤ i ∧ i < mid := by
        intro hlt i r h1 h2 h3
        have := inv i r h1 h2 h3
        refine ⟨this.1, ?_⟩
        apply Classical.byContradiction
        intro hge
        by_cases hi : i = mid
        · subst hi; rw [he] at h1; cases h1; omega
        · have := after i r h1 (by omega); omega
      have go_right : (val e).max < (val x).min → ∀ (i : Nat) r, l[i]? = some r → (val r).min ≤ (val x).min →
          (val x).max ≤ (val r).max → mid < i ∧ i ≤ right := by
        intro hlt i r h1 h2 h3
        have := inv i r h1 h2 h3
        refine ⟨?_, this.2⟩
        apply Classical.byContradiction
        intro hge
        by_cases hi : i = mid
        · subst hi; rw [he] at h1; cases h1; omega
        · have := before i r h1 (by omega); omega
      have case_left : (val x).max < (val e).min →
          ∃ b, (if mid = 0 then some false else sarraySearch cmp l x left (mid - 1)) = some b ∧
          (b = true ↔ ∃ r ∈ l, (val r).min ≤ (val x).min ∧ (val x).max ≤ (val r).max) := by
        intro hlt
        by_cases h0 : mid = 0
        · rw [if_pos h0]
          refine ⟨false, rfl, by simp only [Bool.false_eq_true, false_iff]; apply none_found; intro i r h1 h2 h3; have := go_left hlt i r h1 h2 h3; omega⟩
        · rw [if_neg h0]
          exact ih (mid - 1 + 1 - left) (by omega) left (mid - 1) (by omega)
            (fun i r h1 h2 h3 => by have := go_left hlt i r h1 h2 h3; omega) rfl
      have case_right : (val e).max < (val x).min →
          ∃ b, (if mid = l.length - 1 then some false else sarraySearch cmp l x (mid + 1) right) = some b ∧
          (b = true ↔ ∃ r ∈ l, (val r).min ≤ (val x).min ∧ (val x).max ≤ (val r).max) := by
        intro hlt
        by_cases h0 : mid = l.length - 1
        · rw [if_pos h0]
          refine ⟨false, rfl, by simp only [Bool.false_eq_true, false_iff]; apply none_found; intro i r h1 h2 h3; have := go_right hlt i r h1 h2 h3; omega⟩
        · rw [if_neg h0]
          exact ih (right + 1 - (mid + 1)) (by omega) (mid + 1) right (by omega)
            (fun i r h1 h2 h3 => by have := go_right hlt i r h1 h2 h3; omega) rfl
      have not_inside : ¬ ((val e).min ≤ (val x).min ∧ (val x).max ≤ (val e).max) → (val x).min ≤ (val e).max →
          (val e).min ≤ (val x).max → ¬ ∃ r ∈ l, (val r).min ≤ (val x).min ∧ (val x).max ≤ (val r).max := by
        intro h1 h2 h3
        apply none_found
        intro i r hir h4 h5
        rcases Nat.lt_trichotomy i mid with hi | hi | hi
        · have := before i r hir hi; omega
        · subst hi; rw [he] at hir; cases hir; exact h1 ⟨h4, h5⟩
        · have := after i r hir hi; omega
      rw [hcmp]
      unfold cmpN
      by_cases c1 : (val e).min = (val x).min ∧ (val e).max = (val x).max
      · rw [if_pos c1]; exact ⟨true, rfl, by simp only [true_iff]; exact ⟨e, hem, by omega, by omega⟩⟩
      rw [if_neg c1]
      by_cases c2 : (val e).min ≤ (val x).min ∧ (val x).max ≤ (val e).max
      · rw [if_pos c2]; exact ⟨true, rfl, by simp only [true_iff]; exact ⟨e, hem, c2⟩⟩
      rw [if_neg c2]
      by_cases c3 : (val x).min ≤ (val e).min ∧ (val e).max ≤ (val x).max
      · rw [if_pos c3]
        exact ⟨false, rfl, by simp only [Bool.false_eq_true, false_iff]; exact not_inside c2 (by omega) (by omega)⟩
      rw [if_neg c3]
      by_cases c4 : (val e).max + 1 = (val x).min
      · rw [if_pos c4]; exact case_right (by omega)
      rw [if_neg c4]
      by_cases c5 : (val e).max < (val x).min
      · rw [if_pos c5]; exact case_right c5
      rw [if_neg c5]
      by_cases c6 : (val x).max + 1 = (val e).min
      · rw [if_pos c6]; exact case_left (by omega)
      rw [if_neg c6]
      by_cases c7 : (val x).max < (val e).min
      · rw [if_pos c7]; exact case_left c7
      rw [if_neg c7]
      exact ⟨false, rfl, by simp only [Bool.false_eq_true, false_iff]; exact not_inside c2 (by omega) (by omega)⟩
    · rw [dif_neg hlr]
      refine ⟨false, rfl, by simp only [Bool.false_eq_true, false_iff]; apply none_found; intro i r h1 h2 h3; have := inv i r h1 h2 h3; omega⟩

end Verif.Res
