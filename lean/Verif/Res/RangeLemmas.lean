import Verif.Res.AddrLemmas
/-
Lemmas about the encoding check of ranges.
-/
namespace Verif.Res

/-- `firstDiff` on numbers of any size. -/
def firstDiffN (m n : Nat) : Nat → Nat
  | 0 => 0
  | k + 1 => if m.testBit k ≠ n.testBit k then k + 1 else firstDiffN m n k

/-- `findsRange` on numbers of any size. -/
def findsN (m n : Nat) : Nat → Bool
  | 0 => false
  | k + 1 => if m.testBit k = true ∨ n.testBit k = false then true else findsN m n k

theorem firstDiffN_le (m n k : Nat) : firstDiffN m n k ≤ k := by
  induction k with
  | zero => simp [firstDiffN]
  | succ k ih => simp only [firstDiffN]; split <;> omega

theorem firstDiffN_high (m n k j : Nat) (h1 : firstDiffN m n k ≤ j) (h2 : j < k) : m.testBit j = n.testBit j := by
  induction k with
  | zero => omega
  | succ k ih =>
    simp only [firstDiffN] at h1
    by_cases h : m.testBit k = n.testBit k
    · rw [if_neg (by simpa using h)] at h1
      by_cases hj : j = k
      · subst hj; exact h
      · exact ih h1 (by omega)
    · rw [if_pos (by simpa using h)] at h1; omega

theorem firstDiffN_diff (m n k : Nat) (h : firstDiffN m n k ≠ 0) :
    m.testBit (firstDiffN m n k - 1) ≠ n.testBit (firstDiffN m n k - 1) := by
  induction k with
  | zero => simp [firstDiffN] at h
  | succ k ih =>
    simp only [firstDiffN] at h ⊢
    by_cases hb : m.testBit k = n.testBit k
    · rw [if_neg (by simpa using hb)] at h ⊢; exact ih h
    · rw [if_pos (by simpa using hb)]; simpa using hb

theorem firstDiffN_eq (m n k e : Nat) (he : e ≤ k) (heq : ∀ j, e ≤ j → j < k → m.testBit j = n.testBit j)
    (hd : e ≠ 0 → m.testBit (e - 1) ≠ n.testBit (e - 1)) : firstDiffN m n k = e := by
  induction k with
  | zero => simp [firstDiffN]; omega
  | succ k ih =>
    simp only [firstDiffN]
    by_cases h : e = k + 1
    · rw [if_pos]
      · exact h.symm
      · have := hd (by omega); rwa [h, Nat.add_sub_cancel] at this
    · rw [if_neg (by simpa using heq k (by omega) (by omega))]
      exact ih (by omega) (fun j h1 h2 => heq j h1 (by omega))

theorem findsN_false_iff (m n k : Nat) :
    findsN m n k = false ↔ ∀ j, j < k → m.testBit j = false ∧ n.testBit j = true := by
  induction k with
  | zero => simp [findsN]
  | succ k ih =>
    simp only [findsN]
    by_cases h : m.testBit k = true ∨ n.testBit k = false
    · rw [if_pos h]
      simp only [Bool.true_eq_false, false_iff]
      intro hc
      have := hc k (by omega)
      rcases h with h | h <;> simp [h] at this
    · rw [if_neg h, ih]
      constructor
      · intro hc j hj
        by_cases hjk : j = k
        · subst hjk; simpa using h
        · exact hc j (by omega)
      · exact fun hc j hj => hc j (by omega)

theorem testBit_add_mask {x e : Nat} (j : Nat) :
    (2 ^ e * x + (2 ^ e - 1)).testBit j = if j < e then true else x.testBit (j - e) := by
  rw [Nat.testBit_two_pow_mul_add _ (by have := Nat.two_pow_pos e; omega)]
  split
  · rename_i h; rw [Nat.testBit_two_pow_sub_one]; simpa using h
  · rfl

theorem testBit_mul {x e : Nat} (j : Nat) :
    (2 ^ e * x).testBit j = if j < e then false else x.testBit (j - e) := by
  have := Nat.testBit_two_pow_mul_add x (b := 0) (Nat.two_pow_pos e) j
  simp only [Nat.add_zero, Nat.zero_testBit] at this
  exact this

/-- The check finds out whether a range is a prefix. -/
theorem encN_iff {w m n : Nat} (hm : m < 2 ^ w) (hn : n < 2 ^ w) :
    findsN m n (firstDiffN m n w) = false ↔ ∃ len, IsPrefix w len m n := by
  constructor
  · intro h
    rw [findsN_false_iff] at h
    have hle := firstDiffN_le m n w
    have hhi := firstDiffN_high m n w
    generalize firstDiffN m n w = d at *
    refine ⟨w - d, by omega, ?_⟩
    have e : w - (w - d) = d := by omega
    rw [e]
    have em : m = 2 ^ d * (m / 2 ^ d) := by
      apply Nat.eq_of_testBit_eq
      intro j
      rw [testBit_mul]
      split
      · rename_i hj; exact (h j hj).1
      · rw [Nat.testBit_div_two_pow]; congr 1; omega
    have en : n = 2 ^ d * (m / 2 ^ d) + (2 ^ d - 1) := by
      apply Nat.eq_of_testBit_eq
      intro j
      rw [testBit_add_mask]
      split
      · rename_i hj; exact (h j hj).2
      · rename_i hj
        rw [Nat.testBit_div_two_pow]
        have : j - d + d = j := by omega
        rw [this]
        by_cases hw : j < w
        · exact (hhi j (by omega) hw).symm
        · have hp : 2 ^ w ≤ 2 ^ j := Nat.pow_le_pow_right (by omega) (by omega)
          rw [Nat.testBit_lt_two_pow (by omega), Nat.testBit_lt_two_pow (by omega)]
    exact ⟨⟨_, em⟩, by rw [← em] at en; exact en⟩
  · rintro ⟨len, hl, ⟨x, rfl⟩, hx⟩
    have hf : firstDiffN (2 ^ (w - len) * x) n w = w - len := by
      apply firstDiffN_eq
      · omega
      · intro j h1 _
        rw [hx, testBit_add_mask, testBit_mul, if_neg (by omega), if_neg (by omega)]
      · intro h0
        rw [hx, testBit_add_mask, testBit_mul, if_pos (by omega), if_pos (by omega)]
        simp
    rw [hf, findsN_false_iff]
    intro j hj
    rw [hx, testBit_add_mask, testBit_mul, if_pos hj, if_pos hj]
    simp

/-! ### 32 bits -/

theorem and_twoPow_ne {x y : BitVec 32} {k : Nat} (hk : k < 32) :
    ((x &&& BitVec.twoPow 32 k) ≠ (y &&& BitVec.twoPow 32 k)) ↔ x.toNat.testBit k ≠ y.toNat.testBit k := by
  rw [BitVec.and_twoPow, BitVec.and_twoPow, BitVec.testBit_toNat, BitVec.testBit_toNat]
  have h0 : BitVec.twoPow 32 k ≠ 0#32 := by
    intro h
    have := congrArg (fun b => b.getLsbD k) h
    simp [hk] at this
  cases x.getLsbD k <;> cases y.getLsbD k <;> simp [h0, Ne.symm h0]

theorem and_twoPow_zero {x : BitVec 32} {k : Nat} (hk : k < 32) :
    (x &&& BitVec.twoPow 32 k) = 0 ↔ x.toNat.testBit k = false := by
  rw [BitVec.and_twoPow, BitVec.testBit_toNat]
  have h0 : BitVec.twoPow 32 k ≠ 0#32 := by
    intro h
    have := congrArg (fun b => b.getLsbD k) h
    simp [hk] at this
  cases x.getLsbD k <;> simp [h0]

theorem firstDiff_eq (x y : BitVec 32) (k : Nat) (hk : k ≤ 32) : firstDiff x y k = firstDiffN x.toNat y.toNat k := by
  induction k with
  | zero => rfl
  | succ k ih => simp only [firstDiff, firstDiffN, and_twoPow_ne (show k < 32 by omega), ih (by omega)]

theorem findsRange_eq (x y : BitVec 32) (k : Nat) (hk : k ≤ 32) : findsRange x y k = findsN x.toNat y.toNat k := by
  induction k with
  | zero => rfl
  | succ k ih =>
    simp only [findsRange, findsN, ih (by omega), ne_eq, and_twoPow_zero (show k < 32 by omega), Bool.not_eq_false]

theorem checkEncoding4_iff (x y : BitVec 32) :
    checkEncoding4 x y = true ↔ ¬ ∃ len, IsPrefix 32 len x.toNat y.toNat := by
  unfold checkEncoding4
  rw [firstDiff_eq _ _ _ (by omega), findsRange_eq _ _ _ (firstDiffN_le _ _ _), ← encN_iff x.isLt y.isLt]
  simp

/-! ### 128 bits, in quadrants -/

theorem testBit_quadrant {m k j : Nat} (hj : j < 32) : (m / 2 ^ k % 2 ^ 32).testBit j = m.testBit (k + j) := by
  rw [Nat.testBit_mod_two_pow, Nat.testBit_div_two_pow, Nat.add_comm k j]
  simp [hj]

theorem firstDiffN_quadrant (m n k j : Nat) (hj : j ≤ 32) :
    firstDiffN m n (k + j) =
      if firstDiffN (m / 2 ^ k % 2 ^ 32) (n / 2 ^ k % 2 ^ 32) j ≠ 0
      then k + firstDiffN (m / 2 ^ k % 2 ^ 32) (n / 2 ^ k % 2 ^ 32) j else firstDiffN m n k := by
  induction j with
  | zero => simp [firstDiffN]
  | succ j ih =>
    rw [← Nat.add_assoc]
    simp only [firstDiffN, testBit_quadrant (show j < 32 by omega)]
    by_cases h : m.testBit (k + j) = n.testBit (k + j)
    · simp only [h, ne_eq, not_true_eq_false, if_false]
      exact ih (by omega)
    · simp [h]; omega

theorem findsN_quadrant (m n k j : Nat) (hj : j ≤ 32) :
    findsN m n (k + j) = (findsN (m / 2 ^ k % 2 ^ 32) (n / 2 ^ k % 2 ^ 32) j || findsN m n k) := by
  induction j with
  | zero => simp [findsN]
  | succ j ih =>
    rw [← Nat.add_assoc]
    simp only [findsN, testBit_quadrant (show j < 32 by omega)]
    split
    · simp
    · exact ih (by omega)

theorem getQuadrant_toNat (b0 b1 b2 b3 : Byte) :
    ((b0.setWidth 32 <<< 24) ||| (b1.setWidth 32 <<< 16) ||| (b2.setWidth 32 <<< 8) ||| b3.setWidth 32).toNat =
      be [b0, b1, b2, b3] := by
  have e : ((b0.setWidth 32 <<< 24) ||| (b1.setWidth 32 <<< 16) ||| (b2.setWidth 32 <<< 8) ||| b3.setWidth 32 : BitVec 32) =
      [b0, b1, b2, b3].foldl (fun (a : BitVec 32) (b : Byte) => (a <<< 8) ||| b.setWidth 32) 0 := by
    simp only [List.foldl_cons, List.foldl_nil]
    apply BitVec.eq_of_getLsbD_eq
    intro i hi
    simp only [BitVec.getLsbD_or, BitVec.getLsbD_shiftLeft, BitVec.getLsbD_setWidth, BitVec.getLsbD_ofNat]
    by_cases h1 : i < 8
    · simp [h1, hi, show i < 16 by omega, show i < 24 by omega]
    · by_cases h2 : i < 16
      · simp [h1, h2, hi, show i < 24 by omega, show i - 8 < 8 by omega, show i - 8 < 32 by omega]
      · by_cases h3 : i < 24
        · simp [h1, h2, h3, hi, show ¬ i - 8 < 8 by omega, show i - 8 - 8 < 8 by omega, show i - 8 - 8 < 32 by omega,
            show i - 8 < 32 by omega, show i - 16 = i - 8 - 8 by omega]
        · simp [h1, h2, h3, hi, show ¬ i - 8 < 8 by omega, show ¬ i - 8 - 8 < 8 by omega, show i - 8 - 8 < 32 by omega,
            show i - 8 < 32 by omega, show i - 16 = i - 8 - 8 by omega, show i - 24 = i - 8 - 8 - 8 by omega,
            show i - 8 - 8 - 8 < 32 by omega]
  rw [e, fold_be _ _ 0 (by simp) (by simp)]
  simp

theorem quadrant_be {a : In6} (ha : a.length = 16) {q : Nat} (hq : q < 4) :
    (getQuadrant a q).toNat = be a / 2 ^ (96 - 32 * q) % 2 ^ 32 := by
  obtain ⟨a0, a1, a2, a3, a4, a5, a6, a7, a8, a9, a10, a11, a12, a13, a14, a15, rfl⟩ := exists16 ha
  unfold getQuadrant
  rw [getQuadrant_toNat]
  have := a0.isLt; have := a1.isLt; have := a2.isLt; have := a3.isLt; have := a4.isLt; have := a5.isLt
  have := a6.isLt; have := a7.isLt; have := a8.isLt; have := a9.isLt; have := a10.isLt; have := a11.isLt
  have := a12.isLt; have := a13.isLt; have := a14.isLt; have := a15.isLt
  match q, hq with
  | 0, _ => simp [be]; omega
  | 1, _ => simp [be]; omega
  | 2, _ => simp [be]; omega
  | 3, _ => simp [be]; omega

theorem checkEncoding6Tail_eq {a b : In6} (ha : a.length = 16) (hb : b.length = 16) (n q k : Nat) (hq : q + n = 4)
    (hk : k ≤ 32) (hn : n ≠ 0) : checkEncoding6Tail a b n q k = findsN (be a) (be b) (32 * (n - 1) + k) := by
  induction n generalizing q k with
  | zero => omega
  | succ n ih =>
    simp only [checkEncoding6Tail]
    rw [findsN_quadrant _ _ _ _ hk, findsRange_eq _ _ _ hk, quadrant_be ha (by omega), quadrant_be hb (by omega)]
    have e : 96 - 32 * q = 32 * (n + 1 - 1) := by omega
    rw [e]
    cases n with
    | zero => simp [checkEncoding6Tail, findsN]
    | succ n =>
      rw [ih (q + 1) 32 (by omega) (by omega) (by omega)]
      have : 32 * (n + 1 - 1) + 32 = 32 * (n + 1 + 1 - 1) := by omega
      rw [this]
      split <;> simp_all

theorem checkEncoding6_eq {a b : In6} (ha : a.length = 16) (hb : b.length = 16) (n q : Nat) (hq : q + n = 4) :
    checkEncoding6 a b n q = findsN (be a) (be b) (firstDiffN (be a) (be b) (32 * n)) := by
  induction n generalizing q with
  | zero => simp [checkEncoding6, firstDiffN, findsN]
  | succ n ih =>
    simp only [checkEncoding6]
    have e : 96 - 32 * q = 32 * n := by omega
    have hd := firstDiffN_quadrant (be a) (be b) (32 * n) 32 (by omega)
    rw [firstDiff_eq _ _ _ (by omega), quadrant_be ha (by omega), quadrant_be hb (by omega), e]
    rw [Nat.mul_succ, hd]
    split
    · rw [checkEncoding6Tail_eq ha hb _ _ _ hq (firstDiffN_le _ _ _) (by omega)]; rfl
    · exact ih (q + 1) (by omega)

theorem be_lt128 {a : In6} (ha : a.length = 16) : be a < 2 ^ 128 := by
  have := be_lt a
  rw [ha] at this
  exact this

theorem checkEncoding6_iff {a b : In6} (ha : a.length = 16) (hb : b.length = 16) :
    checkEncoding6 a b 4 0 = true ↔ ¬ ∃ len, IsPrefix 128 len (be a) (be b) := by
  rw [checkEncoding6_eq ha hb 4 0 rfl, ← encN_iff (be_lt128 ha) (be_lt128 hb)]
  simp

theorem checkOrder6_iff {a b : In6} (ha : a.length = 16) (hb : b.length = 16) :
    checkOrder6 a b 4 0 = true ↔ be a ≤ be b := by
  simp only [checkOrder6, GT.gt, BitVec.lt_def, quadrant_be ha (show 0 < 4 by omega), quadrant_be ha (show 0 + 1 < 4 by omega),
    quadrant_be ha (show 0 + 1 + 1 < 4 by omega), quadrant_be ha (show 0 + 1 + 1 + 1 < 4 by omega),
    quadrant_be hb (show 0 < 4 by omega), quadrant_be hb (show 0 + 1 < 4 by omega),
    quadrant_be hb (show 0 + 1 + 1 < 4 by omega), quadrant_be hb (show 0 + 1 + 1 + 1 < 4 by omega)]
  have h1 := be_lt128 ha
  have h2 := be_lt128 hb
  generalize be a = m at *
  generalize be b = n at *
  simp only [Nat.reduceMul, Nat.reduceSub, Nat.reduceAdd, Nat.reducePow] at *
  repeat' split
  all_goals simp
  all_goals omega

end Verif.Res
