import Verif.Res.ModelAddr
/-
Lemmas about the address functions: their meaning in numbers.
-/
namespace Verif.Res

theorem be_lt (l : List Byte) : be l < 256 ^ l.length := by
  induction l with
  | nil => simp [be]
  | cons b l ih =>
    simp only [be, List.length_cons, Nat.pow_succ]
    have := b.isLt
    have h2 : b.toNat * 256 ^ l.length ≤ 255 * 256 ^ l.length := Nat.mul_le_mul_right _ (by omega)
    omega

theorem be_append (a b : List Byte) : be (a ++ b) = be a * 256 ^ b.length + be b := by
  induction a with
  | nil => simp [be]
  | cons x a ih =>
    simp only [List.cons_append, be, ih, List.length_append, Nat.pow_add, Nat.add_mul, Nat.mul_assoc, Nat.add_assoc]

theorem be_zeros (n : Nat) : be (List.replicate n 0) = 0 := by
  induction n with
  | zero => simp [be]
  | succ n ih => rw [List.replicate_succ, be, ih]; simp

theorem be_inj {a b : List Byte} (hl : a.length = b.length) (h : be a = be b) : a = b := by
  induction a generalizing b with
  | nil => cases b with
    | nil => rfl
    | cons => simp at hl
  | cons x a ih => cases b with
    | nil => simp at hl
    | cons y b =>
      simp only [List.length_cons, Nat.add_right_cancel_iff] at hl
      simp only [be, hl] at h
      have ha := be_lt a
      have hb := be_lt b
      rw [hl] at ha
      have hp : 0 < 256 ^ b.length := Nat.pow_pos (by omega)
      have hxy : x.toNat = y.toNat := by
        have e1 : (x.toNat * 256 ^ b.length + be a) / 256 ^ b.length = x.toNat := by
          rw [Nat.mul_comm, Nat.mul_add_div hp, Nat.div_eq_of_lt ha, Nat.add_zero]
        have e2 : (y.toNat * 256 ^ b.length + be b) / 256 ^ b.length = y.toNat := by
          rw [Nat.mul_comm, Nat.mul_add_div hp, Nat.div_eq_of_lt hb, Nat.add_zero]
        rw [← e1, ← e2, h]
      rw [hxy] at h
      rw [BitVec.eq_of_toNat_eq hxy, ih hl (by omega)]

theorem or_split {i a b c d : Nat} (hb : b < 2 ^ i) (hd : d < 2 ^ i) :
    (2 ^ i * a + b) ||| (2 ^ i * c + d) = 2 ^ i * (a ||| c) + (b ||| d) := by
  apply Nat.eq_of_testBit_eq
  intro j
  have hor : b ||| d < 2 ^ i := Nat.or_lt_two_pow hb hd
  simp only [Nat.testBit_or, Nat.testBit_two_pow_mul_add _ hb, Nat.testBit_two_pow_mul_add _ hd,
    Nat.testBit_two_pow_mul_add _ hor]
  by_cases h : j < i <;> simp [h]

theorem and_split {i a b c d : Nat} (hb : b < 2 ^ i) (hd : d < 2 ^ i) :
    (2 ^ i * a + b) &&& (2 ^ i * c + d) = 2 ^ i * (a &&& c) + (b &&& d) := by
  apply Nat.eq_of_testBit_eq
  intro j
  have hor : b &&& d < 2 ^ i := Nat.and_lt_two_pow _ hd
  simp only [Nat.testBit_and, Nat.testBit_two_pow_mul_add _ hb, Nat.testBit_two_pow_mul_add _ hd,
    Nat.testBit_two_pow_mul_add _ hor]
  by_cases h : j < i <;> simp [h]

theorem pow256 (n : Nat) : 256 ^ n = 2 ^ (8 * n) := by
  rw [Nat.pow_mul]

theorem be_or {a b : List Byte} (hl : a.length = b.length) :
    be (List.zipWith (· ||| ·) a b) = be a ||| be b := by
  induction a generalizing b with
  | nil => cases b with
    | nil => simp [be]
    | cons => simp at hl
  | cons x a ih => cases b with
    | nil => simp at hl
    | cons y b =>
      simp only [List.length_cons, Nat.add_right_cancel_iff] at hl
      have h1 := be_lt a
      have h2 := be_lt b
      simp only [List.zipWith_cons_cons, be, ih hl, List.length_zipWith, hl, Nat.min_self, BitVec.toNat_or]
      rw [hl] at h1
      rw [pow256] at h1 h2 ⊢
      rw [Nat.mul_comm x.toNat, Nat.mul_comm y.toNat, or_split h1 h2, Nat.mul_comm (x.toNat ||| y.toNat)]

theorem bitwiseAnd_iff {a b : List Byte} (hl : a.length = b.length) :
    bitwiseAnd a b = true ↔ be a &&& be b ≠ 0 := by
  induction a generalizing b with
  | nil => simp [bitwiseAnd, be]
  | cons x a ih => cases b with
    | nil => simp at hl
    | cons y b =>
      simp only [List.length_cons, Nat.add_right_cancel_iff] at hl
      have h1 := be_lt a
      have h2 := be_lt b
      rw [hl] at h1
      simp only [be, hl]
      rw [pow256] at h1 h2 ⊢
      rw [Nat.mul_comm x.toNat, Nat.mul_comm y.toNat, and_split h1 h2]
      simp only [bitwiseAnd]
      have hp : 0 < 2 ^ (8 * b.length) := Nat.two_pow_pos _
      by_cases h : x &&& y = 0
      · have : x.toNat &&& y.toNat = 0 := by rw [← BitVec.toNat_and, h]; rfl
        simp [h, this, ih hl]
      · have : x.toNat &&& y.toNat ≠ 0 := by
          rw [← BitVec.toNat_and]; intro h0; apply h; exact BitVec.eq_of_toNat_eq (by simpa using h0)
        simp only [ne_eq, h, not_false_eq_true, if_true, true_iff]
        have : 0 < 2 ^ (8 * b.length) * (x.toNat &&& y.toNat) := Nat.mul_pos hp (by omega)
        omega

theorem u32SuffixMask_toNat {len : Nat} (h : len ≤ 32) : (u32SuffixMask len).toNat = 2 ^ (32 - len) - 1 := by
  unfold u32SuffixMask
  split
  · rw [BitVec.toNat_ushiftRight]
    have : (0xFFFFFFFF#32).toNat = 2 ^ 32 - 1 := rfl
    rw [this]
    apply Nat.eq_of_testBit_eq
    intro j
    rw [Nat.testBit_shiftRight, Nat.testBit_two_pow_sub_one, Nat.testBit_two_pow_sub_one]
    simp only [decide_eq_decide]
    omega
  · have : len = 32 := by omega
    subst this; rfl

theorem shl_or_toNat {a : BitVec 32} (h : a.toNat < 2 ^ 24) (b : Byte) :
    ((a <<< 8) ||| b.setWidth 32).toNat = a.toNat * 256 + b.toNat := by
  have hb := b.isLt
  rw [BitVec.toNat_or, BitVec.toNat_shiftLeft, BitVec.toNat_setWidth, Nat.mod_eq_of_lt (by omega : b.toNat < 2 ^ 32)]
  rw [Nat.shiftLeft_eq, Nat.mod_eq_of_lt (by omega : a.toNat * 2 ^ 8 < 2 ^ 32), ← Nat.shiftLeft_eq,
    ← Nat.shiftLeft_add_eq_or_of_lt hb, Nat.shiftLeft_eq]

theorem fold_be (l : List Byte) (a : BitVec 32) (n : Nat) (ha : a.toNat < 256 ^ n) (hl : n + l.length ≤ 4) :
    (l.foldl (fun (a : BitVec 32) (b : Byte) => (a <<< 8) ||| b.setWidth 32) a).toNat = a.toNat * 256 ^ l.length + be l := by
  induction l generalizing a n with
  | nil => simp [be]
  | cons b l ih =>
    simp only [List.length_cons] at hl
    have h24 : a.toNat < 2 ^ 24 := by
      have : 256 ^ n ≤ 256 ^ 3 := Nat.pow_le_pow_right (by omega) (by omega)
      omega
    simp only [List.foldl_cons, List.length_cons]
    have hb := b.isLt
    rw [ih _ (n + 1) (by rw [shl_or_toNat h24, Nat.pow_succ]; omega) (by omega), shl_or_toNat h24]
    simp only [be, Nat.pow_succ, Nat.add_mul, Nat.mul_assoc, Nat.add_assoc, Nat.mul_comm 256]

theorem addr4Of_toNat {buf : List Byte} (h : buf.length ≤ 4) :
    (addr4Of buf).toNat = be buf * 2 ^ (32 - 8 * buf.length) := by
  unfold addr4Of
  rw [fold_be _ _ 0 (by simp) (by simp; omega), be_append, be_zeros]
  rw [show ((0 : BitVec 32).toNat) = 0 from rfl, Nat.zero_mul, Nat.zero_add, Nat.add_zero, List.length_replicate,
    pow256]
  congr 2
  omega

theorem and_mask_eq_zero {x : BitVec 32} {len : Nat} (h : len ≤ 32) :
    x &&& u32SuffixMask len = 0 ↔ 2 ^ (32 - len) ∣ x.toNat := by
  rw [← BitVec.toNat_inj, BitVec.toNat_and, u32SuffixMask_toNat h, Nat.and_two_pow_sub_one_eq_mod]
  simp [Nat.dvd_iff_mod_eq_zero]

theorem or_mask_toNat {x k : Nat} (h : 2 ^ k ∣ x) : x ||| (2 ^ k - 1) = x + (2 ^ k - 1) := by
  obtain ⟨y, rfl⟩ := h
  have := @or_split k y 0 0 (2 ^ k - 1) (Nat.two_pow_pos k) (by have := Nat.two_pow_pos k; omega)
  simpa using this

/-! ### IPv6 -/

theorem be4 (v : BitVec 32) :
    be [(v >>> 24).setWidth 8, (v >>> 16).setWidth 8, (v >>> 8).setWidth 8, v.setWidth 8] = v.toNat := by
  have := v.isLt
  simp only [be, List.length_cons, List.length_nil, BitVec.toNat_setWidth, BitVec.toNat_ushiftRight,
    Nat.shiftRight_eq_div_pow]
  omega

theorem be_ff (n : Nat) : be (List.replicate n 0xFF) = 256 ^ n - 1 := by
  induction n with
  | zero => simp [be]
  | succ n ih =>
    simp only [List.replicate_succ, be, ih, List.length_replicate, Nat.pow_succ]
    have : 0 < 256 ^ n := Nat.pow_pos (by omega)
    rw [show (0xFF : Byte).toNat = 255 from rfl]
    omega

/-- The bytes of the suffix mask. -/
def maskBytes (len : Nat) : List Byte :=
  let v := u32SuffixMask (len - 32 * (if len < 128 then len / 32 else 3))
  List.replicate (4 * (if len < 128 then len / 32 else 3)) (0 : Byte) ++
    [(v >>> 24).setWidth 8, (v >>> 16).setWidth 8, (v >>> 8).setWidth 8, v.setWidth 8] ++
    List.replicate (12 - 4 * (if len < 128 then len / 32 else 3)) 0xFF

theorem maskBytes_length (len : Nat) : (maskBytes len).length = 16 := by
  simp only [maskBytes, List.length_append, List.length_replicate, List.length_cons, List.length_nil]
  split <;> omega

theorem be_maskBytes {len : Nat} (h : len ≤ 128) : be (maskBytes len) = 2 ^ (128 - len) - 1 := by
  unfold maskBytes
  rw [be_append, be_append, be_zeros, be4, be_ff, u32SuffixMask_toNat (by split <;> omega)]
  simp only [Nat.zero_mul, Nat.zero_add, List.length_replicate, pow256]
  generalize hq : (if len < 128 then len / 32 else 3) = q
  have h1 : q ≤ 3 := by rw [← hq]; split <;> omega
  have h2 : 32 * q ≤ len ∧ len ≤ 32 * q + 32 := by rw [← hq]; split <;> omega
  have e : 2 ^ (128 - len) = 2 ^ (32 - (len - 32 * q)) * 2 ^ (8 * (12 - 4 * q)) := by
    rw [← Nat.pow_add]; congr 1; omega
  rw [e, Nat.sub_mul, Nat.one_mul]
  have := Nat.two_pow_pos (8 * (12 - 4 * q))
  have : 2 ^ (8 * (12 - 4 * q)) ≤ 2 ^ (32 - (len - 32 * q)) * 2 ^ (8 * (12 - 4 * q)) :=
    Nat.le_mul_of_pos_left _ (Nat.two_pow_pos _)
  omega

theorem exists16 {a : List Byte} (h : a.length = 16) : ∃ a0 a1 a2 a3 a4 a5 a6 a7 a8 a9 a10 a11 a12 a13 a14 a15,
    a = [a0, a1, a2, a3, a4, a5, a6, a7, a8, a9, a10, a11, a12, a13, a14, a15] := by
  rcases a with _ | ⟨a0, _ | ⟨a1, _ | ⟨a2, _ | ⟨a3, _ | ⟨a4, _ | ⟨a5, _ | ⟨a6, _ | ⟨a7, _ | ⟨a8, _ | ⟨a9, _ |
    ⟨a10, _ | ⟨a11, _ | ⟨a12, _ | ⟨a13, _ | ⟨a14, _ | ⟨a15, _ | ⟨a16, t⟩⟩⟩⟩⟩⟩⟩⟩⟩⟩⟩⟩⟩⟩⟩⟩⟩ <;> simp at h
  exact ⟨_, _, _, _, _, _, _, _, _, _, _, _, _, _, _, _, rfl⟩

theorem or_ff (b : Byte) : b ||| 255#8 = 255#8 := by
  have : (255#8 : Byte) = BitVec.allOnes 8 := rfl
  rw [this, BitVec.or_allOnes]

theorem ipv6SuffixMask_eq {a : In6} (ha : a.length = 16) (len : Nat) :
    ipv6SuffixMask len a = List.zipWith (· ||| ·) a (maskBytes len) := by
  obtain ⟨a0, a1, a2, a3, a4, a5, a6, a7, a8, a9, a10, a11, a12, a13, a14, a15, rfl⟩ := exists16 ha
  unfold ipv6SuffixMask
  by_cases h1 : len < 32
  · have hq : (if len < 128 then len / 32 else 3) = 0 := by rw [if_pos (by omega)]; omega
    rw [if_pos h1]
    simp [maskBytes, hq, setQuadrant, orQuadrant, quadrantEdit, List.modify_cons, List.replicate, or_ff]
  · by_cases h2 : len < 64
    · have hq : (if len < 128 then len / 32 else 3) = 1 := by rw [if_pos (by omega)]; omega
      rw [if_neg h1, if_pos h2]
      simp [maskBytes, hq, setQuadrant, orQuadrant, quadrantEdit, List.modify_cons, List.replicate, or_ff]
    · by_cases h3 : len < 96
      · have hq : (if len < 128 then len / 32 else 3) = 2 := by rw [if_pos (by omega)]; omega
        rw [if_neg h1, if_neg h2, if_pos h3]
        simp [maskBytes, hq, setQuadrant, orQuadrant, quadrantEdit, List.modify_cons, List.replicate, or_ff]
      · have hq : (if len < 128 then len / 32 else 3) = 3 := by split <;> omega
        rw [if_neg h1, if_neg h2, if_neg h3]
        simp [maskBytes, hq, orQuadrant, quadrantEdit, List.modify_cons, List.replicate]

theorem be_suffixMask {a : In6} (ha : a.length = 16) {len : Nat} (h : len ≤ 128) :
    be (ipv6SuffixMask len a) = be a ||| (2 ^ (128 - len) - 1) := by
  rw [ipv6SuffixMask_eq ha, be_or (by rw [ha, maskBytes_length]), be_maskBytes h]

theorem suffixMask_length {a : In6} (ha : a.length = 16) (len : Nat) : (ipv6SuffixMask len a).length = 16 := by
  rw [ipv6SuffixMask_eq ha, List.length_zipWith, ha, maskBytes_length]; rfl

end Verif.Res
