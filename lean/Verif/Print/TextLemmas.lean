import Verif.Print.CertLemmas
/-
Reading the texts back.
-/
namespace Verif.Print
open Verif.Res (Byte)

theorem digitVal_hex (a n : Nat) (ha : a = 0x41 ∨ a = 0x61) (h : n < 16) : digitVal (hexDigit a n) = some n := by
  have h1 : ∀ i : Fin 16, digitVal (hexDigit 0x41 i.val) = some i.val := by decide
  have h2 : ∀ i : Fin 16, digitVal (hexDigit 0x61 i.val) = some i.val := by decide
  rcases ha with rfl | rfl
  · exact h1 ⟨n, h⟩
  · exact h2 ⟨n, h⟩

theorem hexBytes_hexOf (l : List Byte) : hexBytes (hexOf 0x61 l) = some l := by
  induction l with
  | nil => rfl
  | cons b l ih =>
    have hb := b.isLt
    have : hexOf 0x61 (b :: l) = hexDigit 0x61 (b.toNat / 16) :: hexDigit 0x61 (b.toNat % 16) :: hexOf 0x61 l := rfl
    rw [this]
    simp only [hexBytes, ih, digitVal_hex 0x61 _ (Or.inr rfl) (show b.toNat / 16 < 16 by omega), digitVal_hex 0x61 _ (Or.inr rfl) (show b.toNat % 16 < 16 by omega)]
    congr
    have : 16 * (b.toNat / 16) + b.toNat % 16 = b.toNat := by omega
    rw [this]
    simp

/-- Value of bytes, most significant first. -/
def beVal (l : List Byte) : Nat := l.foldl (fun v b => v * 256 + b.toNat) 0

theorem hexNum_hexOf (l : List Byte) (v : Nat) :
    (hexOf 0x41 l).foldlM (fun v b => (digitVal b).map (v * 16 + ·)) v = some (l.foldl (fun v b => v * 256 + b.toNat) v) := by
  induction l generalizing v with
  | nil => rfl
  | cons b l ih =>
    have hb := b.isLt
    have : hexOf 0x41 (b :: l) = hexDigit 0x41 (b.toNat / 16) :: hexDigit 0x41 (b.toNat % 16) :: hexOf 0x41 l := rfl
    rw [this, List.foldlM_cons, digitVal_hex 0x41 _ (Or.inl rfl) (by omega)]
    simp only [Option.map_some, Option.bind_eq_bind, Option.bind_some, List.foldlM_cons, digitVal_hex 0x41 (b.toNat % 16) (Or.inl rfl) (by omega), ih, List.foldl_cons]
    congr 2
    omega

theorem beBytes_val (f n : Nat) (h : n ≤ f) : (beBytes f n).foldl (fun v b => v * 256 + b.toNat) 0 = n := by
  induction f generalizing n with
  | zero => have : n = 0 := by omega
            subst this; rfl
  | succ f ih =>
    unfold beBytes
    by_cases h0 : n = 0
    · rw [if_pos h0, h0]; rfl
    · rw [if_neg h0, List.foldl_append, ih (n / 256) (by omega)]
      simp
      omega

theorem beBytes_ne (f n : Nat) (h : n ≤ f) (h0 : n ≠ 0) : ∃ b l, beBytes f n = b :: l := by
  cases f with
  | zero => omega
  | succ f =>
    unfold beBytes
    rw [if_neg h0]
    cases h : beBytes f (n / 256) with
    | nil => exact ⟨_, _, rfl⟩
    | cons b l => exact ⟨_, _, rfl⟩

theorem hexInt_bnHex (i : Int) : hexInt (bnHex i) = some i := by
  unfold bnHex
  by_cases h0 : i = 0
  · subst h0; decide
  · rw [if_neg h0]
    have hn : i.natAbs ≠ 0 := by omega
    obtain ⟨b, l, hb⟩ := beBytes_ne i.natAbs i.natAbs (Nat.le_refl _) hn
    have hnum : hexNum (hexOf 0x41 (beBytes i.natAbs i.natAbs)) = some i.natAbs := by
      unfold hexNum
      rw [hexNum_hexOf, beBytes_val _ _ (Nat.le_refl _)]
    by_cases hneg : i < 0
    · rw [if_pos hneg]
      show hexInt (0x2D :: hexOf 0x41 (beBytes i.natAbs i.natAbs)) = some i
      simp only [hexInt, if_true, hnum, Option.map_some]
      congr
      omega
    · rw [if_neg hneg, List.nil_append]
      have hcons : hexOf 0x41 (beBytes i.natAbs i.natAbs) = hexDigit 0x41 (b.toNat / 16) :: hexDigit 0x41 (b.toNat % 16) :: hexOf 0x41 l := by rw [hb]; rfl
      have hne : hexDigit 0x41 (b.toNat / 16) ≠ 0x2D := by
        have : ∀ i : Fin 16, hexDigit 0x41 i.val ≠ 0x2D := by decide
        have hb := b.isLt
        exact this ⟨b.toNat / 16, by omega⟩
      rw [hcons] at hnum ⊢
      simp only [hexInt, if_neg hne, hnum, Option.map_some]
      congr
      omega

theorem decNum_digit (v n : Nat) (h : n < 10) :
    [BitVec.ofNat 8 (0x30 + n)].foldlM (fun v (b : Byte) => if 0x30 ≤ b.toNat ∧ b.toNat ≤ 0x39 then some (v * 10 + (b.toNat - 0x30)) else none) v = some (v * 10 + n) := by
  have hb : (BitVec.ofNat 8 (0x30 + n)).toNat = 0x30 + n := by simp; omega
  simp only [List.foldlM_cons, List.foldlM_nil, hb]
  rw [if_pos (by omega)]
  simp

theorem decNum_digits (f n : Nat) (h : n ≤ f) : decNum (decDigits f n) = some n := by
  unfold decNum
  induction f generalizing n with
  | zero => have : n = 0 := by omega
            subst this; rfl
  | succ f ih =>
    unfold decDigits
    by_cases h0 : n < 10
    · rw [if_pos h0, decNum_digit _ _ h0]; simp
    · rw [if_neg h0, List.foldlM_append, ih (n / 10) (by omega)]
      simp only [Option.bind_eq_bind, Option.bind_some]
      rw [decNum_digit _ _ (by omega)]
      congr
      omega

/-- Only ASCII. -/
def Ascii (s : List Byte) : Prop := ∀ b ∈ s, b.toNat < 128

theorem hexDigit_ascii (a n : Nat) (ha : a = 0x41 ∨ a = 0x61) (h : n < 16) : (hexDigit a n).toNat < 128 := by
  have h1 : ∀ i : Fin 16, (hexDigit 0x41 i.val).toNat < 128 := by decide
  have h2 : ∀ i : Fin 16, (hexDigit 0x61 i.val).toNat < 128 := by decide
  rcases ha with rfl | rfl
  · exact h1 ⟨n, h⟩
  · exact h2 ⟨n, h⟩

theorem hexOf_ascii (a : Nat) (ha : a = 0x41 ∨ a = 0x61) (l : List Byte) : Ascii (hexOf a l) := by
  intro x hx
  unfold hexOf at hx
  rw [List.mem_flatMap] at hx
  obtain ⟨b, _, hx⟩ := hx
  have hb := b.isLt
  simp only [List.mem_cons, List.not_mem_nil, or_false] at hx
  rcases hx with rfl | rfl
  · exact hexDigit_ascii a _ ha (by omega)
  · exact hexDigit_ascii a _ ha (by omega)

theorem bnHex_ascii (i : Int) : Ascii (bnHex i) := by
  unfold bnHex
  split
  · intro x hx; simp at hx; subst hx; decide
  · intro x hx
    rw [List.mem_append] at hx
    rcases hx with hx | hx
    · split at hx
      · simp at hx; subst hx; decide
      · simp at hx
    · exact hexOf_ascii _ (Or.inl rfl) _ x hx

theorem decDigits_ascii (f n : Nat) : Ascii (decDigits f n) := by
  induction f generalizing n with
  | zero => intro x hx; simp [decDigits] at hx; subst hx; simp; omega
  | succ f ih =>
    unfold decDigits
    split
    · intro x hx; simp at hx; subst hx; simp; omega
    · intro x hx
      rw [List.mem_append] at hx
      rcases hx with hx | hx
      · exact ih _ x hx
      · simp at hx; subst hx; simp; omega

end Verif.Print
