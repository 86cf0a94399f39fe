import Verif.Obj.SpecEnc
import Verif.Asn.SpecDer
import Verif.Res.AddrProps
import Mathlib.Tactic.Ring
/-
The encodings of SpecEnc are DER, in the sense of `Verif.Asn`.
-/
namespace Verif.Obj
open Verif.Res (Byte be be_append)
open Verif.Asn (DTlv DTag DLen IsTag)

theorem octets_zero : octets 0 = [] := by rw [octets]; rfl
theorem octets_pos {n : Nat} (h : 0 < n) : octets n = octets (n / 256) ++ [BitVec.ofNat 8 n] := by
  rw [octets, if_neg (by omega)]

theorem be_octets (n : Nat) : be (octets n) = n := by
  induction n using Nat.strong_induction_on with
  | _ n ih =>
    by_cases h : n = 0
    · rw [h, octets_zero]; rfl
    · rw [octets_pos (by omega), be_append, ih _ (by omega)]
      simp only [be, List.length_cons, List.length_nil, BitVec.toNat_ofNat]
      omega

theorem octets_head {n : Nat} : ∀ b bs, octets n = b :: bs → b ≠ 0 := by
  induction n using Nat.strong_induction_on with
  | _ n ih =>
    intro b bs e
    by_cases h : n = 0
    · rw [h, octets_zero] at e; cases e
    · rw [octets_pos (by omega)] at e
      by_cases h2 : n / 256 = 0
      · rw [h2, octets_zero] at e
        cases e
        intro hz
        have := congrArg BitVec.toNat hz
        simp at this
        omega
      · cases h3 : octets (n / 256) with
        | nil =>
          have := be_octets (n / 256)
          rw [h3] at this
          simp only [be] at this
          omega
        | cons x xs =>
          rw [h3] at e
          cases e
          exact ih _ (by omega) _ _ h3

theorem octets_length {n k : Nat} (h : n < 256 ^ k) : (octets n).length ≤ k := by
  induction k generalizing n with
  | zero => have : n = 0 := by omega
            rw [this, octets_zero]; simp
  | succ k ih =>
    by_cases h2 : n = 0
    · rw [h2, octets_zero]; simp
    · rw [octets_pos (by omega), List.length_append]
      have := ih (n := n / 256) (by rw [Nat.pow_succ] at h; omega)
      simp only [List.length_cons, List.length_nil]
      omega

theorem derLen_dlen {n : Nat} (h : n < 2 ^ 62) : DLen n (derLen n) := by
  unfold derLen
  by_cases h1 : n < 128
  · rw [if_pos h1]
    exact Or.inl ⟨_, rfl, by rw [BitVec.toNat_ofNat]; omega, h1⟩
  · rw [if_neg h1]
    have hl := octets_length (n := n) (k := 8) (by omega)
    cases ho : octets n with
    | nil => have := be_octets n; rw [ho] at this; simp only [be] at this; omega
    | cons b bs =>
      refine Or.inr ⟨_, b, bs, rfl, ?_, ?_, octets_head _ _ ho, ?_, by omega⟩
      · rw [ho] at hl; simp only [List.length_cons] at hl ⊢; rw [BitVec.toNat_ofNat]; omega
      · rw [ho] at hl
        intro e
        have := congrArg BitVec.toNat e
        simp only [List.length_cons, BitVec.toNat_ofNat] at this hl
        simp at this
        omega
      · rw [← ho, be_octets]

/-- The identifier octet of a tag. -/
def IdOctet (tag : Nat) (constr : Bool) (t : Byte) : Prop :=
  t.toNat / 64 = tag % 4 ∧ (t.toNat / 32 % 2 = 1 ↔ constr = true) ∧ tag / 4 < 31 ∧ t.toNat % 32 = tag / 4

instance (tag : Nat) (constr : Bool) (t : Byte) : Decidable (IdOctet tag constr t) := by unfold IdOctet; infer_instance

theorem tlv_dtlv {tag : Nat} {constr : Bool} {t : Byte} {c : List Byte} (ht : IdOctet tag constr t) (h : c.length < 2 ^ 62) : DTlv tag constr c (tlv t c) := by
  obtain ⟨h1, h2, h3, h4⟩ := ht
  exact ⟨[t], _, ⟨⟨t, [], rfl, h1, h2, Or.inl ⟨rfl, h3, h4⟩⟩, fun _ => rfl, fun h => absurd h3 (by omega)⟩, derLen_dlen h, rfl⟩

theorem tlv_length (t : Byte) (c : List Byte) : c.length < (tlv t c).length := by
  simp only [tlv, List.length_cons, List.length_append]; omega

/-! ### Integers -/

theorem be_intOctets (n : Nat) : be (intOctets n) = n := by
  unfold intOctets
  have h := be_octets n
  cases ho : octets n with
  | nil => rw [ho] at h; simpa [be] using h
  | cons b bs =>
    rw [ho] at h
    simp only
    split
    · simpa [be] using h
    · exact h

theorem intVal_intOctets (n : Nat) : Res.intVal (intOctets n) = n := by
  have h := be_intOctets n
  cases hi : intOctets n with
  | nil =>
    exfalso
    unfold intOctets at hi
    cases ho : octets n with
    | nil => rw [ho] at hi; cases hi
    | cons b bs =>
      rw [ho] at hi
      simp only at hi
      split at hi <;> cases hi
  | cons b bs =>
    rw [hi] at h
    unfold Res.intVal
    simp only
    rw [if_pos, h]
    unfold intOctets at hi
    cases ho : octets n with
    | nil => rw [ho] at hi; cases hi; decide
    | cons x xs =>
      rw [ho] at hi
      simp only at hi
      split at hi
      · cases hi; decide
      · cases hi; omega

/-! ### Prefixes -/

theorem bitOctets_length (w addr len : Nat) : (bitOctets w addr len).length = (len + 7) / 8 := by simp [bitOctets]

theorem be_range (w addr : Nat) : ∀ k, 8 * k ≤ w → addr < 2 ^ w →
    be ((List.range k).map fun i => BitVec.ofNat 8 (addr / 2 ^ (w - 8 * (i + 1)))) = addr / 2 ^ (w - 8 * k) := by
  intro k hk ha
  induction k with
  | zero => simp only [List.range_zero, List.map_nil, be]; rw [Nat.mul_zero, Nat.sub_zero, Nat.div_eq_of_lt ha]
  | succ k ih =>
    rw [List.range_succ, List.map_append, be_append, ih (by omega)]
    simp only [List.map_cons, List.map_nil, be, List.length_cons, List.length_nil, BitVec.toNat_ofNat]
    have : addr / 2 ^ (w - 8 * k) = addr / 2 ^ (w - 8 * (k + 1)) / 256 := by
      rw [Nat.div_div_eq_div_mul]
      congr 1
      rw [show w - 8 * k = (w - 8 * (k + 1)) + 8 by omega, Nat.pow_add]
    rw [this]
    omega

theorem prefix_encodes {w addr len : Nat} (hw : w % 8 = 0) (hl : len ≤ w) (ha : addr < 2 ^ w) (hd : 2 ^ (w - len) ∣ addr) :
    Res.EncodesPrefix w ⟨bitOctets w addr len, unusedBits len⟩ addr len := by
  have hk : 8 * ((len + 7) / 8) ≤ w := by omega
  have hd2 : 2 ^ (w - 8 * ((len + 7) / 8)) ∣ addr := Nat.dvd_trans (Nat.pow_dvd_pow 2 (by omega)) hd
  refine ⟨by rw [bitOctets_length]; exact hk, Int.natCast_nonneg _, ?_, ?_, ?_, hd⟩
  · simp only [unusedBits]; omega
  · simp only [unusedBits, bitOctets_length]; omega
  · rw [bitOctets_length]
    simp only [bitOctets]
    rw [be_range w addr _ hk ha, Nat.div_mul_cancel hd2]

theorem prefix_clear {w addr len : Nat} (hw : w % 8 = 0) (hl : len ≤ w) (hd : 2 ^ (w - len) ∣ addr) :
    ∀ x, (bitOctets w addr len).getLast? = some x → x.toNat % 2 ^ unusedBits len = 0 := by
  intro x hx
  unfold bitOctets at hx
  cases hk : (len + 7) / 8 with
  | zero => rw [hk] at hx; simp at hx
  | succ k =>
    rw [hk, List.range_succ, List.map_append] at hx
    simp only [List.map_cons, List.map_nil, List.getLast?_append, List.getLast?_singleton, Option.some_or, Option.some.injEq] at hx
    rw [← hx, BitVec.toNat_ofNat]
    have hu : unusedBits len = 8 * (k + 1) - len := by unfold unusedBits; rw [hk]
    obtain ⟨m, rfl⟩ := hd
    rw [show w - len = (w - 8 * (k + 1)) + (8 * (k + 1) - len) by omega, Nat.pow_add, Nat.mul_assoc, Nat.mul_div_cancel_left _ (Nat.two_pow_pos _), ← hu]
    rw [Nat.mod_mod_of_dvd _ (show 2 ^ unusedBits len ∣ 2 ^ 8 from Nat.pow_dvd_pow 2 (by omega)), Nat.mul_mod_right]

end Verif.Obj
