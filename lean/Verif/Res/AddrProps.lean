import Verif.Res.RangeLemmas
/-
C21: IP prefixes decode only from canonical encodings. C22: IP ranges decode only if ordered and not a prefix.
-/
namespace Verif.Res

/-! ### C21 -/

/-- The BIT STRING `s` is a canonical encoding of the prefix of length `len` of the address `addr` (of `w` bits, a
number): whole bytes, up to seven unused bits, the address is the bits of the string followed by zeros, and all the
bits after the first `len` are zero. -/
def EncodesPrefix (w : Nat) (s : BitStr) (addr len : Nat) : Prop :=
  8 * s.buf.length ≤ w ∧ 0 ≤ s.unused ∧ s.unused ≤ 7 ∧ (len : Int) = 8 * s.buf.length - s.unused ∧
  addr = be s.buf * 2 ^ (w - 8 * s.buf.length) ∧ 2 ^ (w - len) ∣ addr

/-- C21 (IPv4). A prefix is accepted, with this address and length, exactly when the BIT STRING is a canonical
encoding of it. -/
theorem C21_prefix4 (s : BitStr) (addr : BitVec 32) (len : Nat) :
    prefix4Decode s = some ⟨addr, len⟩ ↔ EncodesPrefix 32 s addr.toNat len := by
  unfold prefix4Decode EncodesPrefix
  by_cases h1 : s.buf.length > 4
  · rw [if_pos h1]; constructor
    · intro h; cases h
    · intro h; omega
  · rw [if_neg h1]
    by_cases h2 : s.unused < 0 ∨ 7 < s.unused
    · rw [if_pos h2]; constructor
      · intro h; cases h
      · intro h; omega
    · rw [if_neg h2]
      simp only
      by_cases h3 : (8 * s.buf.length - s.unused : Int) < 0 ∨ 32 < (8 * s.buf.length - s.unused : Int)
      · rw [if_pos h3]; constructor
        · intro h; cases h
        · rintro ⟨_, _, _, h, _⟩; omega
      · rw [if_neg h3]
        have hl : (8 * s.buf.length - s.unused : Int).toNat ≤ 32 := by omega
        have ha := addr4Of_toNat (buf := s.buf) (by omega)
        by_cases h4 : addr4Of s.buf &&& u32SuffixMask (8 * s.buf.length - s.unused : Int).toNat = 0
        · rw [if_neg (by simpa using h4)]
          rw [and_mask_eq_zero hl] at h4
          simp only [Option.some.injEq, Prefix4.mk.injEq]
          constructor
          · rintro ⟨rfl, rfl⟩
            exact ⟨by omega, by omega, by omega, by omega, ha, h4⟩
          · rintro ⟨_, _, _, e1, e2, _⟩
            refine ⟨BitVec.eq_of_toNat_eq (by rw [ha, e2]), by omega⟩
        · rw [if_pos (by simpa using h4)]
          constructor
          · intro h; cases h
          · rintro ⟨_, _, _, e1, e2, e3⟩
            exfalso; apply h4
            rw [and_mask_eq_zero hl, ha, ← e2]
            have : (8 * s.buf.length - s.unused : Int).toNat = len := by omega
            rw [this]; exact e3

/-- C21 (IPv6). As for IPv4; the address is 16 bytes. -/
theorem C21_prefix6 (s : BitStr) (addr : In6) (len : Nat) :
    prefix6Decode s = some ⟨addr, len⟩ ↔ addr.length = 16 ∧ EncodesPrefix 128 s (be addr) len := by
  unfold prefix6Decode EncodesPrefix
  by_cases h1 : s.buf.length > 16
  · rw [if_pos h1]; constructor
    · intro h; cases h
    · intro h; omega
  · rw [if_neg h1]
    by_cases h2 : s.unused < 0 ∨ 7 < s.unused
    · rw [if_pos h2]; constructor
      · intro h; cases h
      · intro h; omega
    · rw [if_neg h2]
      simp only
      by_cases h3 : (8 * s.buf.length - s.unused : Int) < 0 ∨ 128 < (8 * s.buf.length - s.unused : Int)
      · rw [if_pos h3]; constructor
        · intro h; cases h
        · rintro ⟨_, _, _, _, h, _⟩; omega
      · rw [if_neg h3]
        generalize hn : (8 * s.buf.length - s.unused : Int).toNat = n
        have hl : n ≤ 128 := by omega
        generalize hA : s.buf ++ List.replicate (16 - s.buf.length) 0 = A
        have hAl : A.length = 16 := by rw [← hA]; simp; omega
        have hAb : be A = be s.buf * 2 ^ (128 - 8 * s.buf.length) := by
          rw [← hA, be_append, be_zeros, Nat.add_zero, List.length_replicate, pow256]; congr 2; omega
        have hz : In6.zero.length = 16 := rfl
        have hand : bitwiseAnd A (ipv6SuffixMask n In6.zero) = true ↔ ¬ 2 ^ (128 - n) ∣ be A := by
          rw [bitwiseAnd_iff (by rw [hAl, suffixMask_length hz]), be_suffixMask hz hl]
          have : be In6.zero = 0 := be_zeros 16
          rw [this, Nat.zero_or, Nat.and_two_pow_sub_one_eq_mod, Nat.dvd_iff_mod_eq_zero]
        by_cases h4 : bitwiseAnd A (ipv6SuffixMask n In6.zero) = true
        · rw [if_pos h4]
          rw [hand] at h4
          constructor
          · intro h; cases h
          · rintro ⟨_, _, _, _, e1, e2, e3⟩
            exfalso; apply h4
            have : n = len := by omega
            rw [this, hAb, ← e2]; exact e3
        · rw [if_neg h4]
          rw [hand, Classical.not_not] at h4
          simp only [Option.some.injEq, Prefix6.mk.injEq]
          constructor
          · rintro ⟨rfl, rfl⟩
            exact ⟨hAl, by omega, by omega, by omega, by omega, hAb, h4⟩
          · rintro ⟨e0, _, _, _, e1, e2, _⟩
            exact ⟨be_inj (by rw [hAl, e0]) (by rw [hAb, e2]), by omega⟩

/-- 192.0.2.0/23 in three bytes with one unused bit; the same with the unused bit set is rejected. -/
example : prefix4Decode ⟨[192, 0, 2], 1⟩ = some ⟨0xC0000200, 23⟩ ∧ prefix4Decode ⟨[192, 0, 3], 1⟩ = none ∧
    prefix4Decode ⟨[], 0⟩ = some ⟨0, 0⟩ ∧ prefix4Decode ⟨[], 1⟩ = none := by decide
/-- 2001:db8::/32. -/
example : prefix6Decode ⟨[0x20, 0x01, 0x0d, 0xb8], 0⟩ =
      some ⟨[0x20, 0x01, 0x0d, 0xb8, 0, 0, 0, 0, 0, 0, 0, 0, 0, 0, 0, 0], 32⟩ ∧
    prefix6Decode ⟨[0x20, 0x01, 0x0d, 0xb8], 4⟩ = none := by decide

/-! ### C22 -/

theorem prefix4_canonical {s : BitStr} {p : Prefix4} (h : prefix4Decode s = some p) :
    p.len ≤ 32 ∧ 2 ^ (32 - p.len) ∣ p.addr.toNat := by
  obtain ⟨a, l⟩ := p
  rw [C21_prefix4] at h
  obtain ⟨h1, h2, h3, h4, h5, h6⟩ := h
  exact ⟨by simp only; omega, h6⟩

theorem prefix6_canonical {s : BitStr} {p : Prefix6} (h : prefix6Decode s = some p) :
    p.addr.length = 16 ∧ p.len ≤ 128 ∧ 2 ^ (128 - p.len) ∣ be p.addr := by
  obtain ⟨a, l⟩ := p
  rw [C21_prefix6] at h
  obtain ⟨h0, h1, h2, h3, h4, h5, h6⟩ := h
  exact ⟨h0, by simp only; omega, h6⟩

theorem prefix4_max {p : Prefix4} (h1 : p.len ≤ 32) (h2 : 2 ^ (32 - p.len) ∣ p.addr.toNat) :
    (p.addr ||| u32SuffixMask p.len).toNat = p.addr.toNat + (2 ^ (32 - p.len) - 1) := by
  rw [BitVec.toNat_or, u32SuffixMask_toNat h1, or_mask_toNat h2]

theorem prefix6_max {p : Prefix6} (h0 : p.addr.length = 16) (h1 : p.len ≤ 128) (h2 : 2 ^ (128 - p.len) ∣ be p.addr) :
    be (ipv6SuffixMask p.len p.addr) = be p.addr + (2 ^ (128 - p.len) - 1) := by
  rw [be_suffixMask h0 h1, or_mask_toNat h2]

/-- The pair of BIT STRINGs encodes the range from `min` to `max`: both are canonical, the first is padded with zeros
and the second with ones, the range is not inverted, and no prefix describes the same addresses. -/
def EncodesRange (w : Nat) (smin smax : BitStr) (min max : Nat) : Prop :=
  (∃ len, EncodesPrefix w smin min len) ∧
  (∃ addr len, EncodesPrefix w smax addr len ∧ max = addr + (2 ^ (w - len) - 1)) ∧
  min ≤ max ∧ ¬ ∃ len, IsPrefix w len min max

/-- C22 (IPv4). A range is accepted, with these ends, exactly when it is ordered, canonically encoded, and could not
have been encoded as a prefix. -/
theorem C22_range4 (smin smax : BitStr) (min max : BitVec 32) :
    range4Decode smin smax = some ⟨min, max⟩ ↔ EncodesRange 32 smin smax min.toNat max.toNat := by
  unfold range4Decode EncodesRange
  constructor
  · intro h
    split at h
    · cases h
    · rename_i p hp
      split at h
      · cases h
      · rename_i q hq
        simp only at h
        split at h
        · cases h
        · rename_i ho
          split at h
          · rename_i he
            simp only [Option.some.injEq, R32.mk.injEq] at h
            obtain ⟨rfl, rfl⟩ := h
            rw [checkEncoding4_iff] at he
            obtain ⟨c1, c2⟩ := prefix4_canonical hq
            refine ⟨⟨p.len, (C21_prefix4 smin p.addr p.len).1 hp⟩,
              ⟨q.addr.toNat, q.len, (C21_prefix4 smax q.addr q.len).1 hq, prefix4_max c1 c2⟩, ?_, he⟩
            simpa [BitVec.lt_def] using ho
          · cases h
  · rintro ⟨⟨l1, h1⟩, ⟨a, l2, h2, h3⟩, h4, h5⟩
    have hp := (C21_prefix4 smin min l1).2 h1
    have ha : a < 2 ^ 32 := by have := max.isLt; omega
    have hq := (C21_prefix4 smax (BitVec.ofNat 32 a) l2).2 (by
      rw [BitVec.toNat_ofNat, Nat.mod_eq_of_lt ha]; exact h2)
    obtain ⟨c1, c2⟩ := prefix4_canonical hq
    have hm := prefix4_max c1 c2
    simp only [BitVec.toNat_ofNat, Nat.mod_eq_of_lt ha] at hm
    rw [← h3] at hm
    have hm := BitVec.eq_of_toNat_eq hm
    rw [hp, hq]
    simp only [hm]
    rw [if_neg (by simpa [BitVec.lt_def] using h4), if_pos (by rw [checkEncoding4_iff]; exact h5)]

/-- C22 (IPv6). -/
theorem C22_range6 (smin smax : BitStr) (min max : In6) :
    range6Decode smin smax = some ⟨min, max⟩ ↔
      min.length = 16 ∧ max.length = 16 ∧ EncodesRange 128 smin smax (be min) (be max) := by
  unfold range6Decode EncodesRange
  constructor
  · intro h
    split at h
    · cases h
    · rename_i p hp
      split at h
      · cases h
      · rename_i q hq
        simp only at h
        obtain ⟨c0, c1, c2⟩ := prefix6_canonical hq
        obtain ⟨d0, _, _⟩ := prefix6_canonical hp
        have hml := suffixMask_length c0 q.len
        split at h
        · cases h
        · rename_i ho
          split at h
          · rename_i he
            simp only [Option.some.injEq, R6.mk.injEq] at h
            obtain ⟨rfl, rfl⟩ := h
            rw [checkEncoding6_iff d0 hml] at he
            simp only [Bool.not_eq_true', Bool.not_eq_false, checkOrder6_iff d0 hml] at ho
            exact ⟨d0, hml, ⟨p.len, ((C21_prefix6 smin p.addr p.len).1 hp).2⟩,
              ⟨be q.addr, q.len, ((C21_prefix6 smax q.addr q.len).1 hq).2, prefix6_max c0 c1 c2⟩, ho, he⟩
          · cases h
  · rintro ⟨hml, hMl, ⟨l1, h1⟩, ⟨a, l2, h2, h3⟩, h4, h5⟩
    have hp := (C21_prefix6 smin min l1).2 ⟨hml, h1⟩
    generalize hA : smax.buf ++ List.replicate (16 - smax.buf.length) 0 = A
    have hAl : A.length = 16 := by
      rw [← hA]; have := h2.1; simp; omega
    have hAb : be A = a := by
      have := h2.1
      rw [← hA, be_append, be_zeros, Nat.add_zero, List.length_replicate, pow256, h2.2.2.2.2.1]; congr 2; omega
    have hq := (C21_prefix6 smax A l2).2 ⟨hAl, by rw [hAb]; exact h2⟩
    obtain ⟨c0, c1, c2⟩ := prefix6_canonical hq
    have hm := prefix6_max c0 c1 c2
    simp only [hAb] at hm
    rw [← h3] at hm
    have hm := be_inj (by rw [suffixMask_length c0, hMl]) hm
    rw [hp, hq]
    simp only [hm]
    rw [if_neg (by simp only [Bool.not_eq_true', Bool.not_eq_false, checkOrder6_iff hml hMl]; exact h4),
      if_pos (by rw [checkEncoding6_iff hml hMl]; exact h5)]

/-- 192.0.2.0 - 192.0.2.2 is a range; 192.0.2.0 - 192.0.2.3 should be a prefix; 192.0.2.8 - 192.0.2.7 is inverted. -/
example : range4Decode ⟨[192, 0, 2], 1⟩ ⟨[192, 0, 2, 2], 0⟩ = some ⟨0xC0000200, 0xC0000202⟩ ∧
    range4Decode ⟨[192, 0, 2], 1⟩ ⟨[192, 0, 2, 0], 2⟩ = none ∧
    range4Decode ⟨[192, 0, 2, 8], 3⟩ ⟨[192, 0, 2, 0], 3⟩ = none := by decide
/-- :: - 2001:db8:ffff:... is a range. -/
example : range6Decode ⟨[], 0⟩ ⟨[0x20, 0x01, 0x0d, 0xb8], 0⟩ =
    some ⟨[0, 0, 0, 0, 0, 0, 0, 0, 0, 0, 0, 0, 0, 0, 0, 0],
      [0x20, 0x01, 0x0d, 0xb8, 255, 255, 255, 255, 255, 255, 255, 255, 255, 255, 255, 255]⟩ := by decide

end Verif.Res
