import Verif.Slurm.Spec
import Verif.Res.AddrLemmas
import Mathlib.Tactic.Ring
import Mathlib.Tactic.Set
import Mathlib.Tactic.ByContra
import Mathlib.Tactic.NormNum
/-
Lemmas about coverage tests.
-/
namespace Verif.Slurm
open Verif.Res
open Verif.Rtr (Fam Vrp RouterKey Table)

theorem and_not_add {w : Nat} (x m : BitVec w) : (x &&& ~~~ m).toNat + (x &&& m).toNat = x.toNat := by
  have h0 : (x &&& ~~~ m) &&& (x &&& m) = 0#w := by
    ext i hi
    simp
    intro _ h2 _
    exact h2
  have h1 : (x &&& ~~~ m) + (x &&& m) = x := by
    rw [BitVec.add_eq_or_of_and_eq_zero _ _ h0]
    ext i hi
    simp only [BitVec.getElem_or, BitVec.getElem_and, BitVec.getElem_not]
    cases x[i] <;> cases m[i] <;> rfl
  have := BitVec.toNat_add_of_and_eq_zero h0
  rw [h1] at this
  exact this.symm

theorem sub_mod_eq_iff {x f k : Nat} (hf : k ∣ f) (hk : 0 < k) (y : Nat) (hy : y + x % k = x) :
    y = f ↔ x / k = f / k := by
  have h1 := Nat.div_add_mod x k
  obtain ⟨c, rfl⟩ := hf
  rw [Nat.mul_div_cancel_left _ hk]
  constructor
  · rintro rfl
    have : k * (x / k) = k * c := by omega
    exact Nat.eq_of_mul_eq_mul_left hk this
  · intro h
    rw [h] at h1
    omega

theorem ipv4Covered_iff {f son : BitVec 32} {len : Nat} (hl : len ≤ 32) (hf : 2 ^ (32 - len) ∣ f.toNat) :
    ipv4Covered f len son = true ↔ son.toNat / 2 ^ (32 - len) = f.toNat / 2 ^ (32 - len) := by
  unfold ipv4Covered
  rw [decide_eq_true_iff, ← BitVec.toNat_inj]
  apply sub_mod_eq_iff hf (Nat.two_pow_pos _)
  have := and_not_add son (u32SuffixMask len)
  rwa [BitVec.toNat_and son (u32SuffixMask len), u32SuffixMask_toNat hl, Nat.and_two_pow_sub_one_eq_mod] at this

theorem be_cons (b : Byte) (l : List Byte) : be (b :: l) = b.toNat * 256 ^ l.length + be l := rfl

theorem coveredLoop_iff : ∀ {f s m : List Byte}, f.length = s.length → s.length = m.length →
    (ipv6CoveredLoop f s m = true ↔ ∃ y, y + (be s &&& be m) = be s ∧ y = be f) := by
  intro f
  induction f with
  | nil =>
    intro s m h1 h2
    have : s = [] := List.length_eq_zero_iff.1 (by simpa using h1.symm)
    subst this
    simp [ipv6CoveredLoop, be]
  | cons f fs ih =>
    intro s m h1 h2
    cases s with
    | nil => simp at h1
    | cons s ss =>
      cases m with
      | nil => simp at h2
      | cons m ms =>
        simp only [List.length_cons, Nat.add_right_cancel_iff] at h1 h2
        have hs := be_lt ss
        have hm := be_lt ms
        have hfl := be_lt fs
        have hsplit : be (s :: ss) &&& be (m :: ms) = (s &&& m).toNat * 256 ^ ss.length + (be ss &&& be ms) := by
          rw [be_cons, be_cons, ← h2, BitVec.toNat_and]
          rw [pow256] at hs hm ⊢
          rw [← h2] at hm
          rw [Nat.mul_comm, Nat.mul_comm m.toNat, Nat.mul_comm (s.toNat &&& m.toNat)]
          exact and_split hs hm
        have hb := and_not_add s m
        have hle : be ss &&& be ms ≤ be ss := Nat.and_le_left
        rw [ipv6CoveredLoop]
        rw [hsplit, be_cons, be_cons]
        rw [h1] at hfl
        rw [h1]
        generalize 256 ^ ss.length = K at *
        have ih := ih h1 h2
        by_cases hfm : s &&& ~~~ m = f
        · simp only [hfm, ne_eq, not_true_eq_false, ite_false]
          rw [ih]
          rw [hfm] at hb
          have e : s.toNat * K = f.toNat * K + (s &&& m).toNat * K := by rw [← hb]; ring
          constructor
          · rintro ⟨y, h, rfl⟩
            exact ⟨_, by omega, rfl⟩
          · rintro ⟨y, h, rfl⟩
            exact ⟨be fs, by omega, rfl⟩
        · simp only [ne_eq, hfm, not_false_eq_true, ite_true, Bool.false_eq_true, false_iff, not_exists]
          rintro y ⟨h, rfl⟩
          apply hfm
          rw [← BitVec.toNat_inj]
          have e : s.toNat * K = (s &&& ~~~ m).toNat * K + (s &&& m).toNat * K := by rw [← hb]; ring
          have e2 : f.toNat * K + be fs = (s &&& ~~~ m).toNat * K + (be ss - (be ss &&& be ms)) := by omega
          have h3 : be ss - (be ss &&& be ms) < K := by omega
          generalize be ss - (be ss &&& be ms) = r at *
          have hK : 0 < K := by omega
          have a1 : (f.toNat * K + be fs) / K = f.toNat := by
            rw [Nat.mul_comm, Nat.mul_add_div hK, Nat.div_eq_of_lt hfl, Nat.add_zero]
          have a2 : ((s &&& ~~~ m).toNat * K + r) / K = (s &&& ~~~ m).toNat := by
            rw [Nat.mul_comm, Nat.mul_add_div hK, Nat.div_eq_of_lt h3, Nat.add_zero]
          rw [← a1, ← a2, e2]

theorem bytes6_length (x : BitVec 128) : (bytes6 x).length = 16 := by simp [bytes6]

theorem be_bytes (n : Nat) (x : Nat) :
    be ((List.range n).map (fun i => BitVec.ofNat 8 (x >>> (8 * (n - 1 - i))))) = x % 256 ^ n := by
  induction n generalizing x with
  | zero => simp [be, Nat.mod_one]
  | succ n ih =>
    rw [List.range_succ_eq_map, List.map_cons, be_cons]
    have : List.map (fun i => BitVec.ofNat 8 (x >>> (8 * (n + 1 - 1 - i)))) (List.map Nat.succ (List.range n)) =
        (List.range n).map (fun i => BitVec.ofNat 8 (x >>> (8 * (n - 1 - i)))) := by
      rw [List.map_map]
      apply List.map_congr_left
      intro i hi
      have := List.mem_range.1 hi
      simp only [Function.comp]
      congr 3
      omega
    rw [this, ih]
    simp only [List.length_map, List.length_range, Nat.add_sub_cancel, Nat.sub_zero, BitVec.toNat_ofNat]
    rw [Nat.shiftRight_eq_div_pow, Nat.pow_succ 256 n, pow256, Nat.mod_mul, Nat.mul_comm]
    show 2 ^ (8 * n) * (x / 2 ^ (8 * n) % 256) + _ = _
    exact Nat.add_comm _ _

theorem be_bytes6 (x : BitVec 128) : be (bytes6 x) = x.toNat := by
  have h := be_bytes 16 x.toNat
  have e : bytes6 x = (List.range 16).map (fun i => BitVec.ofNat 8 (x.toNat >>> (8 * (16 - 1 - i)))) := by
    unfold bytes6
    apply List.map_congr_left
    intro i _
    apply BitVec.eq_of_toNat_eq
    simp
  rw [e, h, Nat.mod_eq_of_lt]
  exact x.isLt

theorem zero_length : In6.zero.length = 16 := by simp [In6.zero]

theorem be_zeroMask {len : Nat} (h : len ≤ 128) : be (ipv6SuffixMask len In6.zero) = 2 ^ (128 - len) - 1 := by
  rw [be_suffixMask zero_length h]
  have : be In6.zero = 0 := be_zeros 16
  rw [this]
  simp

theorem ipv6Covered_iff {f son : BitVec 128} {len : Nat} (hl : len ≤ 128) (hf : 2 ^ (128 - len) ∣ f.toNat) :
    ipv6Covered (bytes6 f) len (bytes6 son) = true ↔ son.toNat / 2 ^ (128 - len) = f.toNat / 2 ^ (128 - len) := by
  unfold ipv6Covered
  rw [coveredLoop_iff (by simp [bytes6_length]) (by rw [bytes6_length, suffixMask_length zero_length])]
  rw [be_bytes6, be_bytes6, be_zeroMask hl, Nat.and_two_pow_sub_one_eq_mod]
  constructor
  · rintro ⟨y, h, e⟩
    exact (sub_mod_eq_iff hf (Nat.two_pow_pos _) y h).1 e
  · intro h
    exact ⟨f.toNat, by have := (sub_mod_eq_iff hf (Nat.two_pow_pos _) (son.toNat - son.toNat % 2 ^ (128 - len))
      (by have := Nat.mod_le son.toNat (2 ^ (128 - len)); omega)).2 h
                       have := Nat.mod_le son.toNat (2 ^ (128 - len)); omega, rfl⟩

/-- Set inclusion of prefixes, in terms of bits. -/
theorem covers_iff {p q : Pfx} (hp : p.len ≤ width p.fam) (hq : q.addr < 2 ^ width q.fam) :
    p.Covers q ↔ p.fam = q.fam ∧
      q.addr / 2 ^ (width p.fam - p.len) = p.addr / 2 ^ (width p.fam - p.len) ∧ p.len ≤ q.len := by
  unfold Pfx.Covers
  constructor
  · rintro ⟨hf, h⟩
    refine ⟨hf, (h q.addr ⟨hq, rfl⟩).2, ?_⟩
    rw [hf] at hp
    by_contra hlt
    obtain ⟨pf, pa, pl⟩ := p
    obtain ⟨qf, qa, ql⟩ := q
    simp only at *
    subst hf
    have hW : ql < width pf := by omega
    -- the first and the last address of q
    set K := 2 ^ (width pf - ql) with hK
    have hKpos : 0 < K := Nat.two_pow_pos _
    set k := 2 ^ (width pf - pl) with hk
    have hkpos : 0 < k := Nat.two_pow_pos _
    have hdvd : k * 2 ^ (pl - ql) = K := by rw [hk, hK, ← pow_add]; congr 1; omega
    have h2 : 2 ≤ 2 ^ (pl - ql) := by
      calc 2 = 2 ^ 1 := rfl
        _ ≤ _ := Nat.pow_le_pow_right (by norm_num) (by omega)
    have hWK : 2 ^ width pf = K * 2 ^ ql := by rw [hK, ← pow_add]; congr 1; omega
    have hbase : qa / K * K ≤ qa := Nat.div_mul_le_self _ _
    have hqK : qa / K < 2 ^ ql := by
      apply Nat.div_lt_of_lt_mul
      rw [← hWK]; exact hq
    have hlast : qa / K * K + (K - 1) < 2 ^ width pf := by
      have : (qa / K + 1) * K ≤ 2 ^ ql * K := Nat.mul_le_mul_right _ hqK
      rw [hWK, Nat.mul_comm K]
      have e : (qa / K + 1) * K = qa / K * K + K := by ring
      omega
    have hd (r : Nat) (hr : r < K) : (qa / K * K + r) / K = qa / K := by
      rw [Nat.mul_comm, Nat.mul_add_div hKpos, Nat.div_eq_of_lt hr, Nat.add_zero]
    have b1 := (h (qa / K * K + 0) ⟨lt_of_le_of_lt hbase hq, hd 0 hKpos⟩).2
    have b2 := (h (qa / K * K + (K - 1)) ⟨hlast, hd (K - 1) (by omega)⟩).2
    simp only [Nat.add_zero] at b1
    rw [← b1] at b2
    have e1 : qa / K * K = k * (qa / K * 2 ^ (pl - ql)) := by rw [← hdvd]; ring
    rw [e1, Nat.mul_add_div hkpos, Nat.mul_div_cancel_left _ hkpos] at b2
    have h0 : (K - 1) / k = 0 := by omega
    have : k ≤ K - 1 := by
      have : k * 2 ≤ K := by rw [← hdvd]; exact Nat.mul_le_mul_left _ h2
      omega
    have := Nat.div_pos this hkpos
    omega
  · rintro ⟨hf, h1, h2⟩
    refine ⟨hf, ?_⟩
    rintro n ⟨hn, hnq⟩
    rw [← hf] at hn hnq
    refine ⟨hn, ?_⟩
    rw [← h1]
    obtain ⟨d, hd⟩ : ∃ d, width p.fam - p.len = (width p.fam - q.len) + d := ⟨width p.fam - p.len - (width p.fam - q.len), by omega⟩
    rw [hd, pow_add, ← Nat.div_div_eq_div_mul, ← Nat.div_div_eq_div_mul, hnq]

theorem toNat_setWidth32 {x : BitVec 128} (h : x.toNat < 2 ^ 32) : (x.setWidth 32).toNat = x.toNat := by
  rw [BitVec.toNat_setWidth, Nat.mod_eq_of_lt h]

/-- The coverage test of the code is set inclusion. -/
theorem vrpPrefixCov_eq (a b : SPrefix) (fa fb : Fam) (ha : a.fam = some fa) (hb : b.fam = some fb)
    (hpa : Pfx.Proper ⟨fa, a.prefix_.toNat, a.len.toNat⟩) (hpb : b.prefix_.toNat < 2 ^ width fb) :
    ∃ r, vrpPrefixCov a b = .ok r ∧
      (r = true ↔ Pfx.Covers ⟨fa, a.prefix_.toNat, a.len.toNat⟩ ⟨fb, b.prefix_.toNat, b.len.toNat⟩) := by
  obtain ⟨h1, h2, h3⟩ := hpa
  simp only at h1 h2 h3
  rw [covers_iff (p := ⟨fa, a.prefix_.toNat, a.len.toNat⟩) (q := ⟨fb, b.prefix_.toNat, b.len.toNat⟩) h1 hpb]
  unfold vrpPrefixCov
  rw [ha, hb]
  by_cases hf : fa = fb
  · subst hf
    simp only [ne_eq, not_true_eq_false, ite_false]
    cases fa with
    | v4 =>
      refine ⟨_, rfl, ?_⟩
      simp only [width] at *
      rw [Bool.and_eq_true, decide_eq_true_iff, ipv4Covered_iff h1 (by rw [toNat_setWidth32 h2]; exact h3),
        toNat_setWidth32 h2, toNat_setWidth32 hpb]
      simp [BitVec.le_def]
    | v6 =>
      refine ⟨_, rfl, ?_⟩
      simp only [width] at *
      rw [Bool.and_eq_true, decide_eq_true_iff, ipv6Covered_iff h1 h3]
      simp [BitVec.le_def]
  · have : (some fa : Option Fam) ≠ some fb := by simpa using hf
    simp only [this, ne_eq, not_false_eq_true, ite_true]
    exact ⟨false, rfl, by simp [hf]⟩

end Verif.Slurm
