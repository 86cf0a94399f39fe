import Verif.Cache.CleanupProps
/-
C78: names of temporary files (src/cache/local_cache.c, src/data_structure/path_builder.c).
-/
namespace Verif.Cache
open Verif.Res (Byte)
open Verif.Uri

/-- The digits `%X` has. -/
def hexDigit (d : Nat) : Byte := if d < 10 then BitVec.ofNat 8 (0x30 + d) else BitVec.ofNat 8 (0x41 + (d - 10))

/-- `snprintf(…, "%X", n)` (src/data_structure/path_builder.c:109-126 `pb_append_u32`), most significant digit first -/
def hexStr (n : Nat) : List Byte := if n < 16 then [hexDigit n] else hexStr (n / 16) ++ [hexDigit (n % 16)]

/-- src/data_structure/path_builder.c:109-126 `pb_append_u32`; `snprintf` works. The buffer has 9 bytes. -/
def pbAppendU32 (pb : PB) (num : BitVec 32) : R PB :=
  let s := hexStr num.toNat
  if 9 ≤ s.length then .crash else pbAppendn pb (s ++ [0]) s.length

/-- "tmp" -/
def tmpDir : List Byte := [0x74, 0x6D, 0x70]

/-- src/cache/local_cache.c:214-231 `cache_tmpfile`, with the counter. The addition is atomic: whatever the threads do, the
calls happen one after the other as far as the counter goes. -/
def cacheTmpfile (repo : List Byte) (counter : BitVec 32) : R (List Byte) × BitVec 32 :=
  (do let pb ← pbInitCache repo none (some tmpDir)
      let pb ← pbAppendU32 pb counter
      .ok pb.str, counter + 1)

/-- What `k` calls answer, in the order in which they get to the counter. -/
def tmpfiles (repo : List Byte) : Nat → BitVec 32 → List (R (List Byte))
  | 0, _ => []
  | k + 1, ctr => (cacheTmpfile repo ctr).1 :: tmpfiles repo k (cacheTmpfile repo ctr).2

theorem hexDigit_inj {a b : Nat} (ha : a < 16) (hb : b < 16) (h : hexDigit a = hexDigit b) : a = b := by
  have : ∀ a < 16, ∀ b < 16, hexDigit a = hexDigit b → a = b := by decide
  exact this a ha b hb h

theorem hexStr_inj : ∀ (n m : Nat), hexStr n = hexStr m → n = m := by
  intro n
  induction n using Nat.strongRecOn with
  | _ n ih =>
    intro m h
    rw [hexStr, hexStr.eq_1 m] at h
    have ne : ∀ k, hexStr k ≠ [] := by
      intro k; rw [hexStr]; split <;> simp
    by_cases hn : n < 16
    · rw [if_pos hn] at h
      by_cases hm : m < 16
      · rw [if_pos hm] at h
        exact hexDigit_inj hn hm (by simpa using h)
      · rw [if_neg hm] at h
        cases hh : hexStr (m / 16) with
        | nil => exact absurd hh (ne _)
        | cons a l => rw [hh] at h; simp at h
    · rw [if_neg hn] at h
      by_cases hm : m < 16
      · rw [if_pos hm] at h
        cases hh : hexStr (n / 16) with
        | nil => exact absurd hh (ne _)
        | cons a l => rw [hh] at h; simp at h
      · rw [if_neg hm] at h
        obtain ⟨h1, h2⟩ := List.append_inj' h rfl
        have e1 := ih (n / 16) (by omega) _ h1
        have e2 := hexDigit_inj (Nat.mod_lt n (by decide)) (Nat.mod_lt m (by decide)) (by simpa using h2)
        omega

theorem hexStr_len : ∀ (k n : Nat), n < 16 ^ (k + 1) → (hexStr n).length ≤ k + 1 := by
  intro k
  induction k with
  | zero => intro n h; rw [hexStr, if_pos (by omega)]; simp
  | succ k ih =>
    intro n h
    rw [hexStr]
    split
    · simp
    · have := ih (n / 16) (by rw [pow_succ] at h; omega)
      simp only [List.length_append, List.length_cons, List.length_nil]
      omega

theorem hexStr_digits : ∀ (n : Nat), ∀ b ∈ hexStr n, b ≠ slash ∧ b ≠ 0 ∧ b ≠ dot := by
  intro n
  induction n using Nat.strongRecOn with
  | _ n ih =>
    have d : ∀ a < 16, hexDigit a ≠ slash ∧ hexDigit a ≠ 0 ∧ hexDigit a ≠ dot := by decide
    intro b hb
    rw [hexStr] at hb
    split at hb
    · rename_i h
      simp only [List.mem_singleton] at hb
      subst hb
      exact d _ h
    · rcases List.mem_append.1 hb with hb | hb
      · exact ih _ (by omega) b hb
      · simp only [List.mem_singleton] at hb
        subst hb
        exact d _ (by omega)

theorem hexStr_ne (n : Nat) : hexStr n ≠ [] := by
  rw [hexStr]; split <;> simp

theorem pbAppendU32_eq (pb : PB) (num : BitVec 32) : pbAppendU32 pb num = pbAppend pb (some (hexStr num.toNat)) := by
  unfold pbAppendU32
  have := hexStr_len 7 num.toNat (by have := num.isLt; omega)
  simp only
  rw [if_neg (by omega)]
  rfl

theorem tmpfiles_get (repo : List Byte) : ∀ (k i : Nat) (ctr : BitVec 32), i < k →
    (tmpfiles repo k ctr)[i]? = some (cacheTmpfile repo (ctr + BitVec.ofNat 32 i)).1 := by
  intro k
  induction k with
  | zero => intro i _ h; omega
  | succ k ih =>
    intro i ctr h
    cases i with
    | zero => simp [tmpfiles]
    | succ i =>
      rw [tmpfiles, List.getElem?_cons_succ, ih i _ (by omega)]
      simp only [cacheTmpfile]
      have : ctr + 1 + BitVec.ofNat 32 i = ctr + BitVec.ofNat 32 (i + 1) := by
        apply BitVec.eq_of_toNat_eq
        have h1 : (1 : BitVec 32).toNat = 1 := rfl
        simp only [BitVec.toNat_add, BitVec.toNat_ofNat, h1]
        omega
      rw [this]

theorem tmpfile_spec {repo : List Byte} (hr : repo ≠ []) (ctr : BitVec 32) :
    (cacheTmpfile repo ctr).1 = .ok (pathOf repo [tmpDir, hexStr ctr.toNat]) ∨ (cacheTmpfile repo ctr).1 = .err .nospc := by
  unfold cacheTmpfile pbInitCache
  simp only
  rcases pbInit_repo hr with ⟨pb, e, hi, hs⟩ | ⟨e, h⟩
  · rw [e, ok_bind]
    have : pbAppend pb none = .ok pb := rfl
    rw [this, ok_bind]
    rcases pbAppend_path hi hr hs (c := tmpDir) (by decide) with ⟨pb', e', hi', hs'⟩ | ⟨e', h'⟩
    · rw [e', ok_bind, pbAppendU32_eq]
      rcases pbAppend_path hi' hr hs' (hexStr_ne ctr.toNat) with ⟨pb2, e2, hi2, hs2⟩ | ⟨e2, h2⟩
      · rw [e2, ok_bind, hs2]
        exact .inl rfl
      · rw [e2]; exact .inr rfl
    · rw [e']; exact .inr rfl
  · rw [e]; exact .inr rfl

/-- **C78.** Temporary files that are asked for less than 2³² calls apart, by whatever threads, get different names, and all
of them are files directly in `<repository>/tmp`. -/
theorem C78_unique {repo : List Byte} (hr : repo ≠ []) (ctr : BitVec 32) (k i j : Nat) (hij : i < j) (hj : j < k)
    (hd : j - i < 2 ^ 32) (a b : List Byte) (ha : (tmpfiles repo k ctr)[i]? = some (.ok a))
    (hb : (tmpfiles repo k ctr)[j]? = some (.ok b)) :
    a ≠ b ∧ (∃ name, Proper name ∧ a = pathOf repo [tmpDir, name]) ∧ (∃ name, Proper name ∧ b = pathOf repo [tmpDir, name]) := by
  rw [tmpfiles_get repo k i ctr (by omega)] at ha
  rw [tmpfiles_get repo k j ctr hj] at hb
  simp only [Option.some.injEq] at ha hb
  have proper : ∀ n, Proper (hexStr n) := by
    intro n
    refine ⟨hexStr_ne n, fun h => (hexStr_digits n _ h).1 rfl, fun h => ?_, fun h => ?_⟩
    · exact (hexStr_digits n dot (by rw [h]; simp)).2.2 rfl
    · exact (hexStr_digits n dot (by rw [h]; simp)).2.2 rfl
  rcases tmpfile_spec hr (ctr + BitVec.ofNat 32 i) with h1 | h1
  · rcases tmpfile_spec hr (ctr + BitVec.ofNat 32 j) with h2 | h2
    · rw [h1] at ha
      rw [h2] at hb
      cases ha
      cases hb
      refine ⟨fun e => ?_, ⟨_, proper _, rfl⟩, ⟨_, proper _, rfl⟩⟩
      rw [pathOf_inj] at e
      · simp only [List.cons.injEq, and_true, true_and] at e
        have := hexStr_inj _ _ e
        simp only [BitVec.toNat_add, BitVec.toNat_ofNat] at this
        omega
      · intro c hc
        simp only [List.mem_cons, List.not_mem_nil, or_false] at hc
        rcases hc with rfl | rfl
        · decide
        · exact (proper _).2.1
      · intro c hc
        simp only [List.mem_cons, List.not_mem_nil, or_false] at hc
        rcases hc with rfl | rfl
        · decide
        · exact (proper _).2.1
    · rw [h2] at hb; cases hb
  · rw [h1] at ha; cases ha

/-- It always works when the directory's path is not too long. -/
theorem C78_total {repo : List Byte} (hr : repo ≠ []) (hl : repo.length + 13 < maxCapacity) (ctr : BitVec 32) :
    (cacheTmpfile repo ctr).1 = .ok (pathOf repo [tmpDir, hexStr ctr.toNat]) := by
  unfold cacheTmpfile pbInitCache
  simp only
  have hx := hexStr_len 7 ctr.toNat (by have := ctr.isLt; omega)
  rcases pbInit_repo hr with ⟨pb, e, hi, hs⟩ | ⟨e, h⟩
  · rw [e, ok_bind]
    have : pbAppend pb none = .ok pb := rfl
    rw [this, ok_bind]
    rcases pbAppend_path hi hr hs (c := tmpDir) (by decide) with ⟨pb', e', hi', hs'⟩ | ⟨e', h'⟩
    · rw [e', ok_bind, pbAppendU32_eq]
      rcases pbAppend_path hi' hr hs' (hexStr_ne ctr.toNat) with ⟨pb2, e2, hi2, hs2⟩ | ⟨e2, h2⟩
      · rw [e2, ok_bind, hs2]
        rfl
      · exfalso
        simp [pathOf, tmpDir] at h2
        omega
    · exfalso
      simp [pathOf, tmpDir] at h'
      omega
  · exfalso; omega

/-- The counter wraps around. -/
example : tmpfiles (txt "/r") 3 0xFFFFFFFE =
    [.ok (txt "/r/tmp/FFFFFFFE"), .ok (txt "/r/tmp/FFFFFFFF"), .ok (txt "/r/tmp/0")] := by
  decide +kernel

end Verif.Cache
