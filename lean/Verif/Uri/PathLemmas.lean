import Verif.Uri.ModelPath
import Mathlib.Tactic.Ring
/-
Lemmas about the path builder.
-/
namespace Verif.Uri
open Verif.Res (Byte)

@[simp] theorem ok_bind {α β} (a : α) (f : α → R β) : (R.ok a >>= f) = f a := rfl
@[simp] theorem err_bind {α β} (e : Err) (f : α → R β) : ((R.err e : R α) >>= f) = .err e := rfl
@[simp] theorem crash_bind {α β} (f : α → R β) : ((R.crash : R α) >>= f) = .crash := rfl

theorem bind_eq_ok {α β} {x : R α} {f : α → R β} {b : β} : (x >>= f) = .ok b ↔ ∃ a, x = .ok a ∧ f a = .ok b := by
  cases x with
  | ok a => simp
  | err e => simp
  | crash => simp

theorem bind_eq_crash {α β} {x : R α} {f : α → R β} : (x >>= f) = .crash ↔ x = .crash ∨ ∃ a, x = .ok a ∧ f a = .crash := by
  cases x with
  | ok a => simp
  | err e => simp
  | crash => simp

/-- What always holds of a path builder: the string and its terminator are in the block. -/
structure PB.Inv (pb : PB) : Prop where
  fits : pb.len < pb.mem.length
  term : pb.mem[pb.len]? = some 0
  cap : initialCapacity ≤ pb.mem.length ∧ pb.mem.length ≤ maxCapacity
  pow : ∃ k, pb.mem.length = initialCapacity * 2 ^ k

theorem str_length {pb : PB} (h : pb.Inv) : pb.str.length = pb.len := by
  simp [PB.str, h.fits.le]

theorem pbInit_inv : pbInit.Inv := by
  refine ⟨by simp [pbInit, initialCapacity], by simp [pbInit, initialCapacity], by simp [pbInit, initialCapacity, maxCapacity], 0, ?_⟩
  simp [pbInit]

theorem growCap_spec : ∀ (d cap total k : Nat), total - cap ≤ d → 0 < cap → cap < total → cap = initialCapacity * 2 ^ k →
    total ≤ maxCapacity → total ≤ growCap cap total ∧ growCap cap total ≤ maxCapacity ∧
      ∃ k, growCap cap total = initialCapacity * 2 ^ k := by
  intro d
  induction d with
  | zero => intro cap total k h1 h2 h3; omega
  | succ d ih =>
    intro cap total k h1 h2 h3 h4 h5
    unfold growCap
    split
    · rename_i h
      exact ih (2 * cap) total (k + 1) (by omega) (by omega) (by omega) (by rw [h4, pow_succ]; ring) h5
    · rename_i h
      refine ⟨by omega, ?_, k + 1, by rw [h4, pow_succ]; ring⟩
      have hk : k < 5 := by
        by_contra hk
        have : 2 ^ 5 ≤ 2 ^ k := Nat.pow_le_pow_right (by omega) (by omega)
        simp only [initialCapacity, maxCapacity] at *
        omega
      have : 2 ^ k ≤ 2 ^ 4 := Nat.pow_le_pow_right (by omega) (by omega)
      simp only [initialCapacity, maxCapacity] at *
      omega

theorem pbGrow_spec {pb : PB} (h : pb.Inv) {total : Nat} (ht : pb.mem.length < total) :
    if maxCapacity < total then pbGrow pb total = .err .nospc
    else ∃ pb', pbGrow pb total = .ok pb' ∧ pb'.Inv ∧ pb'.str = pb.str ∧ pb'.len = pb.len ∧ total ≤ pb'.mem.length := by
  unfold pbGrow
  by_cases hm : maxCapacity < total
  · rw [if_pos hm, if_pos hm]
  · rw [if_neg hm, if_neg hm]
    obtain ⟨k, hk⟩ := h.pow
    obtain ⟨g1, g2, g3⟩ := growCap_spec _ pb.mem.length total k le_rfl (by have := h.fits; omega) ht hk (by omega)
    have hl : (pb.mem ++ List.replicate (growCap pb.mem.length total - pb.mem.length) (0 : Byte)).length =
        growCap pb.mem.length total := by simp; omega
    refine ⟨_, rfl, ⟨?_, ?_, ⟨?_, ?_⟩, ?_⟩, ?_, rfl, ?_⟩
    · simp only; have := h.fits; omega
    · simp only; rw [List.getElem?_append_left h.fits]; exact h.term
    · simp only; have := h.cap; omega
    · simp only; omega
    · simp only; rw [hl]; exact g3
    · simp only [PB.str]; rw [List.take_append_of_le_length h.fits.le]
    · simp only; omega

/-- What `pb_appendn` does: nothing for an empty addend; an error when the path gets too long; otherwise the addend is
added, after a slash unless the path was empty. It does not crash when the addend can be read (one byte more than asked
if there is a slash). -/
theorem pbAppendn_spec {pb : PB} (h : pb.Inv) {src : List Byte} {n : Nat} (hn : n ≠ 0) (hs : n < src.length) :
    if maxCapacity < pb.len + (if pb.len = 0 then n else n + 1) + 1 then pbAppendn pb src n = .err .nospc
    else ∃ pb', pbAppendn pb src n = .ok pb' ∧ pb'.Inv ∧
      pb'.str = pb.str ++ (if pb.len = 0 then [] else [slash]) ++ src.take n := by
  unfold pbAppendn
  rw [if_neg hn]
  simp only [ne_eq, decide_not, Bool.not_eq_true', decide_eq_false_iff_not]
  have key : ∀ (p : PB), p.Inv → p.str = pb.str → p.len = pb.len →
      pb.len + (if pb.len = 0 then n else n + 1) + 1 ≤ p.mem.length →
      ∃ pb', (do
        let mem ← if ¬ pb.len = 0 then do
            let mem ← memSet p.mem p.len slash
            memCpy mem (p.len + 1) src (if ¬ pb.len = 0 then n + 1 else n)
          else memCpy p.mem p.len src (if ¬ pb.len = 0 then n + 1 else n)
        let mem ← memSet mem (p.len + (if ¬ pb.len = 0 then n + 1 else n)) 0
        R.ok ⟨mem, p.len + (if ¬ pb.len = 0 then n + 1 else n)⟩ : R PB) = .ok pb' ∧ pb'.Inv ∧
      pb'.str = pb.str ++ (if pb.len = 0 then [] else [slash]) ++ src.take n := by
    intro p hp hstr hlen hcap
    have hl := str_length hp
    by_cases h0 : pb.len = 0
    · simp only [h0, not_true, if_false, if_true] at hcap ⊢
      rw [hlen, h0]
      have e1 : memCpy p.mem 0 src n = .ok (src.take n ++ p.mem.drop n) := by
        unfold memCpy
        rw [if_pos ⟨by omega, by omega⟩]
        simp
      have hml : (src.take n ++ p.mem.drop n).length = p.mem.length := by simp; omega
      rw [e1, ok_bind]
      have e2 : memSet (src.take n ++ p.mem.drop n) (0 + n) 0 = .ok ((src.take n ++ p.mem.drop n).set n 0) := by
        unfold memSet
        rw [if_pos (by omega), Nat.zero_add]
      rw [e2, ok_bind]
      refine ⟨_, rfl, ⟨?_, ?_, ?_, ?_⟩, ?_⟩
      · simp only [List.length_set, hml]; omega
      · simp only [Nat.zero_add]; rw [List.getElem?_set_self (by omega)]
      · simp only [List.length_set, hml]; exact hp.cap
      · simp only [List.length_set, hml]; exact hp.pow
      · have : pb.str = [] := by rw [← hstr]; exact List.length_eq_zero_iff.1 (by omega)
        simp only [PB.str, this, Nat.zero_add, List.nil_append] at *
        rw [List.take_set_of_le (by omega), List.take_append_of_le_length (by simp; omega), List.take_take]
        simp [this]
    · simp only [h0, not_false_iff, if_true, if_false] at hcap ⊢
      rw [hlen]
      have e0 : memSet p.mem pb.len slash = .ok (p.mem.set pb.len slash) := by
        unfold memSet; rw [if_pos (by omega)]
      rw [e0, ok_bind]
      have e1 : memCpy (p.mem.set pb.len slash) (pb.len + 1) src (n + 1) =
          .ok ((p.mem.set pb.len slash).take (pb.len + 1) ++ src.take (n + 1) ++
            (p.mem.set pb.len slash).drop (pb.len + 1 + (n + 1))) := by
        unfold memCpy
        rw [if_pos ⟨by rw [List.length_set]; omega, by omega⟩]
      rw [e1, ok_bind]
      have ht : (p.mem.set pb.len slash).take (pb.len + 1) = p.str ++ [slash] := by
        rw [List.take_add_one, List.getElem?_set_self (by omega), List.take_set_of_le (by omega)]
        simp [PB.str, hlen]
      rw [ht]
      have hml : (p.str ++ [slash] ++ src.take (n + 1) ++ (p.mem.set pb.len slash).drop (pb.len + 1 + (n + 1))).length =
          p.mem.length := by
        simp only [List.length_append, List.length_take, List.length_drop, List.length_set, List.length_cons,
          List.length_nil, hl]
        omega
      have e2 : memSet (p.str ++ [slash] ++ src.take (n + 1) ++ (p.mem.set pb.len slash).drop (pb.len + 1 + (n + 1)))
          (pb.len + (n + 1)) 0 = .ok ((p.str ++ [slash] ++ src.take (n + 1) ++
            (p.mem.set pb.len slash).drop (pb.len + 1 + (n + 1))).set (pb.len + (n + 1)) 0) := by
        unfold memSet
        rw [if_pos (by omega)]
      rw [e2, ok_bind]
      refine ⟨_, rfl, ⟨?_, ?_, ?_, ?_⟩, ?_⟩
      · simp only [List.length_set, hml]; omega
      · simp only; rw [List.getElem?_set_self (by omega)]
      · simp only [List.length_set, hml]; exact hp.cap
      · simp only [List.length_set, hml]; exact hp.pow
      · simp only [PB.str]
        rw [List.take_set_of_le (by omega)]
        have e3 : src.take (n + 1) = src.take n ++ [src[n]] := by
          rw [List.take_add_one]; simp [List.getElem?_eq_getElem hs]
        rw [e3, show p.mem.take p.len = p.str from rfl, ← List.append_assoc, List.append_assoc (p.str ++ [slash] ++ src.take n)]
        rw [List.take_append_of_le_length (by simp [hl]; omega), List.take_of_length_le (by simp [hl]; omega)]
        rw [hstr]; rfl
  have he : (if ¬ pb.len = 0 then n + 1 else n) = (if pb.len = 0 then n else n + 1) := by
    by_cases h0 : pb.len = 0 <;> simp [h0]
  rw [he]
  rw [he] at key
  by_cases hg : pb.mem.length < pb.len + (if pb.len = 0 then n else n + 1) + 1
  · have := pbGrow_spec h hg
    rw [if_pos hg]
    by_cases hm : maxCapacity < pb.len + (if pb.len = 0 then n else n + 1) + 1
    · rw [if_pos hm] at this ⊢
      rw [this, err_bind]
    · rw [if_neg hm] at this ⊢
      obtain ⟨p, e, hp, hstr, hlen, hcap⟩ := this
      rw [e, ok_bind]
      exact key p hp hstr hlen hcap
  · rw [if_neg hg]
    rw [if_neg (by have := h.cap; omega), ok_bind]
    exact key pb h rfl rfl (by omega)

theorem findSlash_eq {mem : List Byte} {j : Nat} (hj : mem[j]? = some slash) (hpos : 1 ≤ j) :
    ∀ {i}, j ≤ i → i < mem.length → (∀ k, j < k → k ≤ i → mem[k]? ≠ some slash) → findSlash mem i = .ok (some j) := by
  intro i
  induction i with
  | zero => intro h; omega
  | succ i ih =>
    intro h1 h2 h3
    unfold findSlash
    rw [List.getElem?_eq_getElem h2]
    simp only
    by_cases he : j = i + 1
    · subst he
      rw [List.getElem?_eq_getElem h2] at hj
      simp only [Option.some.injEq] at hj
      rw [if_pos hj]
    · have := h3 (i + 1) (by omega) le_rfl
      rw [List.getElem?_eq_getElem h2] at this
      rw [if_neg (by simpa using this)]
      exact ih (by omega) (by omega) (fun k hk hk2 => h3 k hk (by omega))

/-- Popping the component that was added last. -/
theorem pbPop_spec {pb : PB} (h : pb.Inv) {s c : List Byte} (hs : s ≠ []) (hc : slash ∉ c)
    (hstr : pb.str = s ++ [slash] ++ c) (fatal : Bool) : ∃ pb', pbPop pb fatal = .ok pb' ∧ pb'.Inv ∧ pb'.str = s := by
  have hl := str_length h
  have hlen : pb.len = s.length + 1 + c.length := by rw [← hl, hstr]; simp; omega
  have hpos : 1 ≤ s.length := by
    cases s
    · exact absurd rfl hs
    · simp
  have hget : ∀ k, k < pb.len → pb.mem[k]? = (s ++ [slash] ++ c)[k]? := by
    intro k hk
    rw [← hstr, PB.str, List.getElem?_take, if_pos hk]
  have hf : findSlash pb.mem (pb.len - 1) = .ok (some s.length) := by
    refine findSlash_eq ?_ hpos (by omega) (by have := h.fits; omega) ?_
    · rw [hget _ (by omega)]
      simp
    · intro k hk hk2 he
      rw [hget _ (by omega)] at he
      rw [List.append_assoc, List.getElem?_append_right (by omega), List.getElem?_append_right (by simp; omega)] at he
      exact hc (List.mem_of_getElem? he)
  unfold pbPop
  rw [if_neg (by rintro (h | ⟨h, -⟩) <;> omega), hf, ok_bind]
  have e : memSet pb.mem s.length 0 = .ok (pb.mem.set s.length 0) := by
    unfold memSet; rw [if_pos (by have := h.fits; omega)]
  simp only [e, ok_bind]
  have := h.fits
  refine ⟨_, rfl, ⟨?_, ?_, ?_, ?_⟩, ?_⟩
  · simp only [List.length_set]; omega
  · simp only; rw [List.getElem?_set_self (by omega)]
  · simp only [List.length_set]; exact h.cap
  · simp only [List.length_set]; exact h.pow
  · simp only [PB.str]
    rw [List.take_set_of_le le_rfl]
    have : pb.mem.take s.length = (pb.mem.take pb.len).take s.length := by rw [List.take_take]; congr 1; omega
    rw [this, show pb.mem.take pb.len = pb.str from rfl, hstr, List.append_assoc]
    simp

end Verif.Uri
