import Mathlib.Tactic.ByContra
import Verif.Log.Spec
/-
Lemmas about the logs.
-/
namespace Verif.Log

/-! ### File names -/

/-- The files that are being processed, innermost first, are what the stack has. -/
structure Holds (f : FnStack) (names : List Text) : Prop where
  len : f.len = names.length
  size : f.filenames.length = f.size
  big : 32 ≤ f.size
  pow : ∃ k, f.size = 2 ^ k
  slot : ∀ i, i < names.length → f.filenames[i]? = some (names.reverse[i]?)

theorem holds_init : Holds fnstackInit [] :=
  ⟨rfl, by simp [fnstackInit], by simp [fnstackInit], ⟨5, rfl⟩, by intro i h; simp at h⟩

theorem holds_peek {f : FnStack} {names : List Text} (h : Holds f names) : fnstackPeek f = peekOf names.head? := by
  unfold fnstackPeek
  cases names with
  | nil => have := h.len; simp at this; simp [this, peekOf]
  | cons n ns =>
    have hl := h.len
    have := h.slot (f.len - 1) (by rw [hl]; simp)
    have h0 : f.len ≠ 0 := by rw [hl]; simp
    rw [if_neg h0, this, hl]
    simp [peekOf]

theorem holds_pop {f : FnStack} {n : Text} {names : List Text} (h : Holds f (n :: names)) : Holds (fnstackPop f) names := by
  have h0 : f.len ≠ 0 := by rw [h.len]; simp
  unfold fnstackPop
  rw [if_neg h0]
  refine ⟨by simp [h.len], h.size, h.big, h.pow, ?_⟩
  intro i hi
  have := h.slot i (by simp; omega)
  simp only [this]
  rw [List.reverse_cons, List.getElem?_append_left (by simpa using hi)]

theorem pow_lt_cases {k : Nat} (h : 2 ^ k < 2 ^ 31) : 2 * 2 ^ k ≤ 2 ^ 31 := by
  have : k < 31 := (Nat.pow_lt_pow_iff_right (by omega)).mp h
  calc 2 * 2 ^ k = 2 ^ (k + 1) := by rw [Nat.pow_succ, Nat.mul_comm]
    _ ≤ 2 ^ 31 := Nat.pow_le_pow_right (by omega) (by omega)

/-- Adding to an array that has room. -/
theorem holds_set {f : FnStack} {names : List Text} (h : Holds f names) (hlt : f.len < f.size) (hd : names.length < 2 ^ 31) (n : Text) :
    (if f.len < f.filenames.length then some { f with filenames := f.filenames.set f.len (some n), len := (f.len + 1) % 2 ^ 32 } else none) =
      some { f with filenames := f.filenames.set f.len (some n), len := f.len + 1 } ∧
    Holds { f with filenames := f.filenames.set f.len (some n), len := f.len + 1 } (n :: names) := by
  have hl := h.len
  refine ⟨?_, ?_⟩
  · rw [if_pos (by rw [h.size]; exact hlt), Nat.mod_eq_of_lt (by omega)]
  · refine ⟨by simp [hl], by simp [h.size], h.big, h.pow, ?_⟩
    intro i hi
    simp only [List.length_cons] at hi
    by_cases hil : i = f.len
    · subst hil
      rw [List.getElem?_set_self (by rw [h.size]; exact hlt)]
      simp [hl]
    · have : i < names.length := by omega
      simp only
      rw [List.getElem?_set_ne (by omega), h.slot i this, List.reverse_cons, List.getElem?_append_left (by simpa using this)]

theorem holds_push {f : FnStack} {names : List Text} (h : Holds f names) (hd : names.length < 2 ^ 31) (n : Text) :
    ∃ f', fnstackPush f n = some f' ∧ Holds f' (n :: names) := by
  have hl := h.len
  by_cases hge : f.len ≥ f.size
  · obtain ⟨k, hk⟩ := h.pow
    have hsz : f.size < 2 ^ 31 := by omega
    have hdbl : 2 * f.size ≤ 2 ^ 31 := by rw [hk] at hsz ⊢; exact pow_lt_cases hsz
    have hmod : 2 * f.size % 2 ^ 32 = 2 * f.size := Nat.mod_eq_of_lt (by omega)
    have hg : Holds { f with filenames := f.filenames.take (2 * f.size) ++ List.replicate (2 * f.size - f.filenames.length) none, size := 2 * f.size } names := by
      refine ⟨hl, ?_, ?_, ⟨k + 1, ?_⟩, ?_⟩
      · simp [h.size]; omega
      · have := h.big; simp only; omega
      · simp only [hk, Nat.pow_succ]; omega
      · intro i hi
        have hi2 : i < f.filenames.length := by
          by_contra hc
          have := h.slot i hi
          rw [List.getElem?_eq_none (by omega)] at this
          simp at this
        simp only
        rw [List.take_of_length_le (by rw [h.size]; omega), List.getElem?_append_left hi2, h.slot i hi]
    have hb := h.big
    obtain ⟨h1, h2⟩ := holds_set hg (by simp only; have : f.len = f.size := by
                                          by_contra hc
                                          have h3 : f.size < names.length := by omega
                                          have := h.slot f.size h3
                                          rw [List.getElem?_eq_none (by rw [h.size]; omega)] at this
                                          simp at this
                                        omega) hd n
    refine ⟨_, ?_, h2⟩
    unfold fnstackPush
    rw [if_pos hge, hmod]
    exact h1
  · obtain ⟨h1, h2⟩ := holds_set h (by omega) hd n
    refine ⟨_, ?_, h2⟩
    unfold fnstackPush
    rw [if_neg hge]
    exact h1

/-! ### Lines -/

theorem linesAcc_append (acc t u : Text) (h : '\n' ∉ t) : linesAcc acc (t ++ '\n' :: u) = (acc ++ t) :: linesAcc [] u := by
  induction t generalizing acc with
  | nil => simp [linesAcc]
  | cons c t ih =>
    have hc : c ≠ '\n' := by intro hc; exact h (by simp [hc])
    simp only [List.cons_append, linesAcc, hc, if_false]
    rw [ih _ (fun hm => h (by simp [hm]))]
    simp

theorem linesOf_flat (ls : List Text) (h : ∀ l ∈ ls, '\n' ∉ l) : linesOf (ls.flatMap fun l => l ++ ['\n']) = ls := by
  unfold linesOf
  induction ls with
  | nil => rfl
  | cons l ls ih =>
    simp only [List.flatMap_cons, List.append_assoc, List.cons_append, List.nil_append]
    rw [linesAcc_append _ _ _ (h l (by simp))]
    rw [ih (fun x hx => h x (by simp [hx]))]
    simp

end Verif.Log
