/-
C19: the text of a received Error Report is cut to structurally valid UTF-8.
-/
import Mathlib.Data.List.Basic
import Verif.Rtr.SpecStream

namespace Verif.Rtr

theorem getOctets_one (b : Byte) : getOctets b = some 1 ↔ b.toNat < 0x80 := by
  revert b; decide
theorem getOctets_two (b : Byte) : getOctets b = some 2 ↔ 0xC0 ≤ b.toNat ∧ b.toNat < 0xE0 := by
  revert b; decide
theorem getOctets_three (b : Byte) : getOctets b = some 3 ↔ 0xE0 ≤ b.toNat ∧ b.toNat < 0xF0 := by
  revert b; decide
theorem getOctets_four (b : Byte) : getOctets b = some 4 ↔ 0xF0 ≤ b.toNat ∧ b.toNat < 0xF8 := by
  revert b; decide
theorem getOctets_range (b : Byte) : getOctets b = none ∨ getOctets b = some 1 ∨ getOctets b = some 2 ∨
    getOctets b = some 3 ∨ getOctets b = some 4 := by
  revert b; decide
theorem cont_iff (b : Byte) : b >>> 6 = 2 ↔ isCont b := by
  unfold isCont; revert b; decide

theorem skipContinuation_iff (n : Nat) (bs r : List Byte) :
    skipContinuation n bs = some r ↔ ∃ cs, bs = cs ++ r ∧ cs.length = n ∧ ∀ c ∈ cs, isCont c := by
  induction n generalizing bs with
  | zero =>
    simp only [skipContinuation, Option.some.injEq]
    constructor
    · rintro rfl; exact ⟨[], rfl, rfl, by simp⟩
    · rintro ⟨cs, rfl, h, _⟩; simp [List.length_eq_zero_iff.1 h]
  | succ n ih =>
    cases bs with
    | nil =>
      simp only [skipContinuation]
      constructor
      · intro h; cases h
      · rintro ⟨cs, h, h2, _⟩
        have := congrArg List.length h
        simp at this; omega
    | cons b bs =>
      simp only [skipContinuation]
      by_cases hb : b >>> 6 = 2
      · rw [if_pos hb, ih]
        constructor
        · rintro ⟨cs, rfl, h1, h2⟩
          refine ⟨b :: cs, rfl, by simp [h1], ?_⟩
          intro c hc
          rcases List.mem_cons.1 hc with rfl | hc
          · exact (cont_iff c).1 hb
          · exact h2 c hc
        · rintro ⟨cs, h, h1, h2⟩
          cases cs with
          | nil => simp at h1
          | cons c cs =>
            simp only [List.cons_append, List.cons.injEq] at h
            exact ⟨cs, h.2, by simpa using h1, fun x hx => h2 x (by simp [hx])⟩
      · rw [if_neg hb]
        constructor
        · intro h; cases h
        · rintro ⟨cs, h, h1, h2⟩
          cases cs with
          | nil => simp at h1
          | cons c cs =>
            simp only [List.cons_append, List.cons.injEq] at h
            exact absurd ((cont_iff b).2 (h.1 ▸ h2 c (by simp))) hb

/-- One step of the scan: a code point at the front, or none. -/
theorem scan_iff (b : Byte) (bs r : List Byte) (n : Nat) (hn : getOctets b = some n) :
    skipContinuation (n - 1) bs = some r ↔ ∃ cp, CodePoint cp ∧ cp.length = n ∧ b :: bs = cp ++ r := by
  rw [skipContinuation_iff]
  have hr := getOctets_range b
  constructor
  · rintro ⟨cs, rfl, h1, h2⟩
    refine ⟨b :: cs, ?_, ?_, rfl⟩
    · rcases hr with h | h | h | h | h <;> rw [h] at hn
      · cases hn
      · cases hn
        have : cs = [] := List.length_eq_zero_iff.1 h1
        subst this
        exact .one b ((getOctets_one b).1 h)
      · cases hn
        obtain ⟨c, rfl⟩ := List.length_eq_one_iff.1 h1
        have := (getOctets_two b).1 h
        exact .two b c this.1 this.2 (h2 c (by simp))
      · cases hn
        obtain ⟨c, d, rfl⟩ := List.length_eq_two.1 h1
        have := (getOctets_three b).1 h
        exact .three b c d this.1 this.2 (h2 c (by simp)) (h2 d (by simp))
      · cases hn
        obtain ⟨c, d, e, rfl⟩ := List.length_eq_three.1 h1
        have := (getOctets_four b).1 h
        exact .four b c d e this.1 this.2 (h2 c (by simp)) (h2 d (by simp)) (h2 e (by simp))
    · rcases hr with h | h | h | h | h <;> rw [h] at hn <;> cases hn <;> simp [h1]
  · rintro ⟨cp, hcp, rfl, heq⟩
    cases cp with
    | nil => cases hcp
    | cons a cs =>
      simp only [List.cons_append, List.cons.injEq] at heq
      obtain ⟨rfl, rfl⟩ := heq
      refine ⟨cs, rfl, by simp, ?_⟩
      cases hcp <;> simp_all

theorem codePoint_octets {b : Byte} {bs : List Byte} (h : CodePoint (b :: bs)) :
    getOctets b = some (bs.length + 1) := by
  cases h with
  | one _ h => exact (getOctets_one b).2 h
  | two _ c h1 h2 => exact (getOctets_two b).2 ⟨h1, h2⟩
  | three _ c d h1 h2 => exact (getOctets_three b).2 ⟨h1, h2⟩
  | four _ c d e h1 h2 => exact (getOctets_four b).2 ⟨h1, h2⟩

theorem placeNull_shift (rest : List Byte) (pos : Nat) : placeNull rest pos = pos + placeNull rest 0 := by
  induction hn : rest.length using Nat.strongRecOn generalizing rest pos with
  | _ n ih =>
    unfold placeNull
    cases rest with
    | nil => simp
    | cons b bs =>
      simp only
      cases hg : getOctets b with
      | none => simp
      | some k =>
        simp only
        cases hs : skipContinuation (k - 1) bs with
        | none => simp
        | some r =>
          simp only
          have hl := skipContinuation_length hs
          simp at hn
          rw [ih r.length (by omega) r (pos + k) rfl, ih r.length (by omega) r (0 + k) rfl]
          omega

theorem placeNull_spec (text : List Byte) :
    placeNull text 0 ≤ text.length ∧ Utf8 (text.take (placeNull text 0)) ∧
    ∀ q, q <+: text → Utf8 q → q.length ≤ placeNull text 0 := by
  induction hn : text.length using Nat.strongRecOn generalizing text with
  | _ n ih =>
    unfold placeNull
    cases text with
    | nil =>
      refine ⟨by simp, by simpa using Utf8.nil, ?_⟩
      intro q hq _
      simp [List.prefix_nil.1 hq]
    | cons b bs =>
      simp only at hn ⊢
      have stop : (∀ cp r, CodePoint cp → b :: bs ≠ cp ++ r) →
          ∀ q, q <+: b :: bs → Utf8 q → q.length ≤ 0 := by
        rintro hno q ⟨t, ht⟩ hq
        cases hq with
        | nil => simp
        | cons cp rest hcp _ => exact absurd (by rw [← ht, List.append_assoc]) (hno cp (rest ++ t) hcp)
      cases hg : getOctets b with
      | none =>
        simp only
        refine ⟨by simp, by simpa using Utf8.nil, stop ?_⟩
        intro cp r hcp heq
        cases cp with
        | nil => cases hcp
        | cons a cs =>
          simp only [List.cons_append, List.cons.injEq] at heq
          have := codePoint_octets hcp
          rw [← heq.1, hg] at this
          cases this
      | some k =>
        simp only
        cases hs : skipContinuation (k - 1) bs with
        | none =>
          simp only
          refine ⟨by simp, by simpa using Utf8.nil, stop ?_⟩
          intro cp r hcp heq
          cases cp with
          | nil => cases hcp
          | cons a cs =>
            have heq' := heq
            simp only [List.cons_append, List.cons.injEq] at heq
            have := codePoint_octets hcp
            rw [← heq.1, hg] at this
            have := (scan_iff b bs r k hg).2 ⟨a :: cs, hcp, by cases this; rfl, heq'⟩
            rw [hs] at this
            cases this
        | some r =>
          simp only
          obtain ⟨cp, hcp, hk, heq⟩ := (scan_iff b bs r k hg).1 hs
          have hkpos : 0 < cp.length := by cases hcp <;> simp
          have hlen : (b :: bs).length = cp.length + r.length := by rw [heq, List.length_append]
          simp only [List.length_cons] at hlen hn
          obtain ⟨i1, i2, i3⟩ := ih r.length (by omega) r rfl
          rw [placeNull_shift, ← hk, Nat.zero_add]
          refine ⟨by omega, ?_, ?_⟩
          · rw [heq, List.take_append, List.take_of_length_le (by omega), Nat.add_sub_cancel_left]
            exact Utf8.cons cp _ hcp i2
          · rintro q ⟨t, ht⟩ hq
            cases hq with
            | nil => simp
            | cons cp' rest hcp' hrest =>
              have e : cp' ++ (rest ++ t) = cp ++ r := by rw [← List.append_assoc, ht, heq]
              have hl : cp'.length = cp.length := by
                cases cp' with
                | nil => cases hcp'
                | cons a cs =>
                  cases cp with
                  | nil => cases hcp
                  | cons a' cs' =>
                    simp only [List.cons_append, List.cons.injEq] at e
                    have h1 := codePoint_octets hcp'
                    have h2 := codePoint_octets hcp
                    rw [← e.1, h1] at h2
                    simpa using h2
              obtain ⟨rfl, e2⟩ := List.append_inj e hl
              have := i3 rest ⟨t, e2⟩ hrest
              simp only [List.length_append]
              omega

/-- C19. In the C string of `text.length + 1` bytes, the terminator is written at a position within the string
(`≤ text.length`); the text before it is a sequence of structurally complete UTF-8 code points; and it is the
longest prefix of the received text with that property. -/
theorem C19_utf8_cut (text : List Byte) :
    placeNull text 0 < text.length + 1 ∧ Utf8 (text.take (placeNull text 0)) ∧
    ∀ q, q <+: text → Utf8 q → q <+: text.take (placeNull text 0) := by
  obtain ⟨h1, h2, h3⟩ := placeNull_spec text
  refine ⟨by omega, h2, ?_⟩
  intro q hq hu
  have hl := h3 q hq hu
  obtain ⟨t, rfl⟩ := hq
  rw [List.take_append, List.take_of_length_le hl]
  exact List.prefix_append _ _

/-- "aé" followed by a truncated three byte sequence: three bytes are kept. -/
example : placeNull [0x61, 0xC3, 0xA9, 0xE2, 0x82] 0 = 3 := by
  simp [placeNull, getOctets, skipContinuation]

end Verif.Rtr
