import Verif.Cms.BerLemmas
import Verif.Cms.SpecOid
/-
C85: comparing object identifiers.
-/
namespace Verif.Cms
open Verif.Res (Byte)

theorem val128_append (a : List Byte) (y : Byte) : val128 (a ++ [y]) = val128 a * 128 + y.toNat % 128 := by
  simp [val128, List.foldl_append]

theorem arcs_nil (acc : Nat) : arcsLoop acc false [] = some [] := rfl

theorem arcs_cons (acc : Nat) (i : Bool) (b : Byte) (s : List Byte) : arcsLoop acc i (b :: s) =
    if b &&& 0x80 = 0 then (arcsLoop 0 false s).map ((acc * 128 + b.toNat % 128) % 2 ^ 32 :: ·)
    else arcsLoop ((acc * 128 + b.toNat % 128) % 2 ^ 32) true s := by
  rw [arcsLoop]
  simp only [byte_low7]
  split
  · rw [if_pos (by have := Nat.mod_lt (acc * 128 + b.toNat % 128) (show 0 < 2 ^ 32 by decide); omega)]
  · rfl

/-- Reading one subidentifier, having read some of it. -/
theorem arcs_group : ∀ (bs : List Byte) (y : Byte) (rest : List Byte) (acc : Nat) (i : Bool), (∀ x ∈ bs, 128 ≤ x.toNat) → y.toNat < 128 →
    ∀ pre, acc = val128 pre % 2 ^ 32 →
    arcsLoop acc i (bs ++ y :: rest) = (arcsLoop 0 false rest).map (val128 (pre ++ bs ++ [y]) % 2 ^ 32 :: ·) := by
  intro bs
  induction bs with
  | nil =>
    intro y rest acc i _ hy pre hacc
    rw [List.nil_append, arcs_cons, if_pos ((byte_top y).2 hy), List.append_nil, val128_append, hacc,
      show (val128 pre % 2 ^ 32 * 128 + y.toNat % 128) % 2 ^ 32 = (val128 pre * 128 + y.toNat % 128) % 2 ^ 32 by omega]
  | cons b bs ih =>
    intro y rest acc i hb hy pre hacc
    rw [List.cons_append, arcs_cons, if_neg (fun h => by
      have := (byte_top b).1 h
      have := hb b (List.mem_cons_self ..)
      omega), ih y rest _ true (fun x hx => hb x (List.mem_cons_of_mem _ hx)) hy (pre ++ [b]) (by rw [val128_append, hacc]; omega)]
    simp

theorem arcs_subs {b : List Byte} {vs : List Nat} (h : Subs b vs) : arcsLoop 0 false b = some (vs.map (· % 2 ^ 32)) := by
  induction h with
  | nil => rfl
  | cons bs y rest vs hb hy h ih =>
    rw [arcs_group bs y rest 0 false hb hy [] (by simp [val128]), ih]
    simp

theorem arcs_some : ∀ (s : List Byte) (acc : Nat) (i : Bool) (as : List Nat), arcsLoop acc i s = some as →
    (i = false ∧ s = [] ∧ as = []) ∨ ∃ bs y rest, s = bs ++ y :: rest ∧ (∀ x ∈ bs, 128 ≤ x.toNat) ∧ y.toNat < 128 ∧ ∃ as' a, as = a :: as' ∧
      arcsLoop 0 false rest = some as' := by
  intro s
  induction s with
  | nil =>
    intro acc i as h
    cases i with
    | false => cases h; exact .inl ⟨rfl, rfl, rfl⟩
    | true => cases h
  | cons b s ih =>
    intro acc i as h
    rw [arcs_cons] at h
    right
    split at h
    · rename_i hb
      cases hr : arcsLoop 0 false s with
      | none => rw [hr] at h; cases h
      | some as' =>
        rw [hr] at h
        cases h
        exact ⟨[], b, s, rfl, by simp, (byte_top b).1 hb, as', _, rfl, hr⟩
    · rename_i hb
      rcases ih _ _ _ h with ⟨h0, -⟩ | ⟨bs, y, rest, rfl, h1, h2, as', a, rfl, h3⟩
      · cases h0
      · refine ⟨b :: bs, y, rest, rfl, ?_, h2, as', a, rfl, h3⟩
        intro x hx
        rcases List.mem_cons.1 hx with rfl | hx
        · exact Nat.le_of_not_lt (fun hlt => hb ((byte_top x).2 hlt))
        · exact h1 x hx

theorem subs_of_arcs : ∀ (n : Nat) (s : List Byte) (as : List Nat), s.length ≤ n → arcsLoop 0 false s = some as →
    ∃ vs, Subs s vs ∧ as = vs.map (· % 2 ^ 32) := by
  intro n
  induction n with
  | zero =>
    intro s as hn h
    have : s = [] := List.length_eq_zero_iff.1 (by omega)
    subst this
    cases h
    exact ⟨[], .nil, rfl⟩
  | succ n ih =>
    intro s as hn h
    rcases arcs_some s 0 false as h with ⟨-, rfl, rfl⟩ | ⟨bs, y, rest, rfl, h1, h2, as', a, rfl, h3⟩
    · exact ⟨[], .nil, rfl⟩
    · obtain ⟨vs, hs, rfl⟩ := ih rest as' (by simp at hn; omega) h3
      have := Subs.cons bs y rest vs h1 h2 hs
      refine ⟨_, this, ?_⟩
      rw [arcs_subs this] at h
      exact (Option.some.inj h).symm

/-- **C85, what is compared.** Octets are read as a list of subidentifiers, each one reduced modulo 2^32. -/
theorem C85_modulo (b : List Byte) (arcs : List Nat) :
    oid2arcs b = some arcs ↔ ∃ v vs a0 a1, Subs b (v :: vs) ∧ arcs = a0 :: a1 :: vs.map (· % 2 ^ 32) ∧ v % 2 ^ 32 = 40 * a0 + a1 ∧
      a0 ≤ 2 ∧ (a0 < 2 → a1 < 40) := by
  unfold oid2arcs
  constructor
  · intro h
    split at h
    · cases h
    · cases h
    · rename_i v' vs' hv
      obtain ⟨vs, hs, hm⟩ := subs_of_arcs b.length b _ (Nat.le_refl _) hv
      cases vs with
      | nil => cases hm
      | cons v vs =>
        simp only [List.map_cons, List.cons.injEq] at hm
        obtain ⟨rfl, rfl⟩ := hm
        split at h
        · cases h; exact ⟨v, vs, 2, _, hs, rfl, by omega, by omega, by omega⟩
        · split at h
          · cases h; exact ⟨v, vs, 1, _, hs, rfl, by omega, by omega, by omega⟩
          · cases h; exact ⟨v, vs, 0, _, hs, rfl, by omega, by omega, by omega⟩
  · rintro ⟨v, vs, a0, a1, hs, rfl, hv, h2, h40⟩
    rw [arcs_subs hs]
    simp only [List.map_cons, hv]
    rcases (by omega : a0 = 0 ∨ a0 = 1 ∨ a0 = 2) with rfl | rfl | rfl
    · rw [if_neg (by omega), if_neg (by omega)]; congr 3; omega
    · rw [if_neg (by omega), if_pos (by omega)]; congr 3; omega
    · rw [if_pos (by omega)]; congr 3; omega

/-- **C85, partial.** Object identifiers with small arcs are read exactly. What is missing: arcs from 2^32 on, for which it is false. -/
theorem C85_partial {b : List Byte} {arcs : List Nat} (h : IsOid b arcs) (hs : ∀ a ∈ arcs, a < 2 ^ 32 - 80) : oid2arcs b = some arcs := by
  obtain ⟨a0, a1, vs, rfl, hsub, h2, h40⟩ := h
  have h1 := hs a1 (by simp)
  refine (C85_modulo b _).2 ⟨_, vs, a0, a1, hsub, ?_, Nat.mod_eq_of_lt (by omega), h2, h40⟩
  congr 2
  refine (List.map_id' vs).symm.trans (List.map_congr_left fun x hx => ?_)
  exact (Nat.mod_eq_of_lt (by have := hs x (by simp [hx]); omega)).symm

namespace Ex

/-- 1.2.840.113549.1.9.16.1.24, and the same with 4294967320 as its last arc. -/
def roaOid : List Byte := [0x2A, 0x86, 0x48, 0x86, 0xF7, 0x0D, 1, 9, 16, 1, 24]
def notRoaOid : List Byte := [0x2A, 0x86, 0x48, 0x86, 0xF7, 0x0D, 1, 9, 16, 1, 0x90, 0x80, 0x80, 0x80, 24]

theorem sub1 (y : Byte) (rest : List Byte) (vs : List Nat) (hy : y.toNat < 128) (h : Subs rest vs) : Subs (y :: rest) (y.toNat :: vs) := by
  have := Subs.cons [] y rest vs (by simp) hy h
  have e : val128 [y] = y.toNat := by simp [val128]; omega
  simpa [e] using this

theorem subs_tail (last : List Byte) (v : Nat) (h : Subs last [v]) :
    Subs ([0x2A, 0x86, 0x48, 0x86, 0xF7, 0x0D, 1, 9, 16, 1] ++ last) [42, 840, 113549, 1, 9, 16, 1, v] := by
  have t := sub1 1 _ _ (by decide) (sub1 9 _ _ (by decide) (sub1 16 _ _ (by decide) (sub1 1 _ _ (by decide) h)))
  have t2 := Subs.cons [0x86, 0xF7] 0x0D _ _ (by decide) (by decide) t
  have t3 := Subs.cons [0x86] 0x48 _ _ (by decide) (by decide) t2
  exact sub1 0x2A _ _ (by decide) t3

theorem roa_is : IsOid roaOid oidRoa := ⟨1, 2, _, rfl, subs_tail [24] 24 (sub1 24 [] [] (by decide) .nil), by decide, by decide⟩

theorem notRoa_is : IsOid notRoaOid [1, 2, 840, 113549, 1, 9, 16, 1, 4294967320] :=
  ⟨1, 2, _, rfl, subs_tail [0x90, 0x80, 0x80, 0x80, 24] 4294967320 (Subs.cons [0x90, 0x80, 0x80, 0x80] 24 [] [] (by decide) (by decide) .nil),
    by decide, by decide⟩

end Ex

/-- **C85 does not hold.** There is an object identifier that is not a ROA's, and is taken for it. -/
theorem C85_refuted : ∃ b arcs, IsOid b arcs ∧ arcs ≠ oidRoa ∧ oid2arcs b = some oidRoa :=
  ⟨Ex.notRoaOid, _, Ex.notRoa_is, by decide, by decide +kernel⟩

example : oid2arcs Ex.roaOid = some oidRoa := C85_partial Ex.roa_is (by decide)

end Verif.Cms
