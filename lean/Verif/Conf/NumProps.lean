import Verif.Conf.NumLemmas
/-
C64: numeric options.
-/
namespace Verif.Conf
open Verif.Res (Byte)
open Verif.Misc (strtoul decVal)
open Verif.Slurm (Json)

theorem find_id : ∀ o ∈ options, o.getopt = true → options.find? (fun p => p.getopt && p.id == o.id) = some o := by decide

theorem uint_getopt : ∀ o ∈ options, o.type = .uint → o.getopt = true ∧ o.handler = .none ∧ o.json = true ∧ o.max ≤ 4294967295 := by decide

theorem handleOpt_mem (env : Env) (o : Opt) (ho : o ∈ options) (hg : o.getopt = true) (hh : o.handler = .none) (arg : Option (List Byte)) (c : Conf) :
    handleOpt env options o.id arg c = parseArgv o arg c := by
  rw [handleOpt, find_id o ho hg]
  simp [hh]

theorem argvUint_iff (o : Opt) (hmax : o.max ≤ 4294967295) (str : List Byte) (c c' : Conf) :
    parseArgvUint o (some str) c = .ok c' ↔ ∃ n, Accepted str n ∧ o.min ≤ n ∧ n ≤ o.max ∧ c' = c.set o.name (.uint n) := by
  cases str with
  | nil =>
    constructor
    · intro h; cases h
    · rintro ⟨n, ⟨ws, sign, ds, v, h, _, h2, _⟩, _⟩
      have h3 := ((numeral_iff ds v).1 h2).1
      have := congrArg List.length h
      simp only [List.length_nil, List.length_append] at this
      exact absurd (List.eq_nil_of_length_eq_zero (by omega)) h3
  | cons b r =>
    have hU : parseArgvUint o (some (b :: r)) c =
        (if (strtoul (b :: r)).erange then .fail 34
        else if (strtoul (b :: r)).rest ≠ [] then .fail (-eINVAL)
        else if (strtoul (b :: r)).value < o.min ∨ o.max < (strtoul (b :: r)).value then .fail (-eINVAL)
        else .ok (c.set o.name (.uint ((strtoul (b :: r)).value % 2 ^ 32)))) := rfl
    rw [hU]
    constructor
    · intro h
      by_cases h1 : (strtoul (b :: r)).erange = true
      · rw [if_pos h1] at h; cases h
      · rw [if_neg h1] at h
        by_cases h2 : (strtoul (b :: r)).rest ≠ []
        · rw [if_pos h2] at h; cases h
        · rw [if_neg h2] at h
          by_cases h3 : (strtoul (b :: r)).value < o.min ∨ o.max < (strtoul (b :: r)).value
          · rw [if_pos h3] at h; cases h
          · rw [if_neg h3] at h
            obtain ⟨p⟩ := strtoul_some (b :: r) (by simp) (not_not.1 h2)
            have hp := strtoul_parts _ p.ws p.sign p.ds p.eq p.blank p.signOk p.ne p.digits
            have hv : ¬ 2 ^ 64 ≤ decVal 0 p.ds := by
              intro hv
              rw [if_pos hv] at hp
              rw [hp] at h1
              exact h1 rfl
            rw [if_neg hv] at hp
            injection h with h
            have hval : (strtoul (b :: r)).value = if p.sign = [0x2D#8] then (2 ^ 64 - decVal 0 p.ds) % 2 ^ 64 else decVal 0 p.ds := by rw [hp]
            have hlt : (strtoul (b :: r)).value % 2 ^ 32 = (strtoul (b :: r)).value := Nat.mod_eq_of_lt (by omega)
            rw [hlt] at h
            refine ⟨_, ⟨p.ws, p.sign, p.ds, decVal 0 p.ds, p.eq, fun x hx => (isSpace_iff x).1 (p.blank x hx), (numeral_iff _ _).2 ⟨p.ne, p.digits, rfl⟩,
              by omega, ?_⟩, by omega, by omega, h.symm⟩
            rcases p.signOk with hs | hs | hs
            · left; refine ⟨Or.inl hs, ?_⟩; rw [hval, hs]; rfl
            · left; refine ⟨Or.inr hs, ?_⟩; rw [hval, hs]; rfl
            · right; refine ⟨hs, ?_⟩; rw [hval, if_pos hs]
    · rintro ⟨n, ⟨ws, sign, ds, v, heq, hws, hnum, hv, hn⟩, hmin, hmx, rfl⟩
      obtain ⟨k1, k2, k3⟩ := (numeral_iff ds v).1 hnum
      have hsign : sign = [] ∨ sign = [0x2B#8] ∨ sign = [0x2D#8] := by
        rcases hn with ⟨h | h, _⟩ | ⟨h, _⟩
        · exact Or.inl h
        · exact Or.inr (Or.inl h)
        · exact Or.inr (Or.inr h)
      have hp := strtoul_parts _ ws sign ds heq (fun x hx => (isSpace_iff x).2 (hws x hx)) hsign k1 k2
      rw [if_neg (by omega : ¬ 2 ^ 64 ≤ decVal 0 ds)] at hp
      have hval : (if sign = [0x2D#8] then (2 ^ 64 - decVal 0 ds) % 2 ^ 64 else decVal 0 ds) = n := by
        rcases hn with ⟨h, hn⟩ | ⟨h, hn⟩
        · rw [if_neg (by rcases h with rfl | rfl <;> decide), hn, k3]
        · rw [if_pos h, hn, k3]
      rw [hval] at hp
      rw [hp]
      have hlt : n % 2 ^ 32 = n := Nat.mod_eq_of_lt (by omega)
      simp only [hlt]
      rw [if_neg (by decide), if_neg (by simp), if_neg (by omega)]

/-- C64 without "-": a numeric option given on the command line is accepted exactly if its text is, white space and a "+" before aside, a numeral of a number between the option's
bounds; that number is what's stored (nothing else changes). -/
theorem C64_partial (env : Env) (o : Opt) (ho : o ∈ options) (ht : o.type = .uint) (str : List Byte) (hneg : 0x2D#8 ∉ str) (c c' : Conf) :
    handleOpt env options o.id (some str) c = .ok c' ↔
      ∃ ws sign ds n, str = ws ++ sign ++ ds ∧ Blank ws ∧ (sign = [] ∨ sign = [0x2B#8]) ∧ Numeral ds n ∧ o.min ≤ n ∧ n ≤ o.max ∧
        c' = c.set o.name (.uint n) := by
  obtain ⟨h1, h2, h3, h4⟩ := uint_getopt o ho ht
  rw [handleOpt_mem env o ho h1 h2]
  have hp : parseArgv o (some str) c = parseArgvUint o (some str) c := by unfold parseArgv; rw [ht]
  rw [hp, argvUint_iff o h4]
  constructor
  · rintro ⟨n, ⟨ws, sign, ds, v, k1, k2, k3, k4, k5⟩, k6, k7, k8⟩
    rcases k5 with ⟨k5, rfl⟩ | ⟨k5, _⟩
    · exact ⟨ws, sign, ds, n, k1, k2, k5, k3, k6, k7, k8⟩
    · refine absurd ?_ hneg
      rw [k1, k5]; simp
  · rintro ⟨ws, sign, ds, n, k1, k2, k3, k4, k5, k6, k7⟩
    exact ⟨n, ⟨ws, sign, ds, n, k1, k2, k4, by omega, Or.inl ⟨k3, rfl⟩⟩, k5, k6, k7⟩

/-- C64, all texts: with a "-" the number stored is the complement of two (64 bits) of the one that was written. -/
theorem C64_exact (env : Env) (o : Opt) (ho : o ∈ options) (ht : o.type = .uint) (str : List Byte) (c c' : Conf) :
    handleOpt env options o.id (some str) c = .ok c' ↔ ∃ n, Accepted str n ∧ o.min ≤ n ∧ n ≤ o.max ∧ c' = c.set o.name (.uint n) := by
  obtain ⟨h1, h2, h3, h4⟩ := uint_getopt o ho ht
  rw [handleOpt_mem env o ho h1 h2]
  have hp : parseArgv o (some str) c = parseArgvUint o (some str) c := by unfold parseArgv; rw [ht]
  rw [hp, argvUint_iff o h4]

/-- C64 is false of the program: `--server.interval.refresh=-18446744073709551615` is accepted, as 1. -/
theorem C64_refuted (env : Env) (c : Conf) :
    handleOpt env options 5004 (some (lit "-18446744073709551615")) c = .ok (c.set ["server", "interval", "refresh"] (.uint 1)) := rfl

/-- C64, configuration files: exactly the integers between the bounds are accepted. -/
theorem C64_json (o : Opt) (ho : o ∈ options) (ht : o.type = .uint) (j : Json) (c c' : Conf) :
    parseJson o j c = .ok c' ↔ ∃ n : Nat, j = .int n ∧ o.min ≤ n ∧ n ≤ o.max ∧ c' = c.set o.name (.uint n) := by
  obtain ⟨h1, h2, h3, h4⟩ := uint_getopt o ho ht
  have hp : parseJson o j c = parseJsonUint o j c := by unfold parseJson; rw [ht]
  rw [hp]
  cases j with
  | int v =>
    have hp : parseJsonUint o (.int v) c = if v < o.min ∨ (o.max : Int) < v then .fail (-eINVAL) else .ok (c.set o.name (.uint (v % 2 ^ 32).toNat)) := rfl
    rw [hp]
    constructor
    · intro h
      by_cases hb : v < o.min ∨ (o.max : Int) < v
      · rw [if_pos hb] at h; cases h
      · rw [if_neg hb] at h
        injection h with h
        refine ⟨v.toNat, ?_, by omega, by omega, ?_⟩
        · rw [Int.toNat_of_nonneg (by omega)]
        · rw [← h, Int.emod_eq_of_lt (by omega) (by omega)]
    · rintro ⟨n, k1, k2, k3, rfl⟩
      injection k1 with k1
      subst k1
      rw [if_neg (by omega), Int.emod_eq_of_lt (by omega) (by omega)]
      simp
  | null => exact ⟨(fun h => by cases h), (fun ⟨n, h, _⟩ => by cases h)⟩
  | bool b => exact ⟨(fun h => by cases h), (fun ⟨n, h, _⟩ => by cases h)⟩
  | real => exact ⟨(fun h => by cases h), (fun ⟨n, h, _⟩ => by cases h)⟩
  | str s => exact ⟨(fun h => by cases h), (fun ⟨n, h, _⟩ => by cases h)⟩
  | arr l => exact ⟨(fun h => by cases h), (fun ⟨n, h, _⟩ => by cases h)⟩
  | obj m => exact ⟨(fun h => by cases h), (fun ⟨n, h, _⟩ => by cases h)⟩

/-- The bounds are the documented ones. -/
theorem C64_bounds (d : Key × Nat × Nat) (hd : d ∈ documented) :
    ∃ o ∈ options, o.name = d.1 ∧ o.type = .uint ∧ o.min = d.2.1 ∧ o.max = d.2.2 := by
  revert d; decide

/- Non-vacuity: the refresh interval, " +60" and "60x". -/
example (env : Env) (c : Conf) : handleOpt env options 5004 (some (lit " +60")) c = .ok (c.set ["server", "interval", "refresh"] (.uint 60)) := rfl
example (env : Env) (c : Conf) : handleOpt env options 5004 (some (lit "60x")) c = .fail (-22) := rfl
example (env : Env) (c : Conf) : handleOpt env options 5004 (some (lit "86401")) c = .fail (-22) := rfl
example (env : Env) (c : Conf) : handleOpt env options 5004 (some (lit "18446744073709551617")) c = .fail 34 := rfl

end Verif.Conf
