import Verif.Slurm.SpecParser
import Verif.Slurm.FilterProps
/-
Lemmas about the SLURM parser.
-/
namespace Verif.Slurm
open Verif.Res
open Verif.Rtr (Fam)

theorem bind_eq_ok {α β} {o : Out α} {f : α → Out β} {b : β} :
    (o >>= f) = .ok b ↔ ∃ a, o = .ok a ∧ f a = .ok b := by
  cases o with
  | ok a => simp [ok_bind]
  | err e => simp [err_bind]
  | crash => simp [crash_bind]

theorem bind_eq_crash {α β} {o : Out α} {f : α → Out β} :
    (o >>= f) = .crash ↔ o = .crash ∨ ∃ a, o = .ok a ∧ f a = .crash := by
  cases o with
  | ok a => simp [ok_bind]
  | err e => simp [err_bind]
  | crash => simp [crash_bind]

/-! ### Getters -/

theorem getU32_ok {o : List (String × Json)} {k : String} {x : Option (BitVec 32)} :
    getU32 o k = .ok x ↔ (match x with
      | none => o.lookup k = none
      | some a => o.lookup k = some (.int a.toNat)) := by
  unfold getU32
  cases h : o.lookup k with
  | none => cases x <;> simp
  | some j =>
    cases j with
    | int i =>
      simp only
      split
      · rename_i hr
        cases x with
        | none => simp
        | some a =>
          simp only [reduceCtorEq, Option.some.injEq, Json.int.injEq, false_iff]
          intro e
          have := a.isLt
          omega
      · rename_i hr
        cases x with
        | none => simp
        | some a =>
          simp only [Out.ok.injEq, Option.some.injEq, Json.int.injEq]
          constructor
          · rintro rfl
            rw [BitVec.toNat_ofInt]
            omega
          · rintro rfl
            apply BitVec.eq_of_toNat_eq
            rw [BitVec.toNat_ofInt]
            have := a.isLt
            omega
    | _ => cases x <;> simp

theorem getU32_crash {o : List (String × Json)} {k : String} : getU32 o k ≠ .crash := by
  unfold getU32
  split
  · simp
  · split <;> simp
  · simp

theorem getStr_ok {o : List (String × Json)} {k : String} {x : Option (List Byte)} :
    getStr o k = .ok x ↔ (match x with
      | none => o.lookup k = none
      | some s => o.lookup k = some (.str s)) := by
  unfold getStr
  cases h : o.lookup k with
  | none => cases x <;> simp
  | some j => cases j <;> cases x <;> simp

theorem getStr_crash {o : List (String × Json)} {k : String} : getStr o k ≠ .crash := by
  unfold getStr; split <;> simp

/-! ### strtok -/

theorem takeDrop_append {α} (p : α → Bool) (a b : List α) (ha : ∀ x ∈ a, p x = true)
    (hb : b = [] ∨ ∃ x l, b = x :: l ∧ p x = false) :
    (a ++ b).takeWhile p = a ∧ (a ++ b).dropWhile p = b := by
  induction a with
  | nil =>
    rcases hb with rfl | ⟨x, l, rfl, hx⟩
    · simp
    · simp [List.takeWhile_cons, List.dropWhile_cons, hx]
  | cons x a ih =>
    have hx := ha x (by simp)
    obtain ⟨h1, h2⟩ := ih (fun y hy => ha y (by simp [hy]))
    simp [List.takeWhile_cons, List.dropWhile_cons, hx, h1, h2]

theorem dropWhile_head {α} (p : α → Bool) (l : List α) :
    l.dropWhile p = [] ∨ ∃ x t, l.dropWhile p = x :: t ∧ p x = false := by
  induction l with
  | nil => simp
  | cons x l ih =>
    rw [List.dropWhile_cons]
    split
    · exact ih
    · rename_i h
      exact Or.inr ⟨x, l, rfl, by simpa using h⟩

theorem mem_takeWhile {α} (p : α → Bool) (l : List α) : ∀ x ∈ l.takeWhile p, p x = true := by
  induction l with
  | nil => simp
  | cons y l ih =>
    rw [List.takeWhile_cons]
    split
    · intro x hx
      rcases List.mem_cons.1 hx with rfl | h
      · assumption
      · exact ih x h
    · simp

theorem strtok_none {s : List Byte} : strtok s = none ↔ ∀ b ∈ s, b = 0x2F := by
  unfold strtok
  constructor
  · intro h
    split at h
    · rename_i he
      intro b hb
      have := mem_takeWhile (fun x : Byte => decide (x = 0x2F)) s
      have hs := List.takeWhile_append_dropWhile (p := fun x : Byte => decide (x = 0x2F)) (l := s)
      rw [he, List.append_nil] at hs
      rw [hs] at this
      simpa using this b hb
    · simp at h
  · intro h
    have := (takeDrop_append (fun x : Byte => decide (x = 0x2F)) s [] (by simpa using h) (Or.inl rfl)).2
    rw [List.append_nil] at this
    rw [this]

theorem strtok_some {s tok rest : List Byte} : strtok s = some (tok, rest) ↔
    ∃ pre sep, s = pre ++ tok ++ sep ++ rest ∧ (∀ b ∈ pre, b = 0x2F) ∧ (∀ b ∈ tok, b ≠ 0x2F) ∧ tok ≠ [] ∧
      (sep = [0x2F] ∨ sep = [] ∧ rest = []) := by
  constructor
  · intro h
    unfold strtok at h
    have hs := List.takeWhile_append_dropWhile (p := fun x : Byte => decide (x = 0x2F)) (l := s)
    have h1 := mem_takeWhile (fun x : Byte => decide (x = 0x2F)) s
    have h2 := dropWhile_head (fun x : Byte => decide (x = 0x2F)) s
    generalize List.takeWhile (fun x : Byte => decide (x = 0x2F)) s = pre at *
    generalize List.dropWhile (fun x : Byte => decide (x = 0x2F)) s = d at *
    rcases h2 with rfl | ⟨x, t, rfl, hx⟩
    · simp at h
    · simp only [Option.some.injEq, Prod.mk.injEq] at h
      obtain ⟨h3, h4⟩ := h
      have g1 := mem_takeWhile (fun x : Byte => decide (x ≠ 0x2F)) (x :: t)
      have g2 := dropWhile_head (fun x : Byte => decide (x ≠ 0x2F)) (x :: t)
      have g3 := List.takeWhile_append_dropWhile (p := fun x : Byte => decide (x ≠ 0x2F)) (l := x :: t)
      rw [h3] at g1 g3
      generalize List.dropWhile (fun x : Byte => decide (x ≠ 0x2F)) (x :: t) = d at *
      have hne : tok ≠ [] := by
        rw [← h3, List.takeWhile_cons, if_pos (by simpa using hx)]
        simp
      rcases g2 with rfl | ⟨y, u, rfl, hy⟩
      · refine ⟨pre, [], ?_, by simpa using h1, by simpa using g1, hne, Or.inr ⟨rfl, by simpa using h4.symm⟩⟩
        rw [← hs, ← g3]
        simp at h4
        simp [← h4]
      · refine ⟨pre, [0x2F], ?_, by simpa using h1, by simpa using g1, hne, Or.inl rfl⟩
        simp only [List.drop_succ_cons, List.drop_zero] at h4
        have hy' : y = 0x2F := by simpa using hy
        subst h4
        rw [← hs, ← g3, hy']
        simp
  · rintro ⟨pre, sep, rfl, h1, h2, h3, h4⟩
    obtain ⟨x, t, rfl⟩ := List.exists_cons_of_ne_nil h3
    have hx := h2 x (by simp)
    have e1 := (takeDrop_append (fun x : Byte => decide (x = 0x2F)) pre ((x :: t) ++ sep ++ rest) (by simpa using h1)
      (Or.inr ⟨x, t ++ sep ++ rest, by simp, by simpa using hx⟩)).2
    unfold strtok
    rw [show pre ++ (x :: t) ++ sep ++ rest = pre ++ ((x :: t) ++ sep ++ rest) by simp, e1]
    have e2 := takeDrop_append (fun x : Byte => decide (x ≠ 0x2F)) (x :: t) (sep ++ rest) (by simpa using h2) (by
      rcases h4 with rfl | ⟨rfl, rfl⟩
      · exact Or.inr ⟨0x2F, rest, rfl, by simp⟩
      · exact Or.inl rfl)
    simp only [List.cons_append, List.append_assoc] at e2 ⊢
    simp only [e2.1, e2.2]
    rcases h4 with rfl | ⟨rfl, rfl⟩ <;> simp

/-- Two calls of strtok. -/
theorem strtok_two {s tok ltok : List Byte} :
    (∃ rest, strtok s = some (tok, rest) ∧ (strtok rest).map Prod.fst = some ltok) ↔
    ∃ pre seps rest, s = pre ++ tok ++ seps ++ ltok ++ rest ∧
      (∀ b ∈ pre, b = 0x2F) ∧ (∀ b ∈ seps, b = 0x2F) ∧ seps ≠ [] ∧
      (∀ b ∈ tok, b ≠ 0x2F) ∧ tok ≠ [] ∧ (∀ b ∈ ltok, b ≠ 0x2F) ∧ ltok ≠ [] ∧
      (rest = [] ∨ rest.head? = some 0x2F) := by
  constructor
  · rintro ⟨rest, h1, h2⟩
    rw [Option.map_eq_some_iff] at h2
    obtain ⟨⟨l, r2⟩, h2, rfl⟩ := h2
    obtain ⟨pre, sep, rfl, a1, a2, a3, a4⟩ := strtok_some.1 h1
    obtain ⟨pre2, sep2, rfl, b1, b2, b3, b4⟩ := strtok_some.1 h2
    rcases a4 with rfl | ⟨rfl, h0⟩
    · refine ⟨pre, 0x2F :: pre2, sep2 ++ r2, by simp, a1, ?_, by simp, a2, a3, b2, b3, ?_⟩
      · intro b hb
        rcases List.mem_cons.1 hb with rfl | hb
        · rfl
        · exact b1 b hb
      · rcases b4 with rfl | ⟨rfl, rfl⟩ <;> simp
    · simp at h0
      exact absurd h0.2.1 b3
  · rintro ⟨pre, seps, rest, rfl, h1, h2, h3, h4, h5, h6, h7, h8⟩
    obtain ⟨x, t, rfl⟩ := List.exists_cons_of_ne_nil h3
    have hx := h2 x (by simp)
    subst hx
    refine ⟨t ++ ltok ++ rest, strtok_some.2 ⟨pre, [0x2F], by simp, h1, h4, h5, Or.inl rfl⟩, ?_⟩
    have : strtok (t ++ ltok ++ rest) = some (ltok, rest.drop 1) := by
      refine strtok_some.2 ⟨t, rest.take 1, ?_, fun b hb => h2 b (by simp [hb]), h6, h7, ?_⟩
      · rw [List.append_assoc _ (rest.take 1), List.take_append_drop]
      · cases rest with
        | nil => simp
        | cons y r =>
          rcases h8 with h8 | h8
          · simp at h8
          · left
            simp at h8
            simp [h8]
    rw [this]; rfl

/-! ### Members of a prefix rule -/

theorem setAsn_ok {o ia asn flag n x} : setAsn o ia asn flag n = .ok x ↔
    (o.lookup "asn" = none ∧ ia = false ∧ x = (asn, flag, n)) ∨
    ∃ a, o.lookup "asn" = some (.int (BitVec.toNat a)) ∧ x = (a, flag ||| fAsn, n + 1) := by
  unfold setAsn
  rw [bind_eq_ok]
  constructor
  · rintro ⟨y, h1, h2⟩
    rw [getU32_ok] at h1
    cases y with
    | none =>
      simp only at h1 h2
      cases ia with
      | true => simp at h2
      | false => exact Or.inl ⟨h1, rfl, by simpa using h2.symm⟩
    | some a =>
      simp only at h1 h2
      exact Or.inr ⟨a, h1, by simpa using h2.symm⟩
  · rintro (⟨h1, rfl, rfl⟩ | ⟨a, h1, rfl⟩)
    · exact ⟨none, getU32_ok.2 h1, rfl⟩
    · exact ⟨some a, getU32_ok.2 h1, rfl⟩

theorem setAsn_crash {o ia asn flag n} : setAsn o ia asn flag n ≠ .crash := by
  unfold setAsn
  rw [Ne, bind_eq_crash]
  rintro (h | ⟨a, -, h⟩)
  · exact getU32_crash h
  · cases a <;> cases ia <;> simp at h

theorem setComment_ok {o flag n x} : setComment o flag n = .ok x ↔
    (o.lookup "comment" = none ∧ x = (flag, n)) ∨
    ((∃ s, o.lookup "comment" = some (.str s)) ∧ x = (flag ||| fComment, n + 1)) := by
  unfold setComment
  rw [bind_eq_ok]
  constructor
  · rintro ⟨y, h1, h2⟩
    rw [getStr_ok] at h1
    cases y with
    | none => exact Or.inl ⟨h1, by simpa using h2.symm⟩
    | some a => exact Or.inr ⟨⟨a, h1⟩, by simpa using h2.symm⟩
  · rintro (⟨h1, rfl⟩ | ⟨⟨a, h1⟩, rfl⟩)
    · exact ⟨none, getStr_ok.2 h1, rfl⟩
    · exact ⟨some a, getStr_ok.2 h1, rfl⟩

theorem setComment_crash {o flag n} : setComment o flag n ≠ .crash := by
  unfold setComment
  rw [Ne, bind_eq_crash]
  rintro (h | ⟨a, -, h⟩)
  · exact getStr_crash h
  · cases a <;> simp at h

theorem prefixLengthParse_ok {t : Option (List Byte)} {max : Nat} (hm : max < 256) {len : BitVec 8} :
    prefixLengthParse t max = .ok len ↔ ∃ l, t = some l ∧ strtoul l = some len.toNat ∧ len.toNat ≤ max := by
  unfold prefixLengthParse
  cases t with
  | none => simp
  | some l =>
    simp only [Option.some.injEq, exists_eq_left']
    cases h : strtoul l with
    | none => simp
    | some v =>
      simp only [Option.some.injEq]
      split
      · simp only [reduceCtorEq, false_iff, not_and]
        rintro rfl
        omega
      · simp only [Out.ok.injEq]
        constructor
        · rintro rfl
          rw [BitVec.toNat_ofNat, Nat.mod_eq_of_lt (by omega)]
          exact ⟨rfl, by omega⟩
        · rintro ⟨rfl, -⟩
          simp

theorem prefixLengthParse_crash {t max} : prefixLengthParse t max ≠ .crash := by
  unfold prefixLengthParse
  split
  · simp
  · split
    · simp
    · split <;> simp

theorem dvd_iff_and4 {a : BitVec 32} {len : Nat} (h : len ≤ 32) :
    ¬ (a &&& u32SuffixMask len ≠ 0) ↔ 2 ^ (32 - len) ∣ a.toNat := by
  rw [not_not, ← and_mask_eq_zero h]

theorem dvd_iff_and6 {a : BitVec 128} {len : Nat} (h : len ≤ 128) :
    ¬ (bitwiseAnd (bytes6 a) (ipv6SuffixMask len In6.zero) = true) ↔ 2 ^ (128 - len) ∣ a.toNat := by
  rw [bitwiseAnd_iff (by rw [bytes6_length, suffixMask_length zero_length]), be_bytes6, be_zeroMask h,
    Nat.and_two_pow_sub_one_eq_mod]
  rw [Nat.dvd_iff_mod_eq_zero]
  simp

/-- A rule with this prefix set. -/
def withPfx (r : SPrefix) (p : Pfx) : SPrefix :=
  { r with fam := some p.fam, prefix_ := BitVec.ofNat 128 p.addr, len := BitVec.ofNat 8 p.len, flag := r.flag ||| fPrefix }

theorem proper_len {p : Pfx} (h : p.Proper) : p.len < 256 := by
  have := h.1
  cases hf : p.fam <;> simp [hf, width] at this <;> omega

theorem setPrefix_ok {env o ia r n x} : setPrefix env o ia r n = .ok x ↔
    (o.lookup "prefix" = none ∧ ia = false ∧ x = (r, n)) ∨
    ∃ p s, o.lookup "prefix" = some (.str s) ∧ PrefixText env s p ∧ p.Proper ∧ x = (withPfx r p, n + 1) := by
  unfold setPrefix
  rw [bind_eq_ok]
  constructor
  · rintro ⟨y, h1, h2⟩
    rw [getStr_ok] at h1
    cases y with
    | none =>
      simp only at h1 h2
      cases ia with
      | true => simp at h2
      | false => exact Or.inl ⟨h1, rfl, by simpa using h2.symm⟩
    | some s =>
      simp only at h1 h2
      right
      cases ht : strtok s with
      | none => simp [ht] at h2
      | some tr =>
        obtain ⟨tok, rest⟩ := tr
        simp only [ht] at h2
        by_cases hc : 0x3A ∉ tok
        · rw [if_pos hc] at h2
          cases ha : env.pton4 tok with
          | none => simp [ha] at h2
          | some a =>
            simp only [ha] at h2
            rw [bind_eq_ok] at h2
            obtain ⟨len, h3, h4⟩ := h2
            rw [prefixLengthParse_ok (by norm_num)] at h3
            obtain ⟨l, h5, h6, h7⟩ := h3
            split at h4
            · simp at h4
            · rename_i hd
              rw [dvd_iff_and4 h7] at hd
              obtain ⟨pre, seps, rst, g1, g2, g3, g4, g5, g6, g7, g8, g9⟩ := strtok_two.1 ⟨rest, ht, h5⟩
              refine ⟨⟨.v4, a.toNat, len.toNat⟩, s, h1, ⟨pre, tok, seps, l, rst, g1, g2, g3, g4, g5, g6, g7, g8, g9, h6,
                hc, by simp [ha]⟩, ⟨h7, a.isLt, hd⟩, ?_⟩
              simp only [Out.ok.injEq] at h4
              rw [← h4]
              simp only [withPfx, Prod.mk.injEq, SPrefix.mk.injEq, and_true, true_and]
              refine ⟨?_, by simp⟩
              apply BitVec.eq_of_toNat_eq
              simp
        · rw [if_neg hc] at h2
          cases ha : env.pton6 tok with
          | none => simp [ha] at h2
          | some a =>
            simp only [ha] at h2
            rw [bind_eq_ok] at h2
            obtain ⟨len, h3, h4⟩ := h2
            rw [prefixLengthParse_ok (by norm_num)] at h3
            obtain ⟨l, h5, h6, h7⟩ := h3
            split at h4
            · simp at h4
            · rename_i hd
              rw [dvd_iff_and6 h7] at hd
              obtain ⟨pre, seps, rst, g1, g2, g3, g4, g5, g6, g7, g8, g9⟩ := strtok_two.1 ⟨rest, ht, h5⟩
              refine ⟨⟨.v6, a.toNat, len.toNat⟩, s, h1, ⟨pre, tok, seps, l, rst, g1, g2, g3, g4, g5, g6, g7, g8, g9, h6,
                by simpa using hc, by simp [ha]⟩, ⟨h7, a.isLt, hd⟩, ?_⟩
              simp only [Out.ok.injEq] at h4
              rw [← h4]
              simp [withPfx]
  · rintro (⟨h1, rfl, rfl⟩ | ⟨p, s, h1, ⟨pre, tok, seps, ltok, rst, g1, g2, g3, g4, g5, g6, g7, g8, g9, h6, hp⟩, hpr, rfl⟩)
    · exact ⟨none, getStr_ok.2 h1, rfl⟩
    · refine ⟨some s, getStr_ok.2 h1, ?_⟩
      obtain ⟨rest, ht, hl⟩ := strtok_two.2 ⟨pre, seps, rst, g1, g2, g3, g4, g5, g6, g7, g8, g9⟩
      have hlen := proper_len hpr
      obtain ⟨k1, k2, k3⟩ := hpr
      simp only [ht, hl]
      have e8 : (BitVec.ofNat 8 p.len).toNat = p.len := by
        rw [BitVec.toNat_ofNat, Nat.mod_eq_of_lt hlen]
      obtain ⟨fam, addr, len⟩ := p
      cases fam with
      | v4 =>
        simp only [width] at hp k1 k2 k3 e8 h6
        rw [if_pos hp.1]
        obtain ⟨a, ha, rfl⟩ := Option.map_eq_some_iff.1 hp.2
        simp only [ha]
        rw [(prefixLengthParse_ok (by norm_num)).2 ⟨ltok, rfl, by rw [e8]; exact h6, by rw [e8]; exact k1⟩, ok_bind]
        rw [if_neg (by rw [e8, dvd_iff_and4 k1]; exact k3)]
        simp only [withPfx, Out.ok.injEq, Prod.mk.injEq, SPrefix.mk.injEq, and_true, true_and]
        apply BitVec.eq_of_toNat_eq
        simp
      | v6 =>
        simp only [width] at hp k1 k2 k3 e8 h6
        rw [if_neg (by simpa using hp.1)]
        obtain ⟨a, ha, rfl⟩ := Option.map_eq_some_iff.1 hp.2
        simp only [ha]
        rw [(prefixLengthParse_ok (by norm_num)).2 ⟨ltok, rfl, by rw [e8]; exact h6, by rw [e8]; exact k1⟩, ok_bind]
        rw [if_neg (by rw [e8, dvd_iff_and6 k1]; exact k3)]
        simp [withPfx]

theorem setPrefix_crash {env o ia r n} : setPrefix env o ia r n = .crash ↔
    ∃ s, o.lookup "prefix" = some (.str s) ∧ ∀ b ∈ s, b = 0x2F := by
  unfold setPrefix
  rw [bind_eq_crash]
  constructor
  · rintro (h | ⟨y, h1, h2⟩)
    · exact absurd h getStr_crash
    · rw [getStr_ok] at h1
      cases y with
      | none => cases ia <;> simp at h2
      | some s =>
        refine ⟨s, h1, ?_⟩
        simp only at h2
        cases ht : strtok s with
        | none => exact strtok_none.1 ht
        | some tr =>
          obtain ⟨tok, rest⟩ := tr
          simp only [ht] at h2
          split at h2
          · split at h2
            · simp at h2
            · rw [bind_eq_crash] at h2
              rcases h2 with h | ⟨l, -, h⟩
              · exact absurd h prefixLengthParse_crash
              · split at h <;> simp at h
          · split at h2
            · simp at h2
            · rw [bind_eq_crash] at h2
              rcases h2 with h | ⟨l, -, h⟩
              · exact absurd h prefixLengthParse_crash
              · split at h <;> simp at h
  · rintro ⟨s, h1, h2⟩
    refine Or.inr ⟨some s, getStr_ok.2 h1, ?_⟩
    simp only [strtok_none.2 h2]

theorem setMax_ok {o ia r n x} : setMaxPrefixLength o ia r n = .ok x ↔
    (o.lookup "maxPrefixLength" = none ∧ x = (r, n)) ∨
    ∃ m : Nat, o.lookup "maxPrefixLength" = some (.int m) ∧ ia = true ∧
      m ≤ (if r.fam = some .v4 then 32 else 128) ∧
      x = ({ r with flag := r.flag ||| fMaxLen, maxLen := BitVec.ofNat 8 m }, n + 1) := by
  unfold setMaxPrefixLength
  rw [bind_eq_ok]
  constructor
  · rintro ⟨y, h1, h2⟩
    rw [getU32_ok] at h1
    cases ia with
    | false =>
      cases y with
      | none => exact Or.inl ⟨h1, by simpa using h2.symm⟩
      | some a => simp at h2
    | true =>
      cases y with
      | none => exact Or.inl ⟨h1, by simpa using h2.symm⟩
      | some a =>
        right
        simp only [Bool.not_true, Bool.false_eq_true, ite_false] at h1 h2
        generalize hmx : (if r.fam = some Fam.v4 then 32 else 128) = mx at h2 ⊢
        split at h2
        · simp at h2
        · simp only [Out.ok.injEq] at h2
          refine ⟨a.toNat, h1, rfl, by omega, ?_⟩
          rw [← h2]
          simp only [Prod.mk.injEq, SPrefix.mk.injEq, and_true, true_and]
          apply BitVec.eq_of_toNat_eq
          simp
  · rintro (⟨h1, rfl⟩ | ⟨m, h1, rfl, h2, rfl⟩)
    · refine ⟨none, getU32_ok.2 h1, ?_⟩
      cases ia <;> rfl
    · have hm : m < 2 ^ 32 := by
        split at h2 <;> omega
      refine ⟨some (BitVec.ofNat 32 m), getU32_ok.2 (by simp only [BitVec.toNat_ofNat, Nat.mod_eq_of_lt hm]; exact h1), ?_⟩
      simp only [Bool.not_true, Bool.false_eq_true, ite_false]
      rw [if_neg (by rw [BitVec.toNat_ofNat, Nat.mod_eq_of_lt hm]; omega)]
      simp only [Out.ok.injEq, Prod.mk.injEq, SPrefix.mk.injEq, and_true, true_and]
      apply BitVec.eq_of_toNat_eq
      rw [BitVec.toNat_setWidth, BitVec.toNat_ofNat, BitVec.toNat_ofNat, Nat.mod_eq_of_lt hm]

theorem setMax_crash {o ia r n} : setMaxPrefixLength o ia r n ≠ .crash := by
  unfold setMaxPrefixLength
  rw [Ne, bind_eq_crash]
  rintro (h | ⟨a, -, h⟩)
  · exact getU32_crash h
  · cases ia with
    | false => cases a <;> simp at h
    | true =>
      cases a with
      | none => simp at h
      | some a =>
        simp only [Bool.not_true, Bool.false_eq_true, ite_false] at h
        generalize (if r.fam = some Fam.v4 then 32 else 128) = mx at h
        split at h <;> simp at h

end Verif.Slurm
