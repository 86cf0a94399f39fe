import Verif.Rrdp.ModelSort
import Mathlib.Data.List.Nodup
import Mathlib.Data.List.Perm.Basic
import Mathlib.Data.List.Range
import Mathlib.Data.Finset.Card
import Mathlib.Data.Finset.Range
import Mathlib.Order.Interval.Finset.Nat
/-
C44 (delta lists) and C47 (hash attributes).
-/
namespace Verif.Rrdp
open Verif.Res (Byte)
open Verif.Uri

/-- The numbers from `lo` on, `n` of them. -/
def serials (lo n : Nat) : List Nat := (List.range n).map (lo + ·)

/-- Indexes that do not have the delta that belongs there. -/
def misplaced (min : Nat) (ds : List Delta) : Finset Nat :=
  (Finset.range ds.length).filter (fun j => (ds[j]?).map Delta.serial ≠ some (min + j))

/-- What one index' loop does. -/
theorem swapUntilSorted_spec {min max : Nat} : ∀ (fuel : Nat) (ds : List Delta) (i : Nat), i < ds.length →
    max = min + (ds.length - 1) → ds.length ≤ 2 ^ 64 - 1 → (misplaced min ds).card < fuel →
    (swapUntilSorted fuel ds i min max = .err ∧ ¬ (ds.map Delta.serial).Perm (serials min ds.length)) ∨
    ∃ ds', swapUntilSorted fuel ds i min max = .ok ds' ∧ ds'.Perm ds ∧ (ds'[i]?).map Delta.serial = some (min + i) ∧
      ∀ j, j < ds.length → (ds[j]?).map Delta.serial = some (min + j) → (ds'[j]?).map Delta.serial = some (min + j) := by
  intro fuel
  induction fuel with
  | zero => intro ds i _ _ _ h; omega
  | succ fuel ih =>
    intro ds i hi hmax hbig hfuel
    have hmem : ∀ s, s ∈ serials min ds.length ↔ min ≤ s ∧ s < min + ds.length := by
      intro s
      simp only [serials, List.mem_map, List.mem_range]
      constructor
      · rintro ⟨k, h, rfl⟩; omega
      · intro h; exact ⟨s - min, by omega, by omega⟩
    unfold swapUntilSorted
    rw [List.getElem?_eq_getElem hi]
    simp only
    by_cases h1 : ds[i].serial < min
    · rw [if_pos h1]
      refine .inl ⟨rfl, fun hp => ?_⟩
      have := (hmem _).1 (hp.mem_iff.1 (List.mem_map_of_mem (List.getElem_mem hi)))
      omega
    · rw [if_neg h1]
      by_cases h2 : max < ds[i].serial
      · rw [if_pos h2]
        refine .inl ⟨rfl, fun hp => ?_⟩
        have := (hmem _).1 (hp.mem_iff.1 (List.mem_map_of_mem (List.getElem_mem hi)))
        omega
      · rw [if_neg h2]
        have hw : bnGetWord (ds[i].serial - min) = ds[i].serial - min := by
          unfold bnGetWord
          rw [if_pos (by omega)]
        rw [hw]
        by_cases h3 : i = ds[i].serial - min
        · rw [if_pos h3]
          refine .inr ⟨ds, rfl, .refl _, ?_, fun j _ h => h⟩
          rw [List.getElem?_eq_getElem hi, Option.map_some]
          congr 1
          omega
        · rw [if_neg h3]
          set t := ds[i].serial - min with ht
          have htl : t < ds.length := by omega
          have hts : ds[i].serial = min + t := by omega
          rw [List.getElem?_eq_getElem htl]
          simp only
          by_cases h4 : ds[t].serial = ds[i].serial
          · rw [if_pos h4]
            refine .inl ⟨rfl, fun hp => ?_⟩
            have hnd : (ds.map Delta.serial).Nodup := by
              rw [hp.nodup_iff]
              exact List.Nodup.map (fun a b h => by simpa using h) List.nodup_range
            have := (List.Nodup.getElem_inj_iff hnd (hi := by simpa using htl) (hj := by simpa using hi)).1
              (by simpa using h4)
            omega
          · rw [if_neg h4]
            have hperm : ((ds.set t ds[i]).set i ds[t]).Perm ds := List.set_set_perm htl hi
            have hlen : ((ds.set t ds[i]).set i ds[t]).length = ds.length := by simp
            have hget : ∀ j, ((ds.set t ds[i]).set i ds[t])[j]? =
                if j = i then some ds[t] else if j = t then some ds[i] else ds[j]? := by
              intro j
              by_cases hj1 : j = i
              · subst hj1; simp [hi]
              · rw [if_neg hj1, List.getElem?_set_ne (fun e => hj1 e.symm)]
                by_cases hj2 : j = t
                · subst hj2; rw [if_pos rfl, List.getElem?_set_self htl]
                · rw [if_neg hj2, List.getElem?_set_ne (fun e => hj2 e.symm)]
            have hkeep : ∀ j, j < ds.length → (ds[j]?).map Delta.serial = some (min + j) →
                ((((ds.set t ds[i]).set i ds[t])[j]?).map Delta.serial = some (min + j)) := by
              intro j hj hjp
              rw [hget j]
              by_cases hj1 : j = i
              · subst hj1
                rw [List.getElem?_eq_getElem hi, Option.map_some, Option.some.injEq] at hjp
                omega
              · rw [if_neg hj1]
                by_cases hj2 : j = t
                · rw [hj2] at hjp
                  rw [List.getElem?_eq_getElem htl, Option.map_some, Option.some.injEq] at hjp
                  omega
                · rw [if_neg hj2]; exact hjp
            have hcard : (misplaced min ((ds.set t ds[i]).set i ds[t])).card < (misplaced min ds).card := by
              apply Finset.card_lt_card
              rw [Finset.ssubset_iff_of_subset]
              · refine ⟨t, ?_, ?_⟩
                · simp only [misplaced, Finset.mem_filter, Finset.mem_range]
                  refine ⟨htl, ?_⟩
                  rw [List.getElem?_eq_getElem htl]
                  simp only [Option.map_some, ne_eq, Option.some.injEq]
                  omega
                · simp only [misplaced, Finset.mem_filter, not_and, not_not]
                  intro _
                  rw [hget t, if_neg (fun e => h3 e.symm), if_pos rfl, Option.map_some, hts]
              · intro j hj
                simp only [misplaced, Finset.mem_filter, Finset.mem_range, hlen] at hj ⊢
                exact ⟨hj.1, fun h => hj.2 (hkeep j hj.1 h)⟩
            rcases ih _ i (by rw [hlen]; exact hi) (by rw [hlen]; exact hmax) (by rw [hlen]; exact hbig) (by omega) with
              ⟨h, hn⟩ | ⟨ds', h, hp, hs, hk⟩
            · refine .inl ⟨h, fun hp => hn ?_⟩
              rw [hlen]
              exact (hperm.map _).trans hp
            · refine .inr ⟨ds', h, hp.trans hperm, hs, fun j hj hjp => hk j (by rw [hlen]; exact hj) (hkeep j hj hjp)⟩

theorem misplaced_le (min : Nat) (ds : List Delta) : (misplaced min ds).card < ds.length + 1 := by
  have := Finset.card_filter_le (Finset.range ds.length) (fun j => (ds[j]?).map Delta.serial ≠ some (min + j))
  rw [Finset.card_range] at this
  unfold misplaced
  omega

theorem sortLoop_spec {min max : Nat} : ∀ (k i : Nat) (ds : List Delta), i + k = ds.length → 0 < ds.length →
    max = min + (ds.length - 1) → ds.length ≤ 2 ^ 64 - 1 →
    (∀ j, j < i → (ds[j]?).map Delta.serial = some (min + j)) →
    (sortLoop min max k i ds = .err ∧ ¬ (ds.map Delta.serial).Perm (serials min ds.length)) ∨
    ∃ ds', sortLoop min max k i ds = .ok ds' ∧ ds'.Perm ds ∧ ds'.map Delta.serial = serials min ds.length := by
  intro k
  induction k with
  | zero =>
    intro i ds hi h0 _ _ hd
    refine .inr ⟨ds, rfl, .refl _, ?_⟩
    apply List.ext_getElem?
    intro j
    rw [List.getElem?_map]
    by_cases hj : j < ds.length
    · rw [hd j (by omega)]
      simp [serials, hj]
    · rw [List.getElem?_eq_none (by omega), List.getElem?_eq_none (by simp [serials]; omega)]
      rfl
  | succ k ih =>
    intro i ds hi h0 hmax hbig hd
    unfold sortLoop
    rcases swapUntilSorted_spec (min := min) (max := max) (ds.length + 1) ds i (by omega) hmax hbig (misplaced_le min ds) with
      ⟨h, hn⟩ | ⟨ds1, h, hp, hs, hk⟩
    · rw [h]; exact .inl ⟨rfl, hn⟩
    · rw [h]
      have hl := hp.length_eq
      have hd' : ∀ j, j < i + 1 → (ds1[j]?).map Delta.serial = some (min + j) := by
        intro j hj
        by_cases hji : j = i
        · subst hji; exact hs
        · exact hk j (by omega) (hd j (by omega))
      rcases ih (i + 1) ds1 (by omega) (by omega) (by rw [hl]; exact hmax) (by omega) hd' with ⟨h', hn⟩ | ⟨ds2, h', hp', hs'⟩
      · refine .inl ⟨h', fun hq => hn ?_⟩
        rw [hl]
        exact (hp.map _).trans hq
      · exact .inr ⟨ds2, h', hp'.trans hp, by rw [hs', hl]⟩

/-- **C44.** For every list of deltas (that fits in memory) and every serial: the list is accepted exactly when its serials are,
in some order, the `n` consecutive numbers that end with the notification's serial. The list that is used then has the same
deltas, in ascending order. There are no reads out of bounds and the sort always ends. -/
theorem C44_contiguous (max : Nat) (ds : List Delta) (hbig : ds.length ≤ 2 ^ 64 - 1) :
    (ds.length ≤ max + 1 ∧ (ds.map Delta.serial).Perm (serials (max + 1 - ds.length) ds.length) ∧
      ∃ ds', sortDeltas (some max) ds = .ok ds' ∧ ds'.Perm ds ∧ ds'.map Delta.serial = serials (max + 1 - ds.length) ds.length) ∨
    (¬ (ds.length ≤ max + 1 ∧ (ds.map Delta.serial).Perm (serials (max + 1 - ds.length) ds.length)) ∧
      sortDeltas (some max) ds = .err) := by
  unfold sortDeltas
  by_cases h0 : ds.length = 0
  · rw [if_pos h0]
    have : ds = [] := List.length_eq_zero_iff.1 h0
    subst this
    exact .inl ⟨by simp, by simp [serials], [], rfl, .refl _, by simp [serials]⟩
  · rw [if_neg h0]
    simp only
    by_cases h1 : max < ds.length - 1
    · rw [if_pos h1]
      exact .inr ⟨fun h => by omega, rfl⟩
    · rw [if_neg h1]
      have e : max - (ds.length - 1) = max + 1 - ds.length := by omega
      rw [e]
      rcases sortLoop_spec (min := max + 1 - ds.length) (max := max) ds.length 0 ds (by omega) (by omega) (by omega) hbig
        (fun j hj => by omega) with ⟨h, hn⟩ | ⟨ds', h, hp, hs⟩
      · exact .inr ⟨fun h' => hn h'.2, h⟩
      · refine .inl ⟨by omega, ?_, ds', h, hp, hs⟩
        rw [← hs]
        exact (hp.map _).symm

/-- A delta with this serial. -/
def exDelta (s : Nat) : Delta := ⟨s, ⟨⟨[], [], .https⟩, none⟩⟩

example : sortDeltas (some 9) [exDelta 8, exDelta 9, exDelta 6, exDelta 7] = .ok [exDelta 6, exDelta 7, exDelta 8, exDelta 9] := by
  decide +kernel
example : sortDeltas (some 9) [exDelta 8, exDelta 9, exDelta 6] = .err := by decide +kernel
example : sortDeltas (some 9) [exDelta 8, exDelta 8] = .err := by decide +kernel
example : sortDeltas (some 1) [exDelta 1, exDelta 0, exDelta 2] = .err := by decide +kernel

/-! ### C47 -/

/-- Hexadecimal digits and their values. -/
def HexVal (c : Byte) (v : Nat) : Prop :=
  0x30 ≤ c.toNat ∧ c.toNat ≤ 0x39 ∧ v = c.toNat - 0x30 ∨
  0x61 ≤ c.toNat ∧ c.toNat ≤ 0x66 ∧ v = c.toNat - 0x61 + 10 ∨
  0x41 ≤ c.toNat ∧ c.toNat ≤ 0x46 ∧ v = c.toNat - 0x41 + 10

/-- The text is the hexadecimal form of the bytes. -/
inductive HexOf : List Byte → List Byte → Prop
  | nil : HexOf [] []
  | cons (a b c : Byte) (s bs : List Byte) (hi lo : Nat) (h1 : HexVal a hi) (h2 : HexVal b lo) (h3 : c.toNat = 16 * hi + lo)
      (h : HexOf s bs) : HexOf (a :: b :: s) (c :: bs)

theorem hexchar_spec (c : Byte) : (hexchar2uint c ≤ 15 ∧ HexVal c (hexchar2uint c)) ∨ (hexchar2uint c = 32 ∧ ∀ v, ¬ HexVal c v) := by
  unfold hexchar2uint HexVal
  have e1 : (0x30 : BitVec 8).toNat = 0x30 := rfl
  have e2 : (0x39 : BitVec 8).toNat = 0x39 := rfl
  have e3 : (0x61 : BitVec 8).toNat = 0x61 := rfl
  have e4 : (0x66 : BitVec 8).toNat = 0x66 := rfl
  have e5 : (0x41 : BitVec 8).toNat = 0x41 := rfl
  have e6 : (0x46 : BitVec 8).toNat = 0x46 := rfl
  simp only [BitVec.le_def]
  simp only [e1, e2, e3, e4, e5, e6]
  split
  · left; constructor <;> omega
  · split
    · left; constructor <;> omega
    · split
      · left; constructor <;> omega
      · right; refine ⟨rfl, fun v => ?_⟩; omega

theorem hexVal_unique {c : Byte} {v w : Nat} (h1 : HexVal c v) (h2 : HexVal c w) : v = w := by
  unfold HexVal at *
  omega

theorem nibbles : ∀ a b : Nat, a ≤ 15 → b ≤ 15 →
    (BitVec.ofNat 8 a <<< 4 ||| BitVec.ofNat 8 b).toNat = 16 * a + b := by
  have : ∀ a < 16, ∀ b < 16, (BitVec.ofNat 8 a <<< 4 ||| BitVec.ofNat 8 b).toNat = 16 * a + b := by decide +kernel
  intro a b ha hb
  exact this a (by omega) b (by omega)

theorem hexLoop_spec (s : List Byte) : ∀ (n i : Nat), 2 * i + 2 * n = s.length →
    (∃ bs, hexLoop s n i = some (some bs) ∧ HexOf (s.drop (2 * i)) bs ∧ bs.length = n) ∨
    (hexLoop s n i = some none ∧ ∀ bs, ¬ HexOf (s.drop (2 * i)) bs) := by
  intro n
  induction n with
  | zero =>
    intro i h
    refine .inl ⟨[], rfl, ?_, rfl⟩
    rw [List.drop_eq_nil_of_le (by omega)]
    exact .nil
  | succ n ih =>
    intro i h
    have h1 : 2 * i < s.length := by omega
    have h2 : 2 * i + 1 < s.length := by omega
    have hd : s.drop (2 * i) = s[2 * i] :: s[2 * i + 1] :: s.drop (2 * (i + 1)) := by
      rw [List.drop_eq_getElem_cons h1, List.drop_eq_getElem_cons h2]
      rfl
    unfold hexLoop
    rw [List.getElem?_eq_getElem h1, List.getElem?_eq_getElem h2, hd]
    simp only
    rcases hexchar_spec s[2 * i] with ⟨ha, va⟩ | ⟨ha, va⟩
    · rw [if_neg (by omega)]
      rcases hexchar_spec s[2 * i + 1] with ⟨hb, vb⟩ | ⟨hb, vb⟩
      · rw [if_neg (by omega)]
        rcases ih (i + 1) (by omega) with ⟨bs, e, hx, hl⟩ | ⟨e, hx⟩
        · rw [e]
          refine .inl ⟨_, rfl, .cons _ _ _ _ _ _ _ va vb (nibbles _ _ ha hb) hx, by simp [hl]⟩
        · rw [e]
          refine .inr ⟨rfl, fun bs h => ?_⟩
          cases h
          rename_i h
          exact hx _ h
      · rw [if_pos (by omega)]
        refine .inr ⟨rfl, fun bs h => ?_⟩
        cases h
        exact vb _ (by assumption)
    · rw [if_pos (by omega)]
      refine .inr ⟨rfl, fun bs h => ?_⟩
      cases h
      exact va _ (by assumption)

theorem hexOf_length {s bs : List Byte} (h : HexOf s bs) : s.length = 2 * bs.length := by
  induction h with
  | nil => rfl
  | cons => simp only [List.length_cons]; omega

/-- **C47.** A hash attribute gives 32 bytes exactly when it is their hexadecimal form, in upper or lower case; anything else is
rejected. Nothing is read out of bounds. -/
theorem C47_hex (s bs : List Byte) : hexstr2sha256 s = some (some bs) ↔ bs.length = 32 ∧ HexOf s bs := by
  unfold hexstr2sha256
  by_cases hl : s.length = 64
  · rw [if_neg (by omega)]
    rcases hexLoop_spec s 32 0 (by omega) with ⟨bs', e, hx, hl'⟩ | ⟨e, hx⟩
    · rw [e]
      simp only [Option.some.injEq]
      constructor
      · rintro rfl; exact ⟨hl', by simpa using hx⟩
      · rintro ⟨-, h⟩
        have uniq : ∀ (s a b : List Byte), HexOf s a → HexOf s b → a = b := by
          intro s a b ha
          induction ha generalizing b with
          | nil => intro hb; cases hb; rfl
          | cons x y c s bs hi lo h1 h2 h3 h ih =>
            intro hb
            cases hb
            rename_i hi' lo' g3 g1 g2 g
            have e1 := hexVal_unique h1 g1
            have e2 := hexVal_unique h2 g2
            rw [ih _ g]
            congr 1
            apply BitVec.eq_of_toNat_eq
            omega
        exact uniq _ _ _ (by simpa using hx) h
    · rw [e]
      constructor
      · intro h; cases h
      · rintro ⟨-, h⟩; exact absurd (by simpa using h) (hx bs)
  · rw [if_pos (by omega)]
    constructor
    · intro h; cases h
    · rintro ⟨h1, h2⟩
      have := hexOf_length h2
      omega

theorem C47_total (s : List Byte) : hexstr2sha256 s ≠ none := by
  unfold hexstr2sha256
  by_cases hl : s.length = 64
  · rw [if_neg (by omega)]
    rcases hexLoop_spec s 32 0 (by omega) with ⟨bs', e, -, -⟩ | ⟨e, -⟩ <;> rw [e] <;> simp
  · rw [if_pos (by omega)]; simp

example : HexOf [0x61, 0x39, 0x30, 0x46] [0xA9, 0x0F] := by
  refine .cons _ _ _ _ _ 10 9 ?_ ?_ rfl (.cons _ _ _ _ _ 0 15 ?_ ?_ rfl .nil) <;> unfold HexVal <;> decide

end Verif.Rrdp
