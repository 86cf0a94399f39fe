/-
Lemmas about the circular history of deltas.
-/
import Mathlib.Data.List.Basic
import Mathlib.Data.Int.ModEq
import Verif.Rtr.Spec

namespace Verif.Rtr

/-- Representation invariant: `xs` is everything ever added, oldest first. -/
structure DArray.Inv {α} (d : DArray α) (xs : List α) : Prop where
  capPos : 1 ≤ d.cap
  capLt : d.cap < 2 ^ 32
  slotsLen : d.slots.length = d.cap
  lenEq : d.len.toNat = min xs.length d.cap
  lastEq : xs ≠ [] → d.last.toNat = (xs.length - 1) % d.cap
  slot : ∀ k (h : k < xs.length), xs.length - d.cap ≤ k → d.slots[k % d.cap]? = some (some xs[k])

theorem mod_ne_of_near {a b c : Nat} (hab : a < b) (hbc : b < a + c) : a % c ≠ b % c := by
  intro h
  have h3 : c ∣ b - a := (Nat.modEq_iff_dvd' hab.le).1 h
  have := Nat.le_of_dvd (by omega) h3
  omega

theorem DArray.inv_create {α} {cap : Nat} (h1 : 1 ≤ cap) (h2 : cap < 2 ^ 32) :
    (DArray.create cap : DArray α).Inv [] :=
  ⟨h1, h2, by simp [DArray.create], by simp [DArray.create], by simp, by simp⟩

theorem DArray.Inv.add {α} {d : DArray α} {xs : List α} (h : d.Inv xs) (x : α) :
    ∃ d', d.add x = some d' ∧ d'.Inv (xs ++ [x]) ∧ d'.cap = d.cap := by
  obtain ⟨hc1, hc2, hsl, hlen, hlast, hslot⟩ := h
  by_cases hlt : xs.length < d.cap
  · -- still filling up
    have hl : d.len.toNat = xs.length := by omega
    refine ⟨{ d with slots := d.slots.set d.len.toNat (some x), last := d.len, len := d.len + 1 }, ?_, ?_, rfl⟩
    · unfold DArray.add
      rw [if_pos (by omega), if_pos (by omega)]
    · have hl1 : (d.len + 1).toNat = xs.length + 1 := by
        rw [BitVec.toNat_add]; simp; omega
      refine ⟨hc1, hc2, by simp [hsl], ?_, ?_, ?_⟩
      · simp only [hl1, List.length_append, List.length_singleton]; omega
      · intro _
        simp only [hl, List.length_append, List.length_singleton, Nat.add_sub_cancel]
        exact (Nat.mod_eq_of_lt hlt).symm
      · intro k hk hk2
        simp only [List.length_append, List.length_singleton] at hk hk2
        simp only [hl]
        rw [Nat.mod_eq_of_lt (by omega)]
        by_cases hkx : k = xs.length
        · subst hkx
          simp [List.getElem?_set, hsl, hlt]
        · have hk' : k < xs.length := by omega
          rw [List.getElem?_set_ne (by omega), List.getElem_append_left hk']
          have := hslot k hk' (by omega)
          rwa [Nat.mod_eq_of_lt (by omega)] at this
  · -- full: the oldest slot is reused
    have hne : xs ≠ [] := by rintro rfl; simp at hlt; omega
    have hl : d.len.toNat = d.cap := by omega
    have hla := hlast hne
    have hmodlt : (xs.length - 1) % d.cap < d.cap := Nat.mod_lt _ (by omega)
    have hstep : xs.length % d.cap =
        if (xs.length - 1) % d.cap = d.cap - 1 then 0 else (xs.length - 1) % d.cap + 1 := by
      obtain ⟨m, hm⟩ : ∃ m, xs.length = m + 1 := ⟨xs.length - 1, by omega⟩
      rw [hm]
      simp only [Nat.add_sub_cancel]
      by_cases hcap1 : d.cap = 1
      · simp [hcap1, Nat.mod_one]
      · rw [Nat.add_mod, Nat.mod_eq_of_lt (show 1 < d.cap by omega)]
        have := Nat.mod_lt m (show 0 < d.cap by omega)
        split
        · rename_i h; rw [h, show d.cap - 1 + 1 = d.cap by omega, Nat.mod_self]
        · exact Nat.mod_eq_of_lt (by omega)
    have hfirst : (if d.last = d.len - 1 then (0#32) else d.last + 1).toNat = xs.length % d.cap := by
      have e1 : (d.len - 1).toNat = d.cap - 1 := by
        rw [BitVec.toNat_sub]; simp; omega
      rw [hstep]
      by_cases hq : d.last = d.len - 1
      · have : d.last.toNat = d.cap - 1 := by rw [hq, e1]
        rw [if_pos hq, if_pos (by omega)]; rfl
      · have : d.last.toNat ≠ d.cap - 1 := by
          intro hh; apply hq; apply BitVec.eq_of_toNat_eq; rw [hh, e1]
        rw [if_neg hq, if_neg (by omega), BitVec.toNat_add]
        simp; omega
    have hmodx : xs.length % d.cap < d.cap := Nat.mod_lt _ (by omega)
    have hold : ∃ y, d.slots[xs.length % d.cap]? = some (some y) := by
      have hk : xs.length - d.cap < xs.length := by omega
      have := hslot (xs.length - d.cap) hk (le_refl _)
      have hme : (xs.length - d.cap) % d.cap = xs.length % d.cap := by
        conv_rhs => rw [show xs.length = (xs.length - d.cap) + d.cap by omega]
        rw [Nat.add_mod_right]
      rw [hme] at this
      exact ⟨_, this⟩
    obtain ⟨y, hy⟩ := hold
    refine ⟨{ d with slots := d.slots.set (xs.length % d.cap) (some x),
                     last := if d.last = d.len - 1 then (0#32) else d.last + 1 }, ?_, ?_, rfl⟩
    · unfold DArray.add
      rw [if_neg (by omega)]
      simp only [hfirst, hy]
    · refine ⟨hc1, hc2, by simp [hsl], ?_, ?_, ?_⟩
      · simp only [hl, List.length_append, List.length_singleton]; omega
      · intro _
        simp only [hfirst, List.length_append, List.length_singleton, Nat.add_sub_cancel]
      · intro k hk hk2
        simp only [List.length_append, List.length_singleton] at hk hk2
        simp only
        by_cases hkx : k = xs.length
        · subst hkx
          simp [List.getElem?_set, hsl, hmodx]
        · have hk' : k < xs.length := by omega
          rw [List.getElem?_set_ne (fun h => mod_ne_of_near (a := k) (b := xs.length) (c := d.cap) hk'
            (by omega) h.symm), List.getElem_append_left hk']
          exact hslot k hk' (by omega)

theorem DArray.Inv.addAll {α} {d : DArray α} {xs : List α} (h : d.Inv xs) (ys : List α) :
    ∃ d', d.addAll ys = some d' ∧ d'.Inv (xs ++ ys) ∧ d'.cap = d.cap := by
  induction ys generalizing d xs with
  | nil => exact ⟨d, rfl, by simpa using h, rfl⟩
  | cons y ys ih =>
    obtain ⟨d1, h1, h2, h3⟩ := h.add y
    obtain ⟨d2, h4, h5, h6⟩ := ih h2
    exact ⟨d2, by simp [DArray.addAll, h1, h4], by simpa using h5, by rw [h6, h3]⟩

theorem DArray.loop_spec {α σ} (d : DArray α) (cb : σ → α → σ) (ys : List α) (i : BitVec 32) (s : σ)
    (hb : i.toNat + ys.length < 2 ^ 32)
    (h : ∀ t (ht : t < ys.length),
      d.slots[if i.toNat + t ≥ d.len.toNat then i.toNat + t - d.len.toNat else i.toNat + t]? =
        some (some ys[t])) :
    d.loop cb ys.length i s = some (ys.foldl cb s) := by
  induction ys generalizing i s with
  | nil => rfl
  | cons y ys ih =>
    simp only [List.length_cons, DArray.loop]
    have h0 := h 0 (by simp)
    simp only [Nat.add_zero, List.getElem_cons_zero] at h0
    simp only [List.length_cons] at hb
    have hj : (if i ≥ d.len then i - d.len else i).toNat =
        if i.toNat ≥ d.len.toNat then i.toNat - d.len.toNat else i.toNat := by
      have hi := i.isLt
      have hd := d.len.isLt
      by_cases hq : d.len ≤ i
      · have hq' : d.len.toNat ≤ i.toNat := BitVec.le_def.1 hq
        rw [if_pos hq, if_pos hq', BitVec.toNat_sub_of_le hq]
      · have hq' : ¬ d.len.toNat ≤ i.toNat := fun hh => hq (BitVec.le_def.2 hh)
        rw [if_neg hq, if_neg hq']
    rw [hj, h0]
    simp only
    have hi1 : (i + 1).toNat = i.toNat + 1 := by
      rw [BitVec.toNat_add]; simp; omega
    rw [List.foldl_cons]
    apply ih
    · omega
    · intro t ht
      have := h (t + 1) (by simp; omega)
      simp only [List.getElem_cons_succ] at this
      rw [hi1, show i.toNat + 1 + t = i.toNat + (t + 1) by omega]
      exact this

theorem DArray.Inv.foreachSince {α σ} {d : DArray α} {xs : List α} (h : d.Inv xs) (h31 : d.cap < 2 ^ 31) (n : BitVec 32)
    (cb : σ → α → σ) (s : σ) :
    d.foreachSince n cb s =
      if n.toNat ≤ min xs.length d.cap then .ok ((xs.drop (xs.length - n.toNat)).foldl cb s) else .einval := by
  obtain ⟨hc1, hc2, hsl, hlen, hlast, hslot⟩ := h
  unfold DArray.foreachSince
  by_cases hn0 : n = 0
  · subst hn0
    simp
  · have hn0' : n.toNat ≠ 0 := fun hh => hn0 (BitVec.eq_of_toNat_eq (by simpa using hh))
    rw [if_neg hn0]
    by_cases hgt : n > d.len
    · have : d.len.toNat < n.toNat := BitVec.lt_def.1 hgt
      rw [if_pos hgt, if_neg (by omega)]
    · have hle : n.toNat ≤ d.len.toNat := by
        by_contra hh; exact hgt (BitVec.lt_def.2 (by omega))
      rw [if_neg hgt, if_pos (by omega)]
      have hne : xs ≠ [] := by rintro rfl; simp at hlen; omega
      have hpos : 0 < xs.length := List.length_pos_of_ne_nil hne
      have hla := hlast hne
      -- value of the start index
      generalize hi0 : d.last - n + 1 = i0
      have hi0n : i0.toNat = (d.last.toNat + 2 ^ 32 - n.toNat + 1) % 2 ^ 32 := by
        rw [← hi0, BitVec.toNat_add, BitVec.toNat_sub]; simp; omega
      generalize hi : (if i0 > d.len then i0 + d.len else i0) = i
      have key : i.toNat < d.len.toNat ∧ ∀ t, t < n.toNat →
          (if i.toNat + t ≥ d.len.toNat then i.toNat + t - d.len.toNat else i.toNat + t) =
            (xs.length - n.toNat + t) % d.cap := by
        by_cases hfull : xs.length ≤ d.cap
        · have h1 : d.last.toNat = xs.length - 1 := by rw [hla, Nat.mod_eq_of_lt (by omega)]
          have h2 : i0.toNat = xs.length - n.toNat := by rw [hi0n, h1]; omega
          have h3 : ¬ i0 > d.len := by intro hh; have := BitVec.lt_def.1 hh; omega
          rw [if_neg h3] at hi
          subst hi
          refine ⟨by omega, fun t ht => ?_⟩
          rw [if_neg (by omega), h2, Nat.mod_eq_of_lt (by omega)]
        · have hl : d.len.toNat = d.cap := by omega
          have hr : d.last.toNat < d.cap := by rw [hla]; exact Nat.mod_lt _ (by omega)
          -- xs.length = q * cap + last + 1
          obtain ⟨q, hq⟩ : ∃ q, xs.length = q * d.cap + d.last.toNat + 1 := by
            refine ⟨(xs.length - 1) / d.cap, ?_⟩
            have := Nat.div_add_mod' (xs.length - 1) d.cap
            rw [← hla] at this
            omega
          have hq1 : 1 ≤ q := by
            rcases q with _ | q
            · simp at hq; omega
            · omega
          by_cases hw : n.toNat ≤ d.last.toNat + 1
          · have h2 : i0.toNat = d.last.toNat + 1 - n.toNat := by rw [hi0n]; omega
            have h3 : ¬ i0 > d.len := by intro hh; have := BitVec.lt_def.1 hh; omega
            rw [if_neg h3] at hi
            subst hi
            refine ⟨by omega, fun t ht => ?_⟩
            rw [if_neg (by omega), h2]
            rw [show xs.length - n.toNat + t = (d.last.toNat + 1 - n.toNat + t) + q * d.cap by omega,
              Nat.add_mul_mod_self_right, Nat.mod_eq_of_lt (by omega)]
          · have h2 : i0.toNat = 2 ^ 32 + d.last.toNat + 1 - n.toNat := by rw [hi0n]; omega
            have h3 : i0 > d.len := BitVec.lt_def.2 (by omega)
            rw [if_pos h3] at hi
            have h4 : i.toNat = d.cap + d.last.toNat + 1 - n.toNat := by
              rw [← hi, BitVec.toNat_add]; omega
            obtain ⟨p, rfl⟩ : ∃ p, q = p + 1 := ⟨q - 1, by omega⟩
            refine ⟨by omega, fun t ht => ?_⟩
            rw [Nat.add_mul] at hq
            rw [h4, hl]
            rw [show xs.length - n.toNat + t = (d.cap + d.last.toNat + 1 - n.toNat + t) + p * d.cap by omega,
              Nat.add_mul_mod_self_right]
            split
            · rw [Nat.mod_eq_sub_mod (by omega), Nat.mod_eq_of_lt (by omega)]
            · rw [Nat.mod_eq_of_lt (by omega)]
      obtain ⟨hib, hkey⟩ := key
      have hstop : (n + i).toNat = n.toNat + i.toNat := by
        rw [BitVec.toNat_add]; omega
      have hdl : (xs.drop (xs.length - n.toNat)).length = n.toNat := by
        rw [List.length_drop]; omega
      have hrun := d.loop_spec cb (xs.drop (xs.length - n.toNat)) i s (by rw [hdl]; omega) (by
        intro t ht
        rw [hdl] at ht
        rw [hkey t ht, hslot _ (by omega) (by omega), List.getElem_drop])
      rw [hdl] at hrun
      simp only [hstop, hi]
      rw [show n.toNat + i.toNat - i.toNat = n.toNat by omega, hrun]

end Verif.Rtr
