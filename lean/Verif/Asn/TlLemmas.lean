import Verif.Asn.Spec
import Verif.Cms.BerLemmas
/-
Tags and lengths: what is read is what is written.
-/
namespace Verif.Asn
open Verif.Res (Byte be)
open Verif.Cms (berFetchLength Len isConstructed val128 byte_top byte_top' byte_low7 byte_low5 byte_bit5)

theorem byte_low5' (b : Byte) : (b &&& 0x1F).toNat = b.toNat % 32 := by revert b; decide

theorem fold128_le (bs : List Byte) : ∀ v : Nat, v ≤ bs.foldl (fun v b => v * 128 + b.toNat % 128) v := by
  induction bs with
  | nil => intro v; exact Nat.le_refl _
  | cons b bs ih =>
    intro v
    have := ih (v * 128 + b.toNat % 128)
    simp only [List.foldl_cons]
    omega

theorem fold128_snoc (cs : List Byte) (y : Byte) (v : Nat) (hy : y.toNat < 128) :
    (cs ++ [y]).foldl (fun v b => v * 128 + b.toNat % 128) v = cs.foldl (fun v b => v * 128 + b.toNat % 128) v * 128 + y.toNat := by
  rw [List.foldl_append]
  simp only [List.foldl_cons, List.foldl_nil, Nat.mod_eq_of_lt hy]

theorem tagLoop_sound (cls : Nat) (hc : cls < 4) : ∀ (s : List Byte) (val sk tag n : Nat), val < 2 ^ 23 → tagLoop cls s val sk = .ok tag n →
    ∃ cs y rest, s = cs ++ y :: rest ∧ n = sk + cs.length ∧ (∀ x ∈ cs, 128 ≤ x.toNat) ∧ y.toNat < 128 ∧
      tag = (cs ++ [y]).foldl (fun v b => v * 128 + b.toNat % 128) val * 4 + cls ∧
      (cs ++ [y]).foldl (fun v b => v * 128 + b.toNat % 128) val < 2 ^ 30 := by
  intro s
  induction s with
  | nil => intro val sk tag n _ h; unfold tagLoop at h; cases h
  | cons b s ih =>
    intro val sk tag n hv h
    unfold tagLoop at h
    by_cases hb : b &&& 0x80 ≠ 0
    · rw [if_pos hb] at h
      simp only at h
      have hlt : val * 128 + (b &&& 0x7F).toNat < 2 ^ 32 := by rw [byte_low7]; omega
      rw [Nat.mod_eq_of_lt hlt] at h
      by_cases h23 : (val * 128 + (b &&& 0x7F).toNat) >>> 23 ≠ 0
      · rw [if_pos h23] at h; cases h
      · rw [if_neg h23] at h
        have : val * 128 + (b &&& 0x7F).toNat < 2 ^ 23 := by
          have := not_not.1 h23
          rw [Nat.shiftRight_eq_div_pow] at this
          omega
        obtain ⟨cs, y, rest, rfl, rfl, h1, h2, h3, h4⟩ := ih _ _ _ _ this h
        refine ⟨b :: cs, y, rest, rfl, by simp only [List.length_cons]; omega, ?_, h2, ?_, ?_⟩
        · intro x hx
          rcases List.mem_cons.1 hx with rfl | hx
          · exact (byte_top' x).1 hb
          · exact h1 x hx
        · rw [h3]; simp only [List.cons_append, List.foldl_cons, byte_low7]
        · simpa only [List.cons_append, List.foldl_cons, byte_low7] using h4
    · rw [if_neg hb] at h
      have hb : b.toNat < 128 := (byte_top b).1 (not_not.1 hb)
      have h1 : ([] ++ [b]).foldl (fun v (b : Byte) => v * 128 + b.toNat % 128) val = val * 128 + b.toNat := by
        simp only [List.nil_append, List.foldl_cons, List.foldl_nil]; omega
      rw [Nat.mod_eq_of_lt (by omega)] at h
      cases h
      exact ⟨[], b, s, rfl, by simp, by simp, hb, by rw [h1], by rw [h1]; omega⟩

theorem tagLoop_complete (cls : Nat) (hc : cls < 4) (y : Byte) (hy : y.toNat < 128) (rest : List Byte) : ∀ (cs : List Byte) (val sk : Nat), (∀ x ∈ cs, 128 ≤ x.toNat) →
    (cs ++ [y]).foldl (fun v b => v * 128 + b.toNat % 128) val < 2 ^ 30 →
    tagLoop cls (cs ++ y :: rest) val sk = .ok ((cs ++ [y]).foldl (fun v b => v * 128 + b.toNat % 128) val * 4 + cls) (sk + cs.length) := by
  intro cs
  induction cs with
  | nil =>
    intro val sk _ h
    have h1 : ([] ++ [y]).foldl (fun v (b : Byte) => v * 128 + b.toNat % 128) val = val * 128 + y.toNat := by
      simp only [List.nil_append, List.foldl_cons, List.foldl_nil]; omega
    rw [h1] at h ⊢
    simp only [List.nil_append]
    unfold tagLoop
    rw [if_neg (not_not.2 ((byte_top y).2 hy)), Nat.mod_eq_of_lt (by omega)]
    simp
  | cons b cs ih =>
    intro val sk hcs h
    simp only [List.cons_append, List.foldl_cons] at h ⊢
    have hb : 128 ≤ b.toNat := hcs b (by simp)
    unfold tagLoop
    have hval : val * 128 + b.toNat % 128 < 2 ^ 23 := by
      rw [fold128_snoc _ _ _ hy] at h
      have := fold128_le cs (val * 128 + b.toNat % 128)
      omega
    rw [if_pos ((byte_top' b).2 hb)]
    simp only [byte_low7]
    rw [Nat.mod_eq_of_lt (by omega), if_neg (by rw [Nat.shiftRight_eq_div_pow, Nat.div_eq_of_lt hval]; simp),
      ih _ _ (fun x hx => hcs x (by simp [hx])) h]
    congr 1
    simp only [List.length_cons]
    omega

theorem isConstructed_cons (b : Byte) (s : List Byte) : isConstructed (b :: s) = true ↔ b.toNat / 32 % 2 = 1 := by
  unfold isConstructed
  rw [decide_eq_true_iff]
  exact byte_bit5 b

theorem fetchTag_cons (t : Byte) (s : List Byte) : fetchTag (t :: s) =
    if t &&& 0x1F ≠ 0x1F then .ok ((t &&& 0x1F).toNat * 4 + t.toNat / 64) 1 else tagLoop (t.toNat / 64) s 0 2 := rfl

theorem fetchTag_sound {s : List Byte} {tag n : Nat} (h : fetchTag s = .ok tag n) :
    1 ≤ n ∧ n ≤ s.length ∧ IsTag tag (isConstructed s) (s.take n) := by
  cases s with
  | nil => cases h
  | cons b s =>
    rw [fetchTag_cons] at h
    have hb := b.isLt
    by_cases h5 : b &&& 0x1F ≠ 0x1F
    · rw [if_pos h5, byte_low5'] at h
      have h6 := (byte_low5 b).1 h5
      cases h
      refine ⟨Nat.le_refl _, by simp, b, [], by simp, by omega, (isConstructed_cons b s).symm, .inl ⟨rfl, by omega, by omega⟩⟩
    · rw [if_neg h5] at h
      have h6 : b.toNat % 32 = 31 := by
        by_contra hne
        exact h5 ((byte_low5 b).2 hne)
      obtain ⟨cs, y, rest, rfl, rfl, h1, h2, h3, h4⟩ := tagLoop_sound _ (by omega) _ _ _ _ _ (by norm_num) h
      subst h3
      generalize hg : (cs ++ [y]).foldl (fun v (b : Byte) => v * 128 + b.toNat % 128) 0 = w at h4 ⊢
      refine ⟨by omega, by simp only [List.length_cons, List.length_append]; omega, b, cs ++ [y], ?_, by omega, (isConstructed_cons b _).symm,
        .inr ⟨h6, cs, y, rfl, h1, h2, ?_, by omega⟩⟩
      · rw [show 2 + cs.length = (cs.length + 1) + 1 by omega, List.take_succ_cons, show cs ++ y :: rest = (cs ++ [y]) ++ rest by simp, List.take_left' (by simp)]
      · unfold val128
        rw [hg]
        omega

theorem isTag_ne {tag : Nat} {c : Bool} {t : List Byte} (h : IsTag tag c t) : 1 ≤ t.length := by
  obtain ⟨b, bs, rfl, _⟩ := h
  simp

theorem fetchTag_complete {tag : Nat} {c : Bool} {t : List Byte} (h : IsTag tag c t) (rest : List Byte) :
    fetchTag (t ++ rest) = .ok tag t.length ∧ isConstructed (t ++ rest) = c := by
  obtain ⟨b, bs, rfl, h1, h2, h3⟩ := h
  have hb := b.isLt
  refine ⟨?_, ?_⟩
  · simp only [List.cons_append, fetchTag]
    rcases h3 with ⟨rfl, h3, h4⟩ | ⟨h3, cs, y, rfl, h4, h5, h6, h7⟩
    · rw [if_pos ((byte_low5 b).2 (by omega)), byte_low5']
      simp only [List.length_singleton]
      congr 1
      omega
    · rw [if_neg (fun hne => (byte_low5 b).1 hne h3)]
      unfold val128 at h6
      simp only [List.append_assoc, List.cons_append, List.nil_append]
      rw [tagLoop_complete _ (by omega) y h5 rest cs 0 2 h4 (by rw [h6]; omega), h6]
      simp only [List.length_cons, List.length_append, List.length_nil]
      congr 1 <;> omega
  · rw [List.cons_append]
    cases hc : isConstructed (b :: (bs ++ rest)) with
    | true => exact (h2.1 ((isConstructed_cons _ _).1 hc)).symm
    | false =>
      cases c with
      | false => rfl
      | true => rw [(isConstructed_cons _ _).2 (h2.2 rfl)] at hc; cases hc

theorem fetchTag_take {s : List Byte} {k tag n : Nat} (h : fetchTag (s.take k) = .ok tag n) :
    fetchTag s = .ok tag n ∧ n ≤ k ∧ isConstructed (s.take k) = isConstructed s := by
  obtain ⟨h1, h2, h3⟩ := fetchTag_sound h
  have h4 : n ≤ k := by rw [List.length_take] at h2; omega
  have e : s = (s.take k).take n ++ s.drop n := by rw [List.take_take, Nat.min_eq_left h4, List.take_append_drop]
  have := fetchTag_complete h3 (s.drop n)
  rw [← e] at this
  refine ⟨?_, h4, this.2.symm⟩
  rw [this.1]
  simp only [List.length_take] at h2 ⊢
  congr 1
  omega

theorem lenLoop_sound : ∀ (m : Nat) (s : List Byte) (acc sk ll v : Nat), Cms.lenLoop m s acc sk = .defn ll v →
    m ≤ s.length ∧ ll = sk + m ∧ v = acc * 256 ^ m + be (s.take m) ∧ v < 2 ^ 62 := by
  intro m
  induction m with
  | zero =>
    intro s acc sk ll v h
    unfold Cms.lenLoop at h
    by_cases hl : acc > 2 ^ 62 - 1
    · rw [if_pos hl] at h; cases h
    · rw [if_neg hl] at h
      cases h
      simp only [Nat.pow_zero, List.take_zero, be]
      omega
  | succ m ih =>
    intro s acc sk ll v h
    cases s with
    | nil => unfold Cms.lenLoop at h; cases h
    | cons b s =>
      unfold Cms.lenLoop at h
      by_cases hl : acc >>> 55 ≠ 0
      · rw [if_pos hl] at h; cases h
      · rw [if_neg hl] at h
        obtain ⟨h1, h2, h3, h4⟩ := ih _ _ _ _ _ h
        refine ⟨by simp only [List.length_cons]; omega, by omega, ?_, h4⟩
        rw [h3]
        simp only [List.take_succ_cons, be, List.length_take, Nat.min_eq_left h1, Nat.pow_succ]
        ring

theorem fetchLen_sound {c : Bool} {s : List Byte} {ll v : Nat} (h : berFetchLength c s = .defn ll v) :
    1 ≤ ll ∧ ll ≤ s.length ∧ v < 2 ^ 62 ∧ IsLen v c (s.take ll) := by
  cases s with
  | nil => cases h
  | cons b s =>
    rw [Cms.fetch_cons] at h
    have hb := b.isLt
    by_cases h1 : b &&& 0x80 = 0
    · rw [if_pos h1] at h
      have h2 := (byte_top b).1 h1
      cases h
      exact ⟨Nat.le_refl _, by simp, by omega, .inl ⟨b, by simp, rfl, h2⟩⟩
    · rw [if_neg h1] at h
      have h2 := (byte_top' b).1 h1
      by_cases h3 : c = true ∧ b = 0x80
      · rw [if_pos h3] at h; cases h
      · rw [if_neg h3] at h
        by_cases h4 : b = 0xff
        · rw [if_pos h4] at h; cases h
        · rw [if_neg h4, byte_low7] at h
          obtain ⟨k1, k2, k3, k4⟩ := lenLoop_sound _ _ _ _ _ _ h
          refine ⟨by omega, by simp only [List.length_cons]; omega, k4, .inr ⟨b, s.take (b.toNat % 128), ?_, ?_, h4, ?_, ?_⟩⟩
          · rw [k2, Nat.add_comm 1, List.take_succ_cons]
          · rw [List.length_take]; omega
          · rw [k3]; omega
          · intro hc h0
            have : (s.take (b.toNat % 128)).length = 0 := by rw [h0]; rfl
            rw [List.length_take] at this
            refine h3 ⟨hc, BitVec.eq_of_toNat_eq ?_⟩
            show b.toNat = 128
            omega

theorem fetchLen_indef {c : Bool} {s : List Byte} (h : berFetchLength c s = .indef) : c = true ∧ 1 ≤ s.length ∧ s.take 1 = [0x80] := by
  cases s with
  | nil => cases h
  | cons b s =>
    rw [Cms.fetch_cons] at h
    by_cases h1 : b &&& 0x80 = 0
    · rw [if_pos h1] at h; cases h
    · rw [if_neg h1] at h
      by_cases h3 : c = true ∧ b = 0x80
      · exact ⟨h3.1, by simp, by simp [h3.2]⟩
      · rw [if_neg h3] at h
        by_cases h4 : b = 0xff
        · rw [if_pos h4] at h; cases h
        · rw [if_neg h4] at h
          exfalso
          clear h1 h3 h4
          revert h
          generalize (b &&& 0x7F).toNat = m
          generalize (0 : Nat) = acc
          generalize 1 = sk
          induction m generalizing s acc sk with
          | zero =>
            intro h
            unfold Cms.lenLoop at h
            by_cases hl : acc > 2 ^ 62 - 1
            · rw [if_pos hl] at h; cases h
            · rw [if_neg hl] at h; cases h
          | succ m ih =>
            intro h
            cases s with
            | nil => unfold Cms.lenLoop at h; cases h
            | cons b s =>
              unfold Cms.lenLoop at h
              by_cases hl : acc >>> 55 ≠ 0
              · rw [if_pos hl] at h; cases h
              · rw [if_neg hl] at h
                exact ih _ _ _ h

theorem isLen_ne {n : Nat} {c : Bool} {l : List Byte} (h : IsLen n c l) : 1 ≤ l.length := by
  rcases h with ⟨b, rfl, -⟩ | ⟨k, bs, rfl, -⟩ <;> simp

theorem fetchLen_complete {n : Nat} {c : Bool} {l : List Byte} (h : IsLen n c l) (hn : n < 2 ^ 62) (rest : List Byte) :
    berFetchLength c (l ++ rest) = .defn l.length n := by
  rcases h with h | ⟨k, bs, rfl, hk, h255, hbe, hne⟩
  · exact Cms.fetch_isLen (.inl h) (by omega) c rest
  · by_cases hbs : bs = []
    · subst hbs
      cases c with
      | true => exact absurd rfl (hne rfl)
      | false =>
        have hk' : k = 0x80 := BitVec.eq_of_toNat_eq (by simpa using hk)
        subst hk'
        simp only [be] at hbe
        subst hbe
        simp only [List.cons_append, List.nil_append, Cms.fetch_cons]
        rw [if_neg (by decide), if_neg (by decide), if_neg (by decide)]
        simp [Cms.lenLoop]
    · exact Cms.fetch_isLen (.inr ⟨k, bs, rfl, hk, hbs, h255, hbe⟩) (by omega) c rest

theorem fetchLen_indef_complete (rest : List Byte) : berFetchLength true (0x80 :: rest) = .indef := Cms.fetch_indef rest

theorem fetchLen_take {c : Bool} {s : List Byte} {k ll v : Nat} (h : berFetchLength c (s.take k) = .defn ll v) :
    berFetchLength c s = .defn ll v ∧ ll ≤ k := by
  obtain ⟨h1, h2, h3, h4⟩ := fetchLen_sound h
  have h5 : ll ≤ k := by rw [List.length_take] at h2; omega
  have e : s = (s.take k).take ll ++ s.drop ll := by rw [List.take_take, Nat.min_eq_left h5, List.take_append_drop]
  have := fetchLen_complete h4 h3 (s.drop ll)
  rw [← e] at this
  refine ⟨?_, h5⟩
  rw [this]
  simp only [List.length_take] at h2 ⊢
  congr 1
  omega

end Verif.Asn
