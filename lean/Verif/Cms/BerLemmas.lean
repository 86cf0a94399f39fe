import Verif.Cms.ModelBer
import Verif.Cms.SpecBer
import Verif.Res.AddrLemmas
import Mathlib.Tactic.Ring
/-
The TLV functions on BER encodings.
-/
namespace Verif.Cms
open Verif.Res (Byte be be_lt be_append)

/-! ### Bits of a byte -/

theorem byte_top (b : Byte) : b &&& 0x80 = 0 ↔ b.toNat < 128 := by revert b; decide
theorem byte_top' (b : Byte) : b &&& 0x80 ≠ 0 ↔ 128 ≤ b.toNat := by revert b; decide
theorem byte_low7 (b : Byte) : (b &&& 0x7F).toNat = b.toNat % 128 := by revert b; decide
theorem byte_low5 (b : Byte) : b &&& 0x1F ≠ 0x1F ↔ b.toNat % 32 ≠ 31 := by revert b; decide
theorem byte_bit5 (b : Byte) : b &&& 0x20 ≠ 0 ↔ b.toNat / 32 % 2 = 1 := by revert b; decide

/-! ### Lengths -/

theorem fetch_cons (c : Bool) (oct : Byte) (s : List Byte) : berFetchLength c (oct :: s) =
    if oct &&& 0x80 = 0 then .defn 1 oct.toNat else if c ∧ oct = 0x80 then .indef else if oct = 0xff then .bad
    else lenLoop (oct &&& 0x7F).toNat s 0 1 := rfl

theorem fetchTag_cons (t : Byte) (s : List Byte) : berFetchTag (t :: s) = if t &&& 0x1F ≠ 0x1F then .ok 1 else tagLoop s 0 2 := rfl

theorem lenLoop_spec : ∀ (bs rest : List Byte) (acc sk : Nat), acc * 256 ^ bs.length + be bs ≤ 2 ^ 62 - 1 →
    lenLoop bs.length (bs ++ rest) acc sk = .defn (sk + bs.length) (acc * 256 ^ bs.length + be bs) := by
  intro bs
  induction bs with
  | nil =>
    intro rest acc sk h
    simp only [List.length_nil, Nat.pow_zero, Nat.mul_one, be, Nat.add_zero] at h ⊢
    unfold lenLoop
    rw [if_neg (by omega)]
  | cons b bs ih =>
    intro rest acc sk h
    have e : acc * 256 ^ (b :: bs).length + be (b :: bs) = (acc * 256 + b.toNat) * 256 ^ bs.length + be bs := by
      simp only [List.length_cons, be, Nat.pow_succ]; ring
    rw [e] at h ⊢
    have hacc : acc < 2 ^ 55 := by
      have : 1 ≤ 256 ^ bs.length := Nat.one_le_two_pow.trans (Nat.pow_le_pow_left (by omega) _)
      have h2 : acc * 256 + b.toNat ≤ (acc * 256 + b.toNat) * 256 ^ bs.length := Nat.le_mul_of_pos_right _ this
      omega
    simp only [List.length_cons, List.cons_append]
    unfold lenLoop
    rw [if_neg (by rw [Nat.shiftRight_eq_div_pow, Nat.div_eq_of_lt hacc]; simp), ih _ _ _ h]
    congr 1
    omega

theorem fetch_isLen {n : Nat} {l : List Byte} (h : IsLen n l) (hn : n ≤ 2 ^ 62 - 1) (c : Bool) (rest : List Byte) :
    berFetchLength c (l ++ rest) = .defn l.length n := by
  rcases h with ⟨b, rfl, rfl, hb⟩ | ⟨k, bs, rfl, hk, hbs, h255, rfl⟩
  · simp only [List.cons_append, List.nil_append, List.length_singleton]
    rw [fetch_cons, if_pos ((byte_top b).2 hb)]
  · simp only [List.cons_append, List.length_cons]
    rw [fetch_cons]
    have hlen : 0 < bs.length := List.length_pos_iff.2 hbs
    rw [if_neg (fun h => by have := (byte_top k).1 h; omega), if_neg (fun h => by rw [h.2, show (0x80 : Byte).toNat = 128 from rfl] at hk; omega), if_neg h255]
    have : (k &&& 0x7F).toNat = bs.length := by
      rw [byte_low7]
      have := k.isLt
      omega
    rw [this, lenLoop_spec _ _ _ _ (by omega)]
    simp only [Nat.zero_mul, Nat.zero_add]
    congr 1
    omega

theorem fetch_indef (rest : List Byte) : berFetchLength true (0x80 :: rest) = .indef := by
  rw [fetch_cons, if_neg (by decide), if_pos (by decide)]

theorem isLen_len {n : Nat} {l : List Byte} (h : IsLen n l) : 1 ≤ l.length := by
  rcases h with ⟨b, rfl, -⟩ | ⟨k, bs, rfl, -⟩ <;> simp

theorem isTag_len {t : List Byte} (h : IsTag t) : 1 ≤ t.length := by
  rcases h with ⟨b, rfl, -⟩ | ⟨k, bs, y, rfl, -⟩ <;> simp

/-! ### Tags -/

theorem tagLoop_spec : ∀ (bs : List Byte) (y : Byte) (rest : List Byte) (val sk : Nat), (∀ x ∈ bs, 128 ≤ x.toNat) → y.toNat < 128 →
    (val + 1) * 128 ^ bs.length ≤ 2 ^ 23 →
    tagLoop (bs ++ y :: rest) val sk = .ok (sk + bs.length) := by
  intro bs
  induction bs with
  | nil =>
    intro y rest val sk _ hy _
    simp only [List.nil_append, List.length_nil, Nat.add_zero]
    unfold tagLoop
    rw [if_neg (fun h => by have := (byte_top' y).1 h; omega)]
  | cons b bs ih =>
    intro y rest val sk hbs hy hv
    simp only [List.cons_append, List.length_cons]
    unfold tagLoop
    rw [if_pos ((byte_top' b).2 (hbs b (List.mem_cons_self ..)))]
    simp only
    rw [byte_low7]
    have hle : (val * 128 + b.toNat % 128 + 1) * 128 ^ bs.length ≤ 2 ^ 23 := by
      refine le_trans ?_ hv
      simp only [List.length_cons, Nat.pow_succ]
      have : (val + 1) * (128 ^ bs.length * 128) = ((val + 1) * 128) * 128 ^ bs.length := by ring
      rw [this]
      exact Nat.mul_le_mul_right _ (by omega)
    have h1 : val * 128 + b.toNat % 128 + 1 ≤ 2 ^ 23 := by
      refine le_trans ?_ hle
      exact Nat.le_mul_of_pos_right _ (Nat.pow_pos (by omega))
    have hm : (val * 128 + b.toNat % 128) % 2 ^ 32 = val * 128 + b.toNat % 128 := Nat.mod_eq_of_lt (by omega)
    rw [hm, if_neg (by rw [Nat.shiftRight_eq_div_pow, Nat.div_eq_of_lt (by omega)]; simp),
      ih y rest _ _ (fun x hx => hbs x (List.mem_cons_of_mem _ hx)) hy hle]
    congr 1
    omega

theorem fetchTag_spec {t : List Byte} (h : IsTag t) (rest : List Byte) : berFetchTag (t ++ rest) = .ok t.length := by
  rcases h with ⟨b, rfl, hb⟩ | ⟨b, bs, y, rfl, hb, hlen, hbs, hy⟩
  · simp only [List.cons_append, List.nil_append, List.length_singleton]
    rw [fetchTag_cons, if_pos ((byte_low5 b).2 hb)]
  · simp only [List.cons_append, List.append_assoc, List.nil_append, List.length_cons, List.length_append, List.length_nil]
    rw [fetchTag_cons, if_neg (fun h => by have := (byte_low5 b).1 h; omega), tagLoop_spec bs y rest 0 2 hbs hy ?_]
    · congr 1
      omega
    · have : 128 ^ bs.length ≤ 128 ^ 3 := Nat.pow_le_pow_right (by omega) hlen
      omega

theorem isConstructed_append {t : List Byte} (h : IsTag t) (rest : List Byte) : isConstructed (t ++ rest) = isConstructed t := by
  rcases h with ⟨b, rfl, -⟩ | ⟨k, bs, y, rfl, -⟩ <;> simp [isConstructed]

theorem isConstructed_iff {t : List Byte} : TagConstructed t → isConstructed t = true := by
  rintro ⟨b, bs, rfl, h⟩
  unfold isConstructed
  simp only [List.headD_cons]
  exact decide_eq_true ((byte_bit5 b).2 h)

/-! ### Elements -/

/-- The conclusion, for each kind. -/
def Skips : Kind → List Byte → Prop
  | .one, x => x.length ≤ 2 ^ 62 - 1 → ∃ t lv, x = t ++ lv ∧ IsTag t ∧ 1 ≤ lv.length ∧
      ∀ rest f, 2 * lv.length ≤ f + 1 → berSkipLength f (isConstructed t) (lv ++ rest) = .ok lv.length
  | .seq, s => s.length ≤ 2 ^ 62 - 1 → ∀ rest f k, 2 * s.length + 2 ≤ f → skipItems f (s ++ ([0, 0] ++ rest)) k = .ok (k + s.length + 2)

theorem enc_skips {k : Kind} {x : List Byte} (h : Enc k x) : Skips k x := by
  induction h with
  | defn t l v ht hl =>
    intro hlen
    refine ⟨t, l ++ v, by simp, ht, by have := isLen_len hl; simp; omega, ?_⟩
    intro rest f hf
    have hll := isLen_len hl
    simp only [List.length_append] at hf hlen ⊢
    obtain ⟨f, rfl⟩ : ∃ g, f = g + 1 := ⟨f - 1, by omega⟩
    unfold berSkipLength
    rw [List.append_assoc, fetch_isLen hl (by omega)]
    simp only [List.length_append]
    rw [if_neg (by omega)]
  | indef t items ht hc hi ih =>
    intro hlen
    refine ⟨t, [0x80] ++ items ++ [0, 0], by simp, ht, by simp, ?_⟩
    intro rest f hf
    simp only [List.length_append, List.length_singleton, List.length_cons, List.length_nil] at hf hlen ⊢
    obtain ⟨f, rfl⟩ : ∃ g, f = g + 1 := ⟨f - 1, by omega⟩
    unfold berSkipLength
    rw [isConstructed_iff hc]
    have e : [(0x80 : Byte)] ++ items ++ [0, 0] ++ rest = 0x80 :: (items ++ ([0, 0] ++ rest)) := by simp
    rw [e, fetch_indef]
    simp only [List.drop_succ_cons, List.drop_zero]
    rw [ih (by omega) rest f 1 (by omega)]
  | nil =>
    intro _ rest f k hf
    obtain ⟨f, rfl⟩ : ∃ g, f = g + 2 := ⟨f - 2, by simp at hf; omega⟩
    simp only [List.nil_append, List.cons_append, List.length_nil]
    unfold skipItems
    have h1 : berFetchTag ((0 : Byte) :: 0 :: rest) = .ok 1 := by rw [fetchTag_cons, if_pos (by decide)]
    rw [h1]
    simp only [List.drop_succ_cons, List.drop_zero]
    unfold berSkipLength
    have h2 : ∀ c, berFetchLength c ((0 : Byte) :: rest) = .defn 1 0 := by
      intro c; rw [fetch_cons, if_pos (by decide)]; rfl
    rw [h2]
    simp
  | cons x xs hx h0 hxs ih1 ih2 =>
    intro hlen rest f k hf
    simp only [List.length_append] at hlen hf
    obtain ⟨t, lv, e, ht, hlv, hskip⟩ := ih1 (by omega)
    have htl := isTag_len ht
    have hxl : x.length = t.length + lv.length := by rw [e]; simp
    obtain ⟨f, rfl⟩ : ∃ g, f = g + 1 := ⟨f - 1, by omega⟩
    have e2 : x ++ xs ++ ([0, 0] ++ rest) = t ++ (lv ++ (xs ++ ([0, 0] ++ rest))) := by rw [e]; simp
    unfold skipItems
    rw [e2, fetchTag_spec ht]
    simp only
    rw [List.drop_left, isConstructed_append ht, hskip _ f (by omega)]
    simp only
    rw [if_neg, ← List.drop_drop, List.drop_left, List.drop_left, ih2 (by omega) rest f _ (by omega)]
    · simp only [List.length_append]; congr 1; omega
    · rintro ⟨h1, h2⟩
      apply h0
      rw [← e2] at h1 h2
      match x, hxl, h1, h2 with
      | a :: b :: y, _, h1, h2 =>
        simp only [List.cons_append, List.getElem?_cons_zero, Option.some.injEq] at h1
        simp only [List.cons_append, List.getElem?_cons_succ, List.getElem?_cons_zero, Option.some.injEq] at h2
        rw [h1, h2]; rfl
      | [a], hxl, _, _ => simp at hxl; omega
      | [], hxl, _, _ => simp at hxl; omega

/-! ### The functions of certificate.c -/

theorem skipT_cons (t : Byte) (s : List Byte) : skipT (t :: s) t = some s := by
  unfold skipT; rw [if_neg (by simp)]

theorem skipTL_spec {l : List Byte} (h : AnyLen l) (t : Byte) (rest : List Byte) : skipTL (t :: (l ++ rest)) t = some rest := by
  unfold skipTL
  rw [skipT_cons]
  simp only
  rcases h with ⟨n, hn, hl⟩ | rfl
  · rw [fetch_isLen hl (by omega)]
    simp
  · rw [List.singleton_append, fetch_indef]
    simp

theorem elem_single {t : List Byte} {lv : List Byte} {tag : Byte} (ht : IsTag t) (h : (t ++ lv).head? = some tag) (htag : tag.toNat % 32 ≠ 31) :
    t = [tag] := by
  rcases ht with ⟨b, rfl, -⟩ | ⟨b, bs, y, rfl, hb, -⟩
  · simp only [List.cons_append, List.nil_append, List.head?_cons, Option.some.injEq] at h
    rw [h]
  · simp only [List.cons_append, List.head?_cons, Option.some.injEq] at h
    rw [h] at hb
    exact absurd hb htag

theorem skipTLV_spec {x : List Byte} {tag : Byte} (h : Elem tag x) (hx : x.length ≤ 2 ^ 62 - 1) (htag : tag.toNat % 32 ≠ 31)
    (rest : List Byte) : skipTLV (x ++ rest) tag = some rest := by
  obtain ⟨henc, hhead⟩ := h
  obtain ⟨t, lv, e, ht, hlv, hskip⟩ := enc_skips henc hx
  subst e
  have := elem_single ht hhead htag
  subst this
  unfold skipTLV
  simp only [List.cons_append, List.nil_append]
  rw [skipT_cons]
  simp only
  have hc : isConstructed (tag :: (lv ++ rest)) = isConstructed [tag] := isConstructed_append ht (lv ++ rest)
  rw [hc, hskip rest _ (by simp only [List.length_append]; omega)]
  simp

/-! ### The recursion ends -/

theorem lenLoop_le : ∀ (n : Nat) (s : List Byte) (acc sk ll v : Nat), lenLoop n s acc sk = .defn ll v → sk ≤ ll ∧ ll ≤ sk + s.length := by
  intro n
  induction n with
  | zero =>
    intro s acc sk ll v h
    unfold lenLoop at h
    split at h
    · cases h
    · cases h; omega
  | succ n ih =>
    intro s acc sk ll v h
    cases s with
    | nil => unfold lenLoop at h; cases h
    | cons b s =>
      unfold lenLoop at h
      split at h
      · cases h
      · have := ih _ _ _ _ _ h
        simp only [List.length_cons]
        omega

theorem fetch_le {c : Bool} {s : List Byte} {ll v : Nat} (h : berFetchLength c s = .defn ll v) : 1 ≤ ll ∧ ll ≤ s.length := by
  unfold berFetchLength at h
  split at h
  · cases h
  · split at h
    · cases h; simp
    · split at h
      · cases h
      · split at h
        · cases h
        · have := lenLoop_le _ _ _ _ _ _ h
          simp only [List.length_cons]
          omega

theorem fetch_indef_len {c : Bool} {s : List Byte} (h : berFetchLength c s = .indef) : 1 ≤ s.length := by
  cases s with
  | nil => unfold berFetchLength at h; cases h
  | cons => simp

theorem tagLoop_le : ∀ (s : List Byte) (val sk n : Nat), tagLoop s val sk = .ok n → sk ≤ n ∧ n < sk + s.length := by
  intro s
  induction s with
  | nil => intro val sk n h; unfold tagLoop at h; cases h
  | cons b s ih =>
    intro val sk n h
    unfold tagLoop at h
    split at h
    · simp only at h
      split at h
      · cases h
      · have := ih _ _ _ h
        simp only [List.length_cons]
        omega
    · cases h; simp

theorem tagLoop_ne : ∀ (s : List Byte) (val sk : Nat), tagLoop s val sk ≠ .stuck := by
  intro s
  induction s with
  | nil => intro val sk; simp [tagLoop]
  | cons b s ih =>
    intro val sk
    unfold tagLoop
    split
    · simp only
      split
      · simp
      · exact ih _ _
    · simp

theorem fetchTag_le {s : List Byte} {n : Nat} (h : berFetchTag s = .ok n) : 1 ≤ n ∧ n ≤ s.length := by
  unfold berFetchTag at h
  split at h
  · cases h
  · split at h
    · cases h; simp
    · have := tagLoop_le _ _ _ _ h
      simp only [List.length_cons]
      omega

theorem fetchTag_ne (s : List Byte) : berFetchTag s ≠ .stuck := by
  unfold berFetchTag
  split
  · simp
  · split
    · simp
    · exact tagLoop_ne _ _ _

/-- What is skipped is there, and the bounds on the recursion are enough. -/
theorem skip_total : ∀ (f : Nat),
    (∀ c s, (∀ n, berSkipLength f c s = .ok n → 1 ≤ n ∧ n ≤ s.length) ∧ (2 * s.length + 1 ≤ f → berSkipLength f c s ≠ .stuck)) ∧
    (∀ s k, (∀ n, skipItems f s k = .ok n → k ≤ n ∧ n ≤ k + s.length) ∧ (2 * s.length + 2 ≤ f → skipItems f s k ≠ .stuck)) := by
  intro f
  induction f with
  | zero => exact ⟨fun c s => ⟨by simp [berSkipLength], by omega⟩, fun s k => ⟨by simp [skipItems], by omega⟩⟩
  | succ f ih =>
    obtain ⟨ih1, ih2⟩ := ih
    refine ⟨fun c s => ?_, fun s k => ?_⟩
    · unfold berSkipLength
      cases hl : berFetchLength c s with
      | more => simp
      | bad => simp
      | defn ll v =>
        simp only
        have := fetch_le hl
        split
        · simp
        · refine ⟨fun n hn => ?_, by simp⟩
          cases hn; omega
      | indef =>
        simp only
        have h1 := fetch_indef_len hl
        obtain ⟨ha, hb⟩ := ih2 (s.drop 1) 1
        rw [List.length_drop] at ha hb
        exact ⟨fun n hn => by have := ha n hn; omega, fun hf => hb (by omega)⟩
    · unfold skipItems
      cases ht : berFetchTag s with
      | more => simp
      | bad => simp
      | stuck => exact absurd ht (fetchTag_ne s)
      | ok tl =>
        simp only
        have htl := fetchTag_le ht
        obtain ⟨ha, hb⟩ := ih1 (isConstructed s) (s.drop tl)
        rw [List.length_drop] at ha hb
        cases hs : berSkipLength f (isConstructed s) (s.drop tl) with
        | more => simp
        | bad => simp
        | stuck => exact ⟨by simp, fun hf => absurd hs (hb (by omega))⟩
        | ok ll =>
          have hll := ha ll hs
          simp only
          split
          · exact ⟨fun n hn => by cases hn; omega, by simp⟩
          · obtain ⟨hc, hd⟩ := ih2 (s.drop (tl + ll)) (k + tl + ll)
            rw [List.length_drop] at hc hd
            exact ⟨fun n hn => by have := hc n hn; omega, fun hf => hd (by omega)⟩

end Verif.Cms
