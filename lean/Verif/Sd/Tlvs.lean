import Verif.Asn.StrLemmas
import Verif.Cms.BerLemmas
/-
Elements, whatever their types: `find_signedAttrs` goes from one to the next.
-/
namespace Verif.Sd
open Verif.Res (Byte be)
open Verif.Cms (berFetchLength berSkipLength berFetchTag skipItems isConstructed skipT skipTL skipTLV)
open Verif.Asn (Tag IsTag IsLen Els)

/-- One element, or several inside of an indefinite length. What is inside of a definite length does not matter. -/
inductive Tlvs : Cms.Kind → List Byte → Prop where
  | defn {tag c t l v} : IsTag tag c t → IsLen v.length c l → Tlvs .one (t ++ l ++ v)
  | indef {tag t x} : IsTag tag true t → Tlvs .seq x → Tlvs .one (t ++ [0x80] ++ x ++ [0, 0])
  | nil : Tlvs .seq []
  | cons {e x} : Tlvs .one e → e.take 2 ≠ [0, 0] → Tlvs .seq x → Tlvs .seq (e ++ x)

/-- The strings that the decoder accepts. -/
theorem els_tlvs {ok : Nat → Tag → Prop} {k : Asn.Kind} {d : Nat} {e : List Byte} {ls : List (List Byte)} (h : Els ok k d e ls) :
    (k = .one → Tlvs .one e) ∧ (k = .items → Tlvs .seq e) := by
  induction h with
  | prim h1 h2 _ => exact ⟨fun _ => .defn h1 h2, fun h => by cases h⟩
  | defn h1 h2 _ _ _ => exact ⟨fun _ => .defn h1 h2, fun h => by cases h⟩
  | indef h1 _ _ ih => exact ⟨fun _ => .indef h1 (ih.2 rfl), fun h => by cases h⟩
  | nil h => exact ⟨fun hk => absurd hk h, fun _ => .nil⟩
  | cons _ hk hz _ ih1 ih2 => exact ⟨fun h => absurd h hk, fun h => .cons (ih1.1 rfl) (hz h) (ih2.2 h)⟩

theorem tlvs_len {e : List Byte} (h : Tlvs .one e) : 2 ≤ e.length := by
  cases h with
  | defn h1 h2 => have := Asn.isTag_ne h1; have := Asn.isLen_ne h2; simp only [List.length_append]; omega
  | indef h1 _ => have := Asn.isTag_ne h1; simp only [List.length_append, List.length_cons]; omega

/-! ### The same tags -/

theorem tagLoop_eq (cls : Nat) : ∀ (s : List Byte) (v sk tag n : Nat), Asn.tagLoop cls s v sk = .ok tag n → Cms.tagLoop s v sk = .ok n := by
  intro s
  induction s with
  | nil => intro v sk tag n h; cases h
  | cons b s ih =>
    intro v sk tag n h
    unfold Asn.tagLoop at h
    unfold Cms.tagLoop
    dsimp only at h ⊢
    by_cases h1 : b &&& 0x80 ≠ 0
    · rw [if_pos h1] at h ⊢
      by_cases h2 : ((v * 128 + (b &&& 0x7F).toNat) % 2 ^ 32) >>> 23 ≠ 0
      · rw [if_pos h2] at h; cases h
      · rw [if_neg h2] at h ⊢; exact ih _ _ _ _ h
    · rw [if_neg h1] at h ⊢; cases h; rfl

theorem fetchTag_eq {s : List Byte} {tag n : Nat} (h : Asn.fetchTag s = .ok tag n) : berFetchTag s = .ok n := by
  cases s with
  | nil => cases h
  | cons b s =>
    rw [Asn.fetchTag_cons] at h
    rw [Cms.fetchTag_cons]
    by_cases h1 : b &&& 0x1F ≠ 0x1F
    · rw [if_pos h1] at h ⊢; cases h; rfl
    · rw [if_neg h1] at h ⊢; exact tagLoop_eq _ _ _ _ _ _ h

/-! ### Skipping -/

def Skips : Cms.Kind → List Byte → Prop
  | .one, x => x.length < 2 ^ 62 → ∃ tag c t lv, x = t ++ lv ∧ IsTag tag c t ∧ 1 ≤ lv.length ∧
      ∀ rest f, 2 * lv.length ≤ f + 1 → berSkipLength f c (lv ++ rest) = .ok lv.length
  | .seq, s => s.length < 2 ^ 62 → ∀ rest f k, 2 * s.length + 2 ≤ f → skipItems f (s ++ ([0, 0] ++ rest)) k = .ok (k + s.length + 2)

theorem tlvs_skips {k : Cms.Kind} {x : List Byte} (h : Tlvs k x) : Skips k x := by
  induction h with
  | @defn tag c t l v ht hl =>
    intro hlen
    refine ⟨tag, c, t, l ++ v, by simp, ht, by have := Asn.isLen_ne hl; simp; omega, ?_⟩
    intro rest f hf
    have hll := Asn.isLen_ne hl
    simp only [List.length_append] at hf hlen ⊢
    obtain ⟨f, rfl⟩ : ∃ g, f = g + 1 := ⟨f - 1, by omega⟩
    unfold berSkipLength
    rw [List.append_assoc, Asn.fetchLen_complete hl (by omega)]
    simp only [List.length_append]
    rw [if_neg (by omega)]
  | @indef tag t items ht hi ih =>
    intro hlen
    refine ⟨tag, true, t, [0x80] ++ items ++ [0, 0], by simp, ht, by simp, ?_⟩
    intro rest f hf
    simp only [List.length_append, List.length_singleton, List.length_cons, List.length_nil] at hf hlen ⊢
    obtain ⟨f, rfl⟩ : ∃ g, f = g + 1 := ⟨f - 1, by omega⟩
    unfold berSkipLength
    have e : [(0x80 : Byte)] ++ items ++ [0, 0] ++ rest = 0x80 :: (items ++ ([0, 0] ++ rest)) := by simp
    rw [e, Cms.fetch_indef]
    simp only [List.drop_succ_cons, List.drop_zero]
    rw [ih (by omega) rest f 1 (by omega)]
  | nil =>
    intro _ rest f k hf
    exact Cms.enc_skips .nil (by simp) rest f k hf
  | @cons x xs hx h0 hxs ih1 ih2 =>
    intro hlen rest f k hf
    simp only [List.length_append] at hlen hf
    obtain ⟨tag, c, t, lv, e, ht, hlv, hskip⟩ := ih1 (by omega)
    have htl := Asn.isTag_ne ht
    have hxl : x.length = t.length + lv.length := by rw [e]; simp
    obtain ⟨f, rfl⟩ : ∃ g, f = g + 1 := ⟨f - 1, by omega⟩
    have e2 : x ++ xs ++ ([0, 0] ++ rest) = t ++ (lv ++ (xs ++ ([0, 0] ++ rest))) := by rw [e]; simp
    obtain ⟨t1, t2⟩ := Asn.fetchTag_complete ht (lv ++ (xs ++ ([0, 0] ++ rest)))
    unfold skipItems
    rw [e2, fetchTag_eq t1]
    simp only
    rw [List.drop_left, t2, hskip _ f (by omega)]
    simp only
    rw [if_neg, ← List.drop_drop, List.drop_left, List.drop_left, ih2 (by omega) rest f _ (by omega)]
    · simp only [List.length_append]; congr 1; omega
    · rintro ⟨h1, h2⟩
      apply h0
      rw [← e2] at h1 h2
      match x, hxl, h1, h2 with
      | a :: b :: y, _, h1, h2 =>
        simp only [List.cons_append, List.getElem?_cons_zero, Option.some.injEq] at h1
        simp only [List.cons_append, List.getElem?_cons_succ, List.getElem?_cons_zero, Option.some.injEq] at h2
        rw [h1, h2]; rfl
      | [a], hxl, _, _ => simp at hxl; omega
      | [], hxl, _, _ => simp at hxl; omega

theorem isTag_single {tag : Tag} {c : Bool} {t lv : List Byte} {b : Byte} (ht : IsTag tag c t) (h : (t ++ lv).head? = some b) (hb : b.toNat % 32 ≠ 31) : t = [b] := by
  obtain ⟨x, bs, rfl, -, -, h3⟩ := ht
  simp only [List.cons_append, List.head?_cons, Option.some.injEq] at h
  subst h
  rcases h3 with ⟨rfl, -⟩ | ⟨h3, -⟩
  · rfl
  · exact absurd h3 hb

/-- `skip_tlv` skips one element, if it begins with the byte expected. -/
theorem skipTLV_tlvs {x : List Byte} {b : Byte} (h : Tlvs .one x) (hx : x.length < 2 ^ 62) (hh : x.head? = some b) (hb : b.toNat % 32 ≠ 31)
    (rest : List Byte) : skipTLV (x ++ rest) b = some rest := by
  obtain ⟨tag, c, t, lv, e, ht, hlv, hskip⟩ := tlvs_skips h hx
  subst e
  have hc := (Asn.fetchTag_complete ht (lv ++ rest)).2
  have := isTag_single ht hh hb
  subst this
  unfold skipTLV
  simp only [List.cons_append, List.nil_append] at hc ⊢
  rw [Cms.skipT_cons]
  simp only
  rw [hc, hskip rest _ (by simp only [List.length_append]; omega)]
  simp

theorem skipT_head {s r : List Byte} {b : Byte} (h : skipT s b = some r) : s = b :: r := by
  unfold skipT at h
  by_cases h1 : s.headD 0 ≠ b
  · rw [if_pos h1] at h; cases h
  · rw [if_neg h1] at h
    cases s with
    | nil => cases h
    | cons x s =>
      simp only [List.headD_cons, ne_eq, not_not] at h1
      cases h
      rw [h1]

/-- If the buffer begins with this element, and `skip_tlv` accepts, then it skips this element. -/
theorem skipTLV_inv {x rest r : List Byte} {b : Byte} (h : Tlvs .one x) (hx : x.length < 2 ^ 62) (hb : b.toNat % 32 ≠ 31)
    (hs : skipTLV (x ++ rest) b = some r) : x.head? = some b ∧ r = rest := by
  have hh : x.head? = some b := by
    unfold skipTLV at hs
    dsimp only at hs
    cases h1 : skipT (x ++ rest) b with
    | none => rw [h1] at hs; cases hs
    | some s =>
      have h2 := skipT_head h1
      have := tlvs_len h
      cases x with
      | nil => simp at this
      | cons y x => simp only [List.cons_append, List.cons.injEq] at h2; rw [h2.1]; rfl
  rw [skipTLV_tlvs h hx hh hb] at hs
  exact ⟨hh, (Option.some.inj hs).symm⟩

end Verif.Sd
