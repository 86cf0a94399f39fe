import Verif.Sd.DecTlvs
import Verif.Asn.StrSafe
/-
The decoder does not look at what follows the element that it decodes.
-/
namespace Verif.Sd
open Verif.Res (Byte be)
open Verif.Cms (berFetchLength isConstructed)
open Verif.Asn

/-- The same first bytes; there are so many in both. -/
structure Same (n : Nat) (s s' : List Byte) : Prop where
  left : n ≤ s.length
  right : n ≤ s'.length
  eq : s.take n = s'.take n

theorem Same.le {n k : Nat} {s s' : List Byte} (h : Same n s s') (hk : k ≤ n) : Same k s s' := by
  refine ⟨by have := h.left; omega, by have := h.right; omega, ?_⟩
  have := congrArg (List.take k) h.eq
  rwa [List.take_take, List.take_take, Nat.min_eq_left hk] at this

theorem Same.drop {n k : Nat} {s s' : List Byte} (h : Same (k + n) s s') : Same n (s.drop k) (s'.drop k) := by
  refine ⟨by have := h.left; rw [List.length_drop]; omega, by have := h.right; rw [List.length_drop]; omega, ?_⟩
  have := congrArg (List.drop k) h.eq
  rwa [List.drop_take, List.drop_take, show k + n - k = n by omega] at this

theorem Same.take {n L : Nat} {s s' : List Byte} (h : Same n s s') (hL : n ≤ L) : Same n (s.take L) (s'.take L) := by
  refine ⟨by have := h.left; rw [List.length_take]; omega, by have := h.right; rw [List.length_take]; omega, ?_⟩
  rw [List.take_take, List.take_take, Nat.min_eq_left hL]
  exact h.eq

theorem Same.view {n : Nat} {s s' : List Byte} {left : Left} (h : Same n s s') (hL : n ≤ (view left s).length) : Same n (view left s) (view left s') := by
  cases left with
  | defn L => exact h.take (by simp only [Asn.view, List.length_take] at hL; omega)
  | indef k => exact h

theorem Same.of_append (x t : List Byte) (s : List Byte) (hx : x <+: s) : Same x.length s (x ++ t) := by
  obtain ⟨r, rfl⟩ := hx
  exact ⟨by simp, by simp, by simp⟩

theorem fetchTag_same {s s' : List Byte} {tag k : Nat} (h : fetchTag s = .ok tag k) (hs : Same k s s') :
    fetchTag s' = .ok tag k ∧ isConstructed s' = isConstructed s := by
  obtain ⟨-, -, h3⟩ := fetchTag_sound h
  rw [hs.eq] at h3
  have := fetchTag_complete h3 (s'.drop k)
  rwa [List.take_append_drop, List.length_take, Nat.min_eq_left hs.right] at this

theorem fetchLen_same {c : Bool} {s s' : List Byte} {ll v : Nat} (h : berFetchLength c s = .defn ll v) (hs : Same ll s s') :
    berFetchLength c s' = .defn ll v := by
  obtain ⟨-, -, h3, h4⟩ := fetchLen_sound h
  rw [hs.eq] at h4
  have := fetchLen_complete h4 h3 (s'.drop ll)
  rwa [List.take_append_drop, List.length_take, Nat.min_eq_left hs.right] at this

theorem fetchLen_indef_same {c : Bool} {s s' : List Byte} (h : berFetchLength c s = .indef) (hs : Same 1 s s') : berFetchLength c s' = .indef := by
  obtain ⟨rfl, -, h3⟩ := fetchLen_indef h
  rw [hs.eq] at h3
  have := List.take_append_drop 1 s'
  rw [h3] at this
  rw [← this]
  exact Cms.fetch_indef _

/-! ### Tags -/

theorem tagsLoop_bound {lf : Option Bool} {ch : List (Option Tag)} {s : List Byte} {limit : Option Nat} {eocs consumed : Nat} {form : Bool}
    {len : Nat} {tl : Tl} {n : Nat} (h : tagsLoop lf ch s limit eocs consumed form len = .ok tl n) : consumed ≤ n ∧ n - consumed ≤ s.length := by
  by_cases hc : ch = []
  · subst hc
    unfold tagsLoop at h
    simp only [R.ok.injEq] at h
    omega
  · obtain ⟨k, h1, -, h3, -⟩ := tagsLoop_tlvs lf _ _ _ _ _ _ _ _ _ hc h
    omega

theorem tagsLoop_same (lf : Option Bool) : ∀ (ch : List (Option Tag)) (s s' : List Byte) (limit : Option Nat) (eocs consumed : Nat) (form : Bool)
    (len : Nat) (tl : Tl) (n : Nat), tagsLoop lf ch s limit eocs consumed form len = .ok tl n → Same (n - consumed) s s' →
    tagsLoop lf ch s' limit eocs consumed form len = .ok tl n ∧ (ch ≠ [] → ∃ tag k, fetchTag s = .ok tag k ∧ consumed + k ≤ n) := by
  intro ch
  induction ch with
  | nil => intro s s' _ _ _ _ _ _ _ h _; exact ⟨h, fun h => absurd rfl h⟩
  | cons t rest ih =>
    intro s s' limit eocs consumed form len tl n h hs
    unfold tagsLoop at h ⊢
    cases hf : fetchTag s with
    | more => rw [hf] at h; cases h
    | bad => rw [hf] at h; cases h
    | ok tag k =>
      rw [hf] at h
      simp only at h
      by_cases h1 : t ≠ none ∧ t ≠ some tag
      · rw [if_pos h1] at h; cases h
      · rw [if_neg h1] at h
        by_cases h2 : rest ≠ [] ∧ isConstructed s = false
        · rw [if_pos h2] at h; cases h
        · rw [if_neg h2] at h
          by_cases h3 : rest = [] ∧ lf ≠ none ∧ lf ≠ some (isConstructed s)
          · rw [if_pos h3] at h; cases h
          · rw [if_neg h3] at h
            cases hl : berFetchLength (isConstructed s) (s.drop k) with
            | more => rw [hl] at h; cases h
            | bad => rw [hl] at h; cases h
            | indef =>
              rw [hl] at h
              simp only at h
              by_cases h4 : limit ≠ none
              · rw [if_pos h4] at h; cases h
              · rw [if_neg h4] at h
                obtain ⟨b1, b2⟩ := tagsLoop_bound h
                obtain ⟨f1, f2⟩ := fetchTag_same hf (hs.le (by omega))
                have hl' := fetchLen_indef_same hl (hs.le (k := k + 1) (by omega)).drop
                have hi := (ih _ (s'.drop (k + 1)) _ _ _ _ _ _ _ h
                  (Same.drop (k := k + 1) (by rw [show k + 1 + (n - (consumed + (k + 1))) = n - consumed by omega]; exact hs))).1
                refine ⟨?_, fun _ => ⟨tag, k, rfl, by omega⟩⟩
                rw [f1]
                simp only
                rw [if_neg h1, f2, if_neg h2, if_neg h3, hl']
                simp only
                rw [if_neg h4]
                exact hi
            | defn ll v =>
              rw [hl] at h
              simp only at h
              by_cases h4 : eocs ≠ 0
              · rw [if_pos h4] at h; cases h
              · rw [if_neg h4] at h
                by_cases h5 : limit ≠ none ∧ limit ≠ some (v + k + ll)
                · rw [if_pos h5] at h; cases h
                · rw [if_neg h5] at h
                  obtain ⟨b1, b2⟩ := tagsLoop_bound h
                  rw [List.length_take] at b2
                  obtain ⟨f1, f2⟩ := fetchTag_same hf (hs.le (by omega))
                  have hl' := fetchLen_same hl (hs.le (k := k + ll) (by omega)).drop
                  have hi := (ih _ ((s'.drop (k + ll)).take v) _ _ _ _ _ _ _ h
                    (Same.take (Same.drop (k := k + ll) (by rw [show k + ll + (n - (consumed + (k + ll))) = n - consumed by omega]; exact hs)) (by omega))).1
                  refine ⟨?_, fun _ => ⟨tag, k, rfl, by omega⟩⟩
                  rw [f1]
                  simp only
                  rw [if_neg h1, f2, if_neg h2, if_neg h3, hl']
                  simp only
                  rw [if_neg h4, if_neg h5]
                  exact hi

theorem checkTags_same {tags : List Tag} {m : Mode} {lf : Option Bool} {s s' : List Byte} {tl : Tl} {n : Nat}
    (h : checkTags tags m lf s = .ok tl n) (hs : Same n s s') : checkTags tags m lf s' = .ok tl n := by
  by_cases hne : tags = [] ∧ m = .none
  · obtain ⟨rfl, rfl⟩ := hne
    rw [checkTags_any] at h ⊢
    unfold anyTags at h ⊢
    cases hf : fetchTag s with
    | more => rw [hf] at h; cases h
    | bad => rw [hf] at h; cases h
    | ok tag k =>
      rw [hf] at h
      simp only at h
      cases hl : berFetchLength (isConstructed s) (s.drop k) with
      | more => rw [hl] at h; cases h
      | bad => rw [hl] at h; cases h
      | indef =>
        rw [hl] at h
        cases h
        obtain ⟨f1, f2⟩ := fetchTag_same hf (hs.le (by omega))
        rw [f1]
        simp only
        rw [f2, fetchLen_indef_same hl hs.drop]
      | defn ll v =>
        rw [hl] at h
        cases h
        obtain ⟨f1, f2⟩ := fetchTag_same hf (hs.le (by omega))
        rw [f1]
        simp only
        rw [f2, fetchLen_same hl hs.drop]
  · cases tags with
    | nil =>
      cases m with
      | none => exact absurd ⟨rfl, rfl⟩ hne
      | implicit => cases h
      | explicit => exact (tagsLoop_same _ _ _ _ _ _ _ _ _ _ _ h (by simpa using hs)).1
    | cons a l => cases m <;> exact (tagsLoop_same _ _ _ _ _ _ _ _ _ _ _ h (by simpa using hs)).1

/-- The first tag is part of the header. -/
theorem checkTags_tag {tags : List Tag} {m : Mode} {lf : Option Bool} {s : List Byte} {tl : Tl} {n : Nat}
    (h : checkTags tags m lf s = .ok tl n) : 2 ≤ n ∧ n ≤ s.length ∧ ∃ tag k, fetchTag s = .ok tag k ∧ k ≤ n := by
  by_cases hne : tags = [] ∧ m = .none
  · obtain ⟨rfl, rfl⟩ := hne
    rw [checkTags_any] at h
    obtain ⟨a1, a2, -⟩ := anyTags_sound h
    refine ⟨a1, a2, ?_⟩
    unfold anyTags at h
    cases hf : fetchTag s with
    | more => rw [hf] at h; cases h
    | bad => rw [hf] at h; cases h
    | ok tag k =>
      rw [hf] at h
      simp only at h
      refine ⟨tag, k, rfl, ?_⟩
      cases hl : berFetchLength (isConstructed s) (s.drop k) with
      | more => rw [hl] at h; cases h
      | bad => rw [hl] at h; cases h
      | indef => rw [hl] at h; simp only [R.ok.injEq] at h; omega
      | defn ll v => rw [hl] at h; simp only [R.ok.injEq] at h; omega
  · obtain ⟨a1, a2, -⟩ := checkTags_tlvs hne h
    refine ⟨a1, a2, ?_⟩
    have hs : Same (n - 0) s s := ⟨a2, a2, rfl⟩
    have key : ∀ {ch : List (Option Tag)}, ch ≠ [] → tagsLoop lf ch s none 0 0 false 0 = .ok tl n → ∃ tag k, fetchTag s = .ok tag k ∧ k ≤ n := by
      intro ch hch h
      obtain ⟨tag, k, e1, e2⟩ := (tagsLoop_same _ _ _ _ _ _ _ _ _ _ _ h hs).2 hch
      exact ⟨tag, k, e1, by omega⟩
    cases tags with
    | nil =>
      cases m with
      | none => exact absurd ⟨rfl, rfl⟩ hne
      | implicit => cases h
      | explicit => exact key (by simp [chain]) h
    | cons a l => cases m <;> exact key (by simp [chain]) h

/-! ### Ends of contents -/

theorem zeros_split {k n : Nat} {s : List Byte} (h : n ≤ s.length ∧ s.take n = List.replicate (2 * k) 0) :
    n = 2 * k ∧ s = List.replicate (2 * k) 0 ++ s.drop n := by
  obtain ⟨h1, h2⟩ := h
  have := congrArg List.length h2
  rw [List.length_take, List.length_replicate, Nat.min_eq_left h1] at this
  exact ⟨this, by rw [← h2, List.take_append_drop]⟩

theorem seqEocs_zeros (t : List Byte) : ∀ k, seqEocs k (List.replicate (2 * k) 0 ++ t) = .ok () (2 * k) := by
  intro k
  induction k with
  | zero => rfl
  | succ k ih =>
    rw [show 2 * (k + 1) = 2 * k + 1 + 1 by omega, List.replicate_succ, List.replicate_succ]
    simp only [List.cons_append]
    unfold seqEocs
    rw [fetchTag_cons, if_pos (by decide)]
    simp only [and_self, if_true, ih, R.andThen]

theorem setEocs_zeros (t : List Byte) : ∀ k, setEocs k (List.replicate (2 * k) 0 ++ t) = .ok () (2 * k) := by
  intro k
  induction k with
  | zero => simp [setEocs]
  | succ k ih =>
    rw [show 2 * (k + 1) = 2 * k + 1 + 1 by omega, List.replicate_succ, List.replicate_succ]
    simp only [List.cons_append]
    unfold setEocs
    simp only [and_self, if_true, ih, R.andThen]

theorem choiceEocs_zeros (t : List Byte) : ∀ k, choiceEocs k (List.replicate (2 * k) 0 ++ t) = .ok () (2 * k) := by
  intro k
  induction k with
  | zero => rfl
  | succ k ih =>
    rw [show 2 * (k + 1) = 2 * k + 1 + 1 by omega, List.replicate_succ, List.replicate_succ]
    simp only [List.cons_append]
    unfold choiceEocs
    rw [fetchTag_cons, if_pos (by decide)]
    simp only [if_true, ih, R.andThen]

theorem seqEocs_same {k n : Nat} {s s' : List Byte} (h : seqEocs k s = .ok () n) (hs : Same n s s') : seqEocs k s' = .ok () n := by
  have h0 := seqEocs_sound _ _ _ h
  rw [hs.eq] at h0
  obtain ⟨rfl, e⟩ := zeros_split ⟨hs.right, h0.2⟩
  rw [e]; exact seqEocs_zeros _ _

theorem setEocs_same {k n : Nat} {s s' : List Byte} (h : setEocs k s = .ok () n) (hs : Same n s s') : setEocs k s' = .ok () n := by
  have h0 := setEocs_sound _ _ _ h
  rw [hs.eq] at h0
  obtain ⟨rfl, e⟩ := zeros_split ⟨hs.right, h0.2⟩
  rw [e]; exact setEocs_zeros _ _

theorem choiceEocs_same {k n : Nat} {s s' : List Byte} (h : choiceEocs k s = .ok () n) (hs : Same n s s') : choiceEocs k s' = .ok () n := by
  have h0 := choiceEocs_sound _ _ _ h
  rw [hs.eq] at h0
  obtain ⟨rfl, e⟩ := zeros_split ⟨hs.right, h0.2⟩
  rw [e]; exact choiceEocs_zeros _ _

theorem seqEnd_same {left : Left} {n : Nat} {s s' : List Byte} (h : seqEnd left s = .ok () n) (hs : Same n s s') : seqEnd left s' = .ok () n := by
  cases left with
  | indef k => exact seqEocs_same h hs
  | defn L =>
    cases L with
    | zero => exact h
    | succ L =>
      simp only [seqEnd] at h
      cases hf : fetchTag (s.take (L + 1)) with
      | more => rw [hf] at h; simp only at h; split at h <;> cases h
      | bad => rw [hf] at h; cases h
      | ok t k => rw [hf] at h; cases h

theorem choiceEnd_same {u : Bool} {left : Left} {n : Nat} {s s' : List Byte} (h : choiceEnd u left s = .ok () n) (hs : Same n s s') : choiceEnd u left s' = .ok () n := by
  cases left with
  | defn L => exact h
  | indef k =>
    simp only [choiceEnd] at h ⊢
    by_cases hk : k = 1 ∧ u = true
    · rw [if_pos hk] at h ⊢; exact h
    · rw [if_neg hk] at h ⊢; exact choiceEocs_same h hs

theorem eocAt_same {left : Left} {s s' : List Byte} (hs : Same 2 s s') : eocAt left s' = eocAt left s := by
  obtain ⟨h1, h2, h3⟩ := hs
  match s, s', h1, h2, h3 with
  | a :: b :: s, a' :: b' :: s', _, _, h3 =>
    simp only [List.take_succ_cons, List.take_zero, List.cons.injEq, and_true] at h3
    obtain ⟨rfl, rfl⟩ := h3
    cases left <;> rfl
  | [], _, h1, _, _ => simp at h1
  | [a], _, h1, _, _ => simp at h1
  | _ :: _ :: _, [], _, h2, _ => simp at h2
  | _ :: _ :: _, [a], _, h2, _ => simp at h2

/-! ### Strings -/

theorem Same.getTake {n k : Nat} {s s' : List Byte} (h : Same n s s') (hk : k ≤ n) : s'.take k = s.take k := (h.le hk).eq.symm

theorem Same.dropTake {n k v : Nat} {s s' : List Byte} (h : Same n s s') (hk : k + v ≤ n) : (s'.drop k).take v = (s.drop k).take v :=
  ((h.le hk).drop).eq.symm

theorem Same.room {n : Nat} {s s' : List Byte} {o : Option Nat} (h : Same n s s') (hL : n ≤ (room o s).length) : Same n (Asn.room o s) (Asn.room o s') := by
  cases o with
  | some L => exact h.take (by simp only [Asn.room, List.length_take] at hL; omega)
  | none => exact h

end Verif.Sd
