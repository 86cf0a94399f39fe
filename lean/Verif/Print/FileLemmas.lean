import Verif.Print.SpecFile
import Verif.Cms.BerLemmas
import Mathlib.Tactic.Ring
/-
Lemmas about the header and the decoder.
-/
namespace Verif.Print
open Verif.Res (Byte be)
open Verif.Cms

/-! ### Lengths that were fetched are lengths -/

theorem lenLoop_inv : ∀ (n : Nat) (s : List Byte) (acc sk ll v : Nat), lenLoop n s acc sk = .defn ll v →
    ∃ bs rest, s = bs ++ rest ∧ bs.length = n ∧ ll = sk + n ∧ v = acc * 256 ^ n + be bs ∧ v ≤ 2 ^ 62 - 1 := by
  intro n
  induction n with
  | zero =>
    intro s acc sk ll v h
    unfold lenLoop at h
    by_cases hg : acc > 2 ^ 62 - 1
    · rw [if_pos hg] at h; cases h
    · rw [if_neg hg] at h
      cases h
      exact ⟨[], s, rfl, rfl, by omega, by simp [be], by omega⟩
  | succ n ih =>
    intro s acc sk ll v h
    cases s with
    | nil => unfold lenLoop at h; cases h
    | cons b s =>
      unfold lenLoop at h
      by_cases hg : acc >>> 55 ≠ 0
      · rw [if_pos hg] at h; cases h
      · rw [if_neg hg] at h
        obtain ⟨bs, rest, rfl, rfl, rfl, rfl, hv⟩ := ih _ _ _ _ _ h
        refine ⟨b :: bs, rest, rfl, rfl, by omega, ?_, hv⟩
        simp only [be, Nat.pow_succ]; ring

theorem fetch_inv {c : Bool} {s : List Byte} {ll v : Nat} (h : berFetchLength c s = .defn ll v) :
    ∃ l rest, s = l ++ rest ∧ l.length = ll ∧ v ≤ 2 ^ 62 - 1 ∧ (IsLen v l ∨ c = false ∧ l = [0x80] ∧ v = 0) := by
  cases s with
  | nil => unfold berFetchLength at h; cases h
  | cons o s =>
    rw [fetch_cons] at h
    by_cases h1 : o &&& 0x80 = 0
    · rw [if_pos h1] at h
      cases h
      have := (byte_top o).1 h1
      exact ⟨[o], s, rfl, rfl, by omega, .inl (.inl ⟨o, rfl, rfl, this⟩)⟩
    · rw [if_neg h1] at h
      have hge := (byte_top' o).1 h1
      by_cases h2 : c = true ∧ o = 0x80
      · rw [if_pos h2] at h; cases h
      · rw [if_neg h2] at h
        by_cases h3 : o = 0xff
        · rw [if_pos h3] at h; cases h
        · rw [if_neg h3] at h
          obtain ⟨bs, rest, rfl, hn, rfl, hv, hle⟩ := lenLoop_inv _ _ _ _ _ _ h
          rw [byte_low7] at hn
          have hlt := o.isLt
          refine ⟨o :: bs, rest, rfl, ?_, hle, ?_⟩
          · simp only [List.length_cons, byte_low7]; omega
          · by_cases hb : bs = []
            · subst hb
              simp only [List.length_nil] at hn
              have ho : o = 0x80 := BitVec.eq_of_toNat_eq (by show o.toNat = 128; omega)
              refine .inr ⟨?_, by rw [ho], by rw [hv]; simp [be]⟩
              cases c with
              | true => exact absurd ⟨rfl, ho⟩ h2
              | false => rfl
            · exact .inl (.inr ⟨o, bs, rfl, by omega, hb, h3, by rw [hv]; omega⟩)

theorem fetch_indef_inv {c : Bool} {s : List Byte} (h : berFetchLength c s = .indef) : c = true ∧ ∃ rest, s = 0x80 :: rest := by
  cases s with
  | nil => unfold berFetchLength at h; cases h
  | cons o s =>
    rw [fetch_cons] at h
    by_cases h1 : o &&& 0x80 = 0
    · rw [if_pos h1] at h; cases h
    · rw [if_neg h1] at h
      by_cases h2 : c = true ∧ o = 0x80
      · exact ⟨h2.1, s, by rw [h2.2]⟩
      · rw [if_neg h2] at h
        by_cases h3 : o = 0xff
        · rw [if_pos h3] at h; cases h
        · rw [if_neg h3] at h
          exfalso
          have : ∀ (n : Nat) (s : List Byte) (acc sk : Nat), lenLoop n s acc sk ≠ .indef := by
            intro n
            induction n with
            | zero => intro s acc sk; unfold lenLoop; split <;> exact fun h => by cases h
            | succ n ih =>
              intro s acc sk
              cases s with
              | nil => unfold lenLoop; exact fun h => by cases h
              | cons b s =>
                unfold lenLoop
                split
                · exact fun h => by cases h
                · exact ih _ _ _
          exact this _ _ _ _ h

/-! ### Fetching more bytes doesn't change what was fetched -/

theorem lenLoop_append : ∀ (n : Nat) (s r : List Byte) (acc sk : Nat), lenLoop n s acc sk ≠ .more →
    lenLoop n (s ++ r) acc sk = lenLoop n s acc sk := by
  intro n
  induction n with
  | zero => intro s r acc sk _; unfold lenLoop; rfl
  | succ n ih =>
    intro s r acc sk h
    cases s with
    | nil => exact absurd (by unfold lenLoop; rfl) h
    | cons b s =>
      rw [List.cons_append]
      unfold lenLoop at h ⊢
      by_cases hg : acc >>> 55 ≠ 0
      · rw [if_pos hg, if_pos hg]
      · rw [if_neg hg] at h
        rw [if_neg hg, if_neg hg, ih _ _ _ _ h]

theorem fetch_append (c : Bool) (s r : List Byte) (h : berFetchLength c s ≠ .more) : berFetchLength c (s ++ r) = berFetchLength c s := by
  cases s with
  | nil => exact absurd (by unfold berFetchLength; rfl) h
  | cons o s =>
    rw [fetch_cons] at h
    rw [List.cons_append, fetch_cons, fetch_cons]
    by_cases h1 : o &&& 0x80 = 0
    · rw [if_pos h1, if_pos h1]
    · rw [if_neg h1] at h
      rw [if_neg h1, if_neg h1]
      by_cases h2 : c = true ∧ o = 0x80
      · rw [if_pos h2, if_pos h2]
      · rw [if_neg h2] at h
        rw [if_neg h2, if_neg h2]
        by_cases h3 : o = 0xff
        · rw [if_pos h3, if_pos h3]
        · rw [if_neg h3] at h
          rw [if_neg h3, if_neg h3, lenLoop_append _ _ _ _ _ h]

theorem tagLoop_append : ∀ (s r : List Byte) (val sk : Nat), tagLoop s val sk ≠ .more → tagLoop (s ++ r) val sk = tagLoop s val sk := by
  intro s
  induction s with
  | nil => intro r val sk h; exact absurd (by unfold tagLoop; rfl) h
  | cons o s ih =>
    intro r val sk h
    rw [List.cons_append]
    unfold tagLoop at h ⊢
    by_cases h1 : o &&& 0x80 ≠ 0
    · rw [if_pos h1] at h
      rw [if_pos h1, if_pos h1]
      dsimp only at h ⊢
      by_cases h2 : ((val * 128 + (o &&& 0x7F).toNat) % 2 ^ 32) >>> 23 ≠ 0
      · rw [if_pos h2, if_pos h2]
      · rw [if_neg h2] at h
        rw [if_neg h2, if_neg h2, ih _ _ _ h]
    · rw [if_neg h1, if_neg h1]

theorem fetchTag_append (s r : List Byte) (h : berFetchTag s ≠ .more) : berFetchTag (s ++ r) = berFetchTag s := by
  cases s with
  | nil => exact absurd (by unfold berFetchTag; rfl) h
  | cons o s =>
    rw [fetchTag_cons] at h
    rw [List.cons_append, fetchTag_cons, fetchTag_cons]
    by_cases h1 : o &&& 0x1F ≠ 0x1F
    · rw [if_pos h1, if_pos h1]
    · rw [if_neg h1] at h
      rw [if_neg h1, if_neg h1, tagLoop_append _ _ _ _ h]

/-! ### The header -/

theorem drop_header (a b : List Byte) (n : Nat) (h : n = a.length) : (a ++ b).drop n = b := by
  subst h; exact List.drop_left

theorem get_header (a b : List Byte) (x : Byte) (n : Nat) (h : n = a.length) : (a ++ x :: b)[n]? = some x := by
  subst h; simp

theorem isLen_any {n : Nat} {l : List Byte} (h : IsLen n l) (hn : n < 2 ^ 62) : AnyLen l := .inl ⟨n, hn, h⟩

theorem skipSequence_spec (a l b : List Byte) (pos : Nat) (hp : pos = a.length) (hl : AnyLen l) (hle : a.length + l.length ≤ 32) :
    skipSequence (a ++ (l ++ b)) pos = .at (pos + l.length) := by
  subst hp
  unfold skipSequence
  rw [if_neg (by omega), List.drop_left]
  rcases hl with ⟨n, hn, hl⟩ | rfl
  · rw [fetch_isLen hl (by omega)]
    dsimp only
    rw [if_pos hle]
  · rw [List.singleton_append, fetch_indef]
    dsimp only
    simp only [List.length_singleton] at hle ⊢
    rw [if_pos hle]

theorem skipInteger_spec (a l v b : List Byte) (pos : Nat) (hp : pos = a.length) (hl : IsLen v.length l)
    (hle : a.length + (l.length + v.length) ≤ 32) :
    skipInteger (a ++ (l ++ b)) pos = .at (pos + (l.length + v.length)) := by
  subst hp
  unfold skipInteger
  rw [if_neg (by omega), List.drop_left, fetch_isLen hl (by omega)]
  dsimp only
  rw [if_pos hle]

theorem skipSequence_at {hdr : List Byte} {pos q : Nat} (h : skipSequence hdr pos = .at q) :
    pos ≤ 32 ∧ q ≤ 32 ∧ ∃ l rest, hdr.drop pos = l ++ rest ∧ AnyLen l ∧ q = pos + l.length := by
  unfold skipSequence at h
  by_cases h1 : pos > 32
  · rw [if_pos h1] at h; cases h
  rw [if_neg h1] at h
  cases hf : berFetchLength true (hdr.drop pos) with
  | more => rw [hf] at h; cases h
  | bad => rw [hf] at h; cases h
  | defn ll v =>
    rw [hf] at h
    dsimp only at h
    by_cases h2 : pos + ll ≤ 32
    · rw [if_pos h2] at h
      cases h
      obtain ⟨l, rest, e, rfl, hv, h3⟩ := fetch_inv hf
      rcases h3 with h3 | ⟨h3, _⟩
      · exact ⟨by omega, h2, l, rest, e, .inl ⟨v, by omega, h3⟩, rfl⟩
      · cases h3
    · rw [if_neg h2] at h; cases h
  | indef =>
    rw [hf] at h
    dsimp only at h
    by_cases h2 : pos + 1 ≤ 32
    · rw [if_pos h2] at h
      cases h
      obtain ⟨_, rest, e⟩ := fetch_indef_inv hf
      exact ⟨by omega, h2, [0x80], rest, e, .inr rfl, rfl⟩
    · rw [if_neg h2] at h; cases h

theorem skipInteger_at {hdr : List Byte} {pos q : Nat} (h : skipInteger hdr pos = .at q) (hh : hdr.length = 32) :
    pos ≤ 32 ∧ q ≤ 32 ∧ ∃ l v rest, hdr.drop pos = l ++ (v ++ rest) ∧ (IsLen v.length l ∨ l = [0x80] ∧ v = []) ∧ q = pos + (l.length + v.length) := by
  unfold skipInteger at h
  by_cases h1 : pos > 32
  · rw [if_pos h1] at h; cases h
  rw [if_neg h1] at h
  cases hf : berFetchLength false (hdr.drop pos) with
  | more => rw [hf] at h; cases h
  | bad => rw [hf] at h; cases h
  | indef => rw [hf] at h; cases h
  | defn ll v =>
    rw [hf] at h
    dsimp only at h
    by_cases h2 : pos + (ll + v) ≤ 32
    · rw [if_pos h2] at h
      cases h
      obtain ⟨l, rest, e, rfl, hv, h3⟩ := fetch_inv hf
      have hlen := congrArg List.length e
      rw [List.length_drop, List.length_append, hh] at hlen
      have hv' : (rest.take v).length = v := by rw [List.length_take]; omega
      refine ⟨by omega, h2, l, rest.take v, rest.drop v, by rw [List.take_append_drop]; exact e, ?_, by rw [hv']⟩
      rcases h3 with h3 | ⟨_, h3, h4⟩
      · left; rw [hv']; exact h3
      · right; subst h4; exact ⟨h3, rfl⟩
    · rw [if_neg h2] at h; cases h

theorem next_byte {hdr l rest : List Byte} {pos q : Nat} {b : Byte} (e : hdr.drop pos = l ++ rest) (hq : q = pos + l.length) (h : hdr[q]? = some b) :
    ∃ rest', rest = b :: rest' ∧ hdr.drop (q + 1) = rest' := by
  subst hq
  have h1 : (hdr.drop pos)[l.length]? = some b := by rw [List.getElem?_drop]; exact h
  rw [e, List.getElem?_append_right (Nat.le_refl _), Nat.sub_self] at h1
  cases rest with
  | nil => cases h1
  | cons c r =>
    injection h1 with h1
    subst h1
    refine ⟨r, rfl, ?_⟩
    have h2 : (hdr.drop pos).drop (l.length + 1) = r := by
      rw [e, List.drop_append]
      simp
    rw [List.drop_drop] at h2
    exact h2

end Verif.Print
