import Verif.Sd.Same
/-
No element is the beginning of another one.
-/
namespace Verif.Sd
open Verif.Res (Byte be)
open Verif.Cms (berFetchLength isConstructed)
open Verif.Asn

theorem isTag_prefix {tag tag' : Nat} {c c' : Bool} {t t' r r' : List Byte} (h : IsTag tag c t) (h' : IsTag tag' c' t') (he : t ++ r = t' ++ r') :
    t = t' ∧ r = r' ∧ tag = tag' ∧ c = c' := by
  obtain ⟨a1, a2⟩ := fetchTag_complete h r
  obtain ⟨b1, b2⟩ := fetchTag_complete h' r'
  rw [he, b1] at a1
  rw [he, b2] at a2
  simp only [TagR.ok.injEq] at a1
  obtain ⟨e1, e2⟩ := List.append_inj he a1.2.symm
  exact ⟨e1, e2, a1.1.symm, a2.symm⟩

theorem isLen_prefix {n n' : Nat} {c c' : Bool} {l l' r r' : List Byte} (h : IsLen n c l) (h' : IsLen n' c' l') (he : l ++ r = l' ++ r') :
    l = l' ∧ r = r' ∧ n = n' := by
  rcases h with ⟨b, rfl, h1, h2⟩ | ⟨k, bs, rfl, h1, h2, h3, -⟩ <;> rcases h' with ⟨b', rfl, h1', h2'⟩ | ⟨k', bs', rfl, h1', h2', h3', -⟩
  · simp only [List.cons_append, List.nil_append, List.cons.injEq] at he
    obtain ⟨rfl, rfl⟩ := he
    exact ⟨rfl, rfl, by omega⟩
  · simp only [List.cons_append, List.nil_append, List.cons.injEq] at he
    obtain ⟨rfl, -⟩ := he
    omega
  · simp only [List.cons_append, List.nil_append, List.cons.injEq] at he
    obtain ⟨rfl, -⟩ := he
    omega
  · simp only [List.cons_append, List.cons.injEq] at he
    obtain ⟨rfl, he⟩ := he
    obtain ⟨rfl, rfl⟩ := List.append_inj he (by omega)
    exact ⟨rfl, rfl, by omega⟩

theorem isLen_not_indef {n : Nat} {l r r' : List Byte} (h : IsLen n true l) (he : l ++ r = (0x80 : Byte) :: r') : False := by
  rcases h with ⟨b, rfl, h1, h2⟩ | ⟨k, bs, rfl, h1, h2, h3, h4⟩
  · simp only [List.cons_append, List.nil_append, List.cons.injEq] at he
    obtain ⟨rfl, -⟩ := he
    simp at h1
    omega
  · simp only [List.cons_append, List.cons.injEq] at he
    obtain ⟨rfl, -⟩ := he
    have : bs.length = 0 := by simpa using h1
    exact h4 rfl (List.length_eq_zero_iff.1 this)

theorem tlvs_prefix {k : Cms.Kind} {x : List Byte} (h : Tlvs k x) : ∀ y r r', Tlvs k y →
    (match k with
     | .one => x ++ r = y ++ r'
     | .seq => x ++ (0 :: 0 :: r) = y ++ (0 :: 0 :: r')) → x = y := by
  induction h with
  | @defn tag c t l v h1 h2 =>
    intro y r r' hy he
    simp only at he
    cases hy with
    | @defn tag' c' t' l' v' h1' h2' =>
      simp only [List.append_assoc] at he
      obtain ⟨rfl, he, -, rfl⟩ := isTag_prefix h1 h1' he
      obtain ⟨rfl, he, hn⟩ := isLen_prefix h2 h2' he
      obtain ⟨rfl, -⟩ := List.append_inj he hn
      rfl
    | @indef tag' t' x' h1' h2' =>
      simp only [List.append_assoc] at he
      obtain ⟨rfl, he, -, rfl⟩ := isTag_prefix h1 h1' he
      exact (isLen_not_indef h2 he).elim
  | @indef tag t x h1 h2 ih =>
    intro y r r' hy he
    simp only at he
    cases hy with
    | @defn tag' c' t' l' v' h1' h2' =>
      simp only [List.append_assoc] at he
      obtain ⟨rfl, he, -, rfl⟩ := isTag_prefix h1 h1' he
      exact (isLen_not_indef h2' he.symm).elim
    | @indef tag' t' x' h1' h2' =>
      simp only [List.append_assoc] at he
      obtain ⟨rfl, he, -, -⟩ := isTag_prefix h1 h1' he
      simp only [List.cons_append, List.nil_append, List.cons.injEq, true_and] at he
      rw [ih x' r r' h2' he]
  | nil =>
    intro y r r' hy he
    simp only [List.nil_append] at he
    cases hy with
    | nil => rfl
    | @cons e x h1 hz h2 =>
      refine absurd ?_ hz
      have := tlvs_len h1
      match e, this with
      | a :: b :: e, _ =>
        simp only [List.cons_append, List.cons.injEq] at he
        obtain ⟨rfl, rfl, -⟩ := he
        rfl
  | @cons e x h1 hz h2 ih1 ih2 =>
    intro y r r' hy he
    simp only at he
    cases hy with
    | nil =>
      refine absurd ?_ hz
      have := tlvs_len h1
      match e, this with
      | a :: b :: e, _ =>
        simp only [List.cons_append, List.nil_append, List.cons.injEq] at he
        obtain ⟨rfl, rfl, -⟩ := he
        rfl
    | @cons e' x' h1' hz' h2' =>
      simp only [List.append_assoc] at he
      have := ih1 e' _ _ h1' he
      subst this
      rw [ih2 x' r r' h2' (List.append_cancel_left he)]

theorem one_prefix {x y r r' : List Byte} (h : Tlvs .one x) (h' : Tlvs .one y) (he : x ++ r = y ++ r') : x = y :=
  tlvs_prefix h y r r' h' he

theorem hdrT_le {left : Left} {s : List Byte} {h n : Nat} (hh : HdrT left (s.take h)) (hs : h ≤ s.length) (hn : n ≤ s.length) (ht : Tlvs .one (s.take n)) : h ≤ n := by
  by_contra hlt
  have key : ∀ c, Tlvs .one (s.take h ++ c) → False := by
    intro c hc
    have e : s.take h ++ c = s.take n ++ ((s.drop n).take (h - n) ++ c) := by
      rw [← List.append_assoc, ← List.take_add, show n + (h - n) = h by omega]
    have := one_prefix hc ht (r := []) (by rw [List.append_nil]; exact e)
    have := congrArg List.length this
    simp only [List.length_append, List.length_take] at this
    omega
  cases left with
  | defn L => exact key _ (hh (List.replicate L 0) (by simp))
  | indef k => exact key _ (by have := hh [] .nil; rw [List.append_assoc] at this; exact this)

theorem anyTags_hdrT {s : List Byte} {tl : Tl} {n : Nat} (h : anyTags s = .ok tl n) : HdrT tl.left (s.take n) := by
  unfold anyTags at h
  cases hf : fetchTag s with
  | more => rw [hf] at h; cases h
  | bad => rw [hf] at h; cases h
  | ok tag k =>
    rw [hf] at h
    simp only at h
    obtain ⟨f1, f2, f3⟩ := fetchTag_sound hf
    cases hl : berFetchLength (isConstructed s) (s.drop k) with
    | more => rw [hl] at h; cases h
    | bad => rw [hl] at h; cases h
    | indef =>
      rw [hl] at h
      cases h
      obtain ⟨e1, e2, e3⟩ := fetchLen_indef hl
      intro c hc
      rw [List.take_add, e3]
      rw [e1] at f3
      exact .indef f3 hc
    | defn ll v =>
      rw [hl] at h
      cases h
      obtain ⟨e1, e2, e3, e4⟩ := fetchLen_sound hl
      intro c hc
      rw [List.take_add]
      subst hc
      exact .defn f3 e4

theorem checkTags_hdrT {tags : List Tag} {m : Mode} {lf : Option Bool} {s : List Byte} {tl : Tl} {n : Nat}
    (h : checkTags tags m lf s = .ok tl n) : HdrT tl.left (s.take n) := by
  by_cases hne : tags = [] ∧ m = .none
  · obtain ⟨rfl, rfl⟩ := hne
    rw [checkTags_any] at h
    exact anyTags_hdrT h
  · exact (checkTags_tlvs hne h).2.2

end Verif.Sd
