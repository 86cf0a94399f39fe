import Verif.Conf.Spec
import Mathlib.Data.List.Induction
/-
Lemmas on strtoul(3).
-/
namespace Verif.Conf
open Verif.Res (Byte)
open Verif.Misc

theorem dropWhile_all {α} (p : α → Bool) (l r : List α) (h : ∀ a ∈ l, p a = true) : (l ++ r).dropWhile p = r.dropWhile p := by
  induction l with
  | nil => rfl
  | cons a l ih =>
    rw [List.cons_append, List.dropWhile_cons, h a (by simp)]
    exact ih (fun a ha => h a (by simp [ha]))

theorem takeWhile_all {α} (p : α → Bool) (l : List α) (h : ∀ a ∈ l, p a = true) : l.takeWhile p = l := by
  induction l with
  | nil => rfl
  | cons a l ih => rw [List.takeWhile_cons, h a (by simp)]; simp [ih (fun a ha => h a (by simp [ha]))]

theorem dropWhile_nil {α} (p : α → Bool) (l : List α) (h : l.dropWhile p = []) : ∀ a ∈ l, p a = true := by
  induction l with
  | nil => intro a ha; cases ha
  | cons a l ih =>
    rw [List.dropWhile_cons] at h
    by_cases hp : p a = true
    · rw [if_pos hp] at h
      intro b hb
      rcases List.mem_cons.1 hb with rfl | hb
      · exact hp
      · exact ih h b hb
    · rw [if_neg hp] at h; cases h

theorem digit_notSpace (b : Byte) (h : isDigit b = true) : isSpace b = false ∧ b ≠ 0x2D ∧ b ≠ 0x2B := by
  revert b; decide

theorem minus_notSpace : isSpace 0x2D#8 = false := by decide
theorem plus_notSpace : isSpace 0x2B#8 = false := by decide

/-- The text, as a sign and digits. -/
structure Parts (s : List Byte) where
  ws : List Byte
  sign : List Byte
  ds : List Byte
  eq : s = ws ++ sign ++ ds
  blank : ∀ b ∈ ws, isSpace b = true
  signOk : sign = [] ∨ sign = [0x2B#8] ∨ sign = [0x2D#8]
  ne : ds ≠ []
  digits : ∀ b ∈ ds, isDigit b = true

theorem strtoul_parts (s ws sign ds : List Byte) (eq : s = ws ++ sign ++ ds) (blank : ∀ b ∈ ws, isSpace b = true)
    (signOk : sign = [] ∨ sign = [0x2B#8] ∨ sign = [0x2D#8]) (ne : ds ≠ []) (digits : ∀ b ∈ ds, isDigit b = true) :
    strtoul s = if 2 ^ 64 ≤ decVal 0 ds then ⟨2 ^ 64 - 1, true, []⟩
      else ⟨if sign = [0x2D#8] then (2 ^ 64 - decVal 0 ds) % 2 ^ 64 else decVal 0 ds, false, []⟩ := by
  have hds : ds.takeWhile isDigit = ds := takeWhile_all _ _ digits
  have hdr : ds.dropWhile isDigit = [] := by
    have := dropWhile_all isDigit ds [] digits
    simpa using this
  obtain ⟨d, dr, rfl⟩ := List.exists_cons_of_ne_nil ne
  obtain ⟨k1, k2, k3⟩ := digit_notSpace d (digits d (by simp))
  rcases signOk with rfl | rfl | rfl
  · have h : s.dropWhile isSpace = d :: dr := by
      rw [eq, List.append_nil, dropWhile_all _ _ _ blank, List.dropWhile_cons, k1]; rfl
    simp only [strtoul, h]
    split
    · rename_i r heq; injection heq with h1 h2; exact absurd h1 k2
    · rename_i r heq; injection heq with h1 h2; exact absurd h1 k3
    · rename_i hx hy; simp [hds, hdr]
  · have h : s.dropWhile isSpace = 0x2B#8 :: d :: dr := by
      rw [eq, List.append_assoc, dropWhile_all _ _ _ blank, List.singleton_append, List.dropWhile_cons, plus_notSpace]; rfl
    simp only [strtoul, h]
    simp [hds, hdr]
  · have h : s.dropWhile isSpace = 0x2D#8 :: d :: dr := by
      rw [eq, List.append_assoc, dropWhile_all _ _ _ blank, List.singleton_append, List.dropWhile_cons, minus_notSpace]; rfl
    simp only [strtoul, h]
    simp [hds, hdr]

def signSplit (t : List Byte) : Bool × List Byte :=
  match t with
  | 0x2D :: r => (true, r)
  | 0x2B :: r => (false, r)
  | r => (false, r)

theorem strtoul_eq (s : List Byte) : strtoul s =
    if (signSplit (s.dropWhile isSpace)).2.takeWhile isDigit = [] then ⟨0, false, s⟩
    else if 2 ^ 64 ≤ decVal 0 ((signSplit (s.dropWhile isSpace)).2.takeWhile isDigit) then
      ⟨2 ^ 64 - 1, true, (signSplit (s.dropWhile isSpace)).2.dropWhile isDigit⟩
    else ⟨if (signSplit (s.dropWhile isSpace)).1 then (2 ^ 64 - decVal 0 ((signSplit (s.dropWhile isSpace)).2.takeWhile isDigit)) % 2 ^ 64
        else decVal 0 ((signSplit (s.dropWhile isSpace)).2.takeWhile isDigit), false, (signSplit (s.dropWhile isSpace)).2.dropWhile isDigit⟩ := rfl

theorem signSplit_spec (t : List Byte) : ∃ sign, (sign = [] ∨ sign = [0x2B#8] ∨ sign = [0x2D#8]) ∧ t = sign ++ (signSplit t).2 := by
  unfold signSplit
  split
  · exact ⟨[0x2D#8], by simp, rfl⟩
  · exact ⟨[0x2B#8], by simp, rfl⟩
  · exact ⟨[], by simp, rfl⟩

theorem strtoul_some (s : List Byte) (hs : s ≠ []) (h : (strtoul s).rest = []) : Nonempty (Parts s) := by
  have hsplit : s = s.takeWhile isSpace ++ s.dropWhile isSpace := (List.takeWhile_append_dropWhile).symm
  have hb : ∀ b ∈ s.takeWhile isSpace, isSpace b = true := by
    intro b hb
    exact List.all_eq_true.1 List.all_takeWhile b hb
  rw [strtoul_eq] at h
  obtain ⟨sign, h1, h2⟩ := signSplit_spec (s.dropWhile isSpace)
  generalize (signSplit (s.dropWhile isSpace)).1 = neg at h
  generalize (signSplit (s.dropWhile isSpace)).2 = t at h h2
  by_cases hne : t.takeWhile isDigit = []
  · rw [if_pos hne] at h
    exact absurd h hs
  · rw [if_neg hne] at h
    have hd : t.dropWhile isDigit = [] := by
      revert h; split <;> exact id
    have hall := dropWhile_nil _ _ hd
    refine ⟨⟨_, sign, t, ?_, hb, h1, ?_, hall⟩⟩
    · rw [List.append_assoc, ← h2]; exact hsplit
    · intro h0; rw [h0] at hne; exact hne rfl

theorem decVal_snoc (n : Nat) (s : List Byte) (b : Byte) : decVal n (s ++ [b]) = 10 * decVal n s + (b.toNat - 0x30) := by
  simp [decVal]

theorem isDigit_of (d : Nat) (h : d < 10) : isDigit (BitVec.ofNat 8 (48 + d)) = true ∧ (BitVec.ofNat 8 (48 + d)).toNat - 0x30 = d := by
  have : d = 0 ∨ d = 1 ∨ d = 2 ∨ d = 3 ∨ d = 4 ∨ d = 5 ∨ d = 6 ∨ d = 7 ∨ d = 8 ∨ d = 9 := by omega
  rcases this with rfl | rfl | rfl | rfl | rfl | rfl | rfl | rfl | rfl | rfl <;> decide

theorem digit_of (b : Byte) (h : isDigit b = true) : b.toNat - 0x30 < 10 ∧ b = BitVec.ofNat 8 (48 + (b.toNat - 0x30)) := by
  revert b; decide

theorem numeral_iff (s : List Byte) (n : Nat) : Numeral s n ↔ s ≠ [] ∧ (∀ b ∈ s, isDigit b = true) ∧ decVal 0 s = n := by
  constructor
  · intro h
    induction h with
    | one d h => obtain ⟨k1, k2⟩ := isDigit_of d h; refine ⟨by simp, by simpa using k1, ?_⟩; simp only [decVal, List.foldl_cons, List.foldl_nil]; omega
    | snoc s n d hs h ih =>
      obtain ⟨k1, k2⟩ := isDigit_of d h
      obtain ⟨i1, i2, i3⟩ := ih
      refine ⟨by simp, ?_, ?_⟩
      · intro b hb
        rcases List.mem_append.1 hb with hb | hb
        · exact i2 b hb
        · rw [List.mem_singleton.1 hb]; exact k1
      · rw [decVal_snoc, i3, k2]
  · rintro ⟨h1, h2, h3⟩
    induction s using List.reverseRecOn generalizing n with
    | nil => exact absurd rfl h1
    | append_singleton s b ih =>
      obtain ⟨k1, k2⟩ := digit_of b (h2 b (by simp))
      rw [decVal_snoc] at h3
      by_cases hs : s = []
      · subst hs
        have hn : n = b.toNat - 48 := by simp only [decVal, List.foldl_nil] at h3; omega
        rw [hn, List.nil_append, k2]
        have := Numeral.one _ k1
        rw [← k2] at this ⊢
        exact this
      · have := Numeral.snoc s _ _ (ih _ hs (fun b hb => h2 b (by simp [hb])) rfl) k1
        rw [← k2, h3] at this
        exact this

theorem isSpace_iff (b : Byte) : isSpace b = true ↔ (b = 0x20#8 ∨ b = 0x09#8 ∨ b = 0x0A#8 ∨ b = 0x0B#8 ∨ b = 0x0C#8 ∨ b = 0x0D#8) := by
  revert b; decide

end Verif.Conf
