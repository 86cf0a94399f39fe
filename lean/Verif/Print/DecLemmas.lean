import Verif.Print.FileLemmas
/-
The decoder: more bytes don't change what it did, and it accepts elements.
-/
namespace Verif.Print
open Verif.Res (Byte be)
open Verif.Cms

/-! ### Steps -/

/-- Bytes the decoder is sure of. -/
theorem header1_append (d : Dec) (a b : List Byte) (h : header1 d a ≠ .more) : header1 d (a ++ b) = header1 d a := by
  unfold header1 at h ⊢
  cases ht : berFetchTag a with
  | more => rw [ht] at h; exact absurd rfl h
  | bad => rw [fetchTag_append _ _ (by rw [ht]; exact fun h => by cases h), ht]
  | stuck => rw [fetchTag_append _ _ (by rw [ht]; exact fun h => by cases h), ht]
  | ok tl =>
    rw [fetchTag_append _ _ (by rw [ht]; exact fun h => by cases h), ht]
    rw [ht] at h
    dsimp only at h ⊢
    obtain ⟨h1, h2⟩ := fetchTag_le ht
    have hc : isConstructed (a ++ b) = isConstructed a := by
      unfold isConstructed
      cases a with
      | nil => simp at h2; omega
      | cons x a => rfl
    rw [hc, List.drop_append_of_le_length h2]
    cases hf : berFetchLength (isConstructed a) (a.drop tl) with
    | more => rw [hf] at h; exact absurd rfl h
    | bad => rw [fetch_append _ _ _ (by rw [hf]; exact fun h => by cases h), hf]
    | indef => rw [fetch_append _ _ _ (by rw [hf]; exact fun h => by cases h), hf]
    | defn ll v =>
      rw [fetch_append _ _ _ (by rw [hf]; exact fun h => by cases h), hf]
      dsimp only
      have h3 := fetch_le hf
      rw [List.length_drop] at h3
      have e0 : (a ++ b)[0]? = a[0]? := List.getElem?_append_left (by omega)
      have e1 : (a ++ b)[1]? = a[1]? := List.getElem?_append_left (by omega)
      rw [e0, e1]

theorem push_ne_more (d : Dec) (c : Bool) (n : Nat) (l : Option Nat) : push d c n l ≠ .more := by
  unfold push
  split
  · exact fun h => by cases h
  · split
    · split <;> exact fun h => by cases h
    · exact fun h => by cases h

theorem take_header_append (d : Dec) (a b : List Byte) (l : Option Nat) (h : header1 d (a.take (l.getD a.length)) ≠ .more) :
    header1 d ((a ++ b).take (l.getD (a ++ b).length)) = header1 d (a.take (l.getD a.length)) := by
  cases l with
  | none =>
    simp only [Option.getD_none, List.take_length] at h ⊢
    exact header1_append d a b h
  | some n =>
    simp only [Option.getD_some] at h ⊢
    rw [List.take_append]
    exact header1_append d _ _ h

theorem decStep_append (d : Dec) (a b : List Byte) (h : decStep d a ≠ .more) : decStep d (a ++ b) = decStep d a := by
  unfold decStep at h ⊢
  by_cases hv : d.inValue = true
  · rw [if_pos hv] at h
    rw [if_pos hv, if_pos hv]
    cases hs : d.stack with
    | nil => rfl
    | cons f rest =>
      rw [hs] at h
      dsimp only at h ⊢
      cases hl : f.left with
      | none => rfl
      | some l =>
        rw [hl] at h
        cases l with
        | zero => rfl
        | succ l =>
          dsimp only at h ⊢
          by_cases ha : a = []
          · rw [if_pos ha] at h; exact absurd rfl h
          · rw [if_neg ha, if_neg (by simp [ha])]
  · rw [if_neg hv] at h
    rw [if_neg hv, if_neg hv]
    cases hs : d.stack with
    | nil => rw [hs] at h; exact header1_append d a b h
    | cons f rest =>
      rw [hs] at h
      cases rest with
      | nil =>
        dsimp only at h ⊢
        by_cases ho : f.over = true
        · rw [if_pos ho, if_pos ho]
        · rw [if_neg ho] at h
          rw [if_neg ho, if_neg ho]
          exact take_header_append d a b _ h
      | cons p rest =>
        dsimp only at h ⊢
        by_cases ho : f.over = true
        · rw [if_pos ho, if_pos ho]
        · rw [if_neg ho] at h
          rw [if_neg ho, if_neg ho]
          exact take_header_append d a b _ h

/-! ### The recursion's bound -/

def Dec.size (d : Dec) (buf : List Byte) : Nat := 3 * buf.length + 2 * d.stack.length + (if d.inValue then 1 else 0)

theorem push_advance {d d' : Dec} {c : Bool} {n k : Nat} {l : Option Nat} (h : push d c n l = .advance k d') :
    k = n ∧ d'.stack.length = d.stack.length + 1 ∧ d'.inValue = !c := by
  unfold push at h
  split at h
  · rename_i hs; cases h; rw [hs]; exact ⟨rfl, rfl, rfl⟩
  · rename_i hs
    split at h
    · split at h
      · cases h
      · cases h; exact ⟨rfl, rfl, rfl⟩
    · cases h; exact ⟨rfl, rfl, rfl⟩

theorem header1_advance {d d' : Dec} {buf : List Byte} {k : Nat} (h : header1 d buf = .advance k d') :
    2 ≤ k ∧ k ≤ buf.length ∧ d'.stack.length ≤ d.stack.length + 1 := by
  unfold header1 at h
  cases ht : berFetchTag buf with
  | more => rw [ht] at h; cases h
  | bad => rw [ht] at h; cases h
  | stuck => rw [ht] at h; cases h
  | ok tl =>
    rw [ht] at h
    dsimp only at h
    obtain ⟨h1, h2⟩ := fetchTag_le ht
    cases hf : berFetchLength (isConstructed buf) (buf.drop tl) with
    | more => rw [hf] at h; cases h
    | bad => rw [hf] at h; cases h
    | indef =>
      rw [hf] at h
      dsimp only at h
      obtain ⟨rfl, h3, _⟩ := push_advance h
      have h4 := fetch_indef_len hf
      rw [List.length_drop] at h4
      exact ⟨by omega, by omega, by omega⟩
    | defn ll v =>
      rw [hf] at h
      dsimp only at h
      have h4 := fetch_le hf
      rw [List.length_drop] at h4
      cases hs : d.stack with
      | nil =>
        rw [hs] at h
        obtain ⟨rfl, h3, _⟩ := push_advance h
        rw [hs] at h3
        exact ⟨by omega, by omega, by omega⟩
      | cons f rest =>
        rw [hs] at h
        dsimp only at h
        split at h
        · rename_i he
          cases h
          obtain ⟨hlt, _⟩ := List.getElem?_eq_some_iff.1 he.2.2
          exact ⟨by omega, by omega, by simp⟩
        · obtain ⟨rfl, h3, _⟩ := push_advance h
          rw [hs] at h3
          exact ⟨by omega, by omega, by omega⟩

theorem inValue_le (d : Dec) : (if d.inValue then 1 else 0) ≤ 1 := by split <;> omega

theorem size_header {d d' : Dec} {buf buf0 : List Byte} {k : Nat} (hb : buf0.length ≤ buf.length) (h : header1 d buf0 = .advance k d') :
    d'.size (buf.drop k) < d.size buf := by
  obtain ⟨h1, h2, h3⟩ := header1_advance h
  unfold Dec.size
  rw [List.length_drop]
  have := inValue_le d'
  omega

theorem decStep_size {d d' : Dec} {buf : List Byte} {k : Nat} (h : decStep d buf = .advance k d') : d'.size (buf.drop k) < d.size buf := by
  unfold decStep at h
  by_cases hv : d.inValue = true
  · rw [if_pos hv] at h
    cases hs : d.stack with
    | nil => rw [hs] at h; cases h
    | cons f rest =>
      rw [hs] at h
      dsimp only at h
      cases hl : f.left with
      | none => rw [hl] at h; cases h
      | some l =>
        rw [hl] at h
        cases l with
        | zero =>
          cases h
          unfold Dec.size
          rw [hs, hv]
          simp
        | succ l =>
          dsimp only at h
          cases buf with
          | nil => rw [if_pos rfl] at h; cases h
          | cons x buf =>
            rw [if_neg (by simp)] at h
            cases h
            unfold Dec.size
            rw [hs, hv]
            simp
  · rw [if_neg hv] at h
    cases hs : d.stack with
    | nil => rw [hs] at h; exact size_header (Nat.le_refl _) h
    | cons f rest =>
      rw [hs] at h
      cases rest with
      | nil =>
        dsimp only at h
        by_cases ho : f.over = true
        · rw [if_pos ho] at h; cases h
        · rw [if_neg ho] at h
          exact size_header (by rw [List.length_take]; omega) h
      | cons p rest =>
        dsimp only at h
        by_cases ho : f.over = true
        · rw [if_pos ho] at h
          cases hp : p.left with
          | none =>
            rw [hp] at h
            cases h
            unfold Dec.size
            rw [hs]
            simp
            omega
          | some l =>
            rw [hp] at h
            dsimp only at h
            split at h
            · cases h
            · cases h
              unfold Dec.size
              rw [hs]
              simp
              omega
        · rw [if_neg ho] at h
          exact size_header (by rw [List.length_take]; omega) h

theorem decLoop_enough : ∀ (n m : Nat) (d : Dec) (buf : List Byte), d.size buf < n → d.size buf < m → decLoop n d buf = decLoop m d buf := by
  intro n
  induction n with
  | zero => intro m d buf h; omega
  | succ n ih =>
    intro m d buf hn hm
    cases m with
    | zero => omega
    | succ m =>
      unfold decLoop
      cases hs : decStep d buf with
      | done => rfl
      | fail => rfl
      | more => rfl
      | advance k d' =>
        dsimp only
        have := decStep_size hs
        exact ih m d' _ (by omega) (by omega)

theorem size_lt (d : Dec) (buf : List Byte) : d.size buf < 3 * buf.length + 2 * d.stack.length + 3 := by
  unfold Dec.size; have := inValue_le d; omega

/-- One turn at the time. -/
theorem decCall_eq (d : Dec) (buf : List Byte) : decCall d buf =
    match decStep d buf with
    | .done => .ok
    | .fail => .fail
    | .more => .more buf d
    | .advance k d' => decCall d' (buf.drop k) := by
  have h : decCall d buf = decLoop (3 * buf.length + 2 * d.stack.length + 2 + 1) d buf := rfl
  rw [h]
  unfold decLoop
  cases hs : decStep d buf with
  | done => rfl
  | fail => rfl
  | more => rfl
  | advance k d' =>
    dsimp only
    have h1 := decStep_size hs
    have h2 := size_lt d buf
    exact decLoop_enough _ _ _ _ (by omega) (size_lt _ _)

theorem decCall_ne_stuck : ∀ (n : Nat) (d : Dec) (buf : List Byte), d.size buf < n → decCall d buf ≠ .stuck := by
  intro n
  induction n with
  | zero => intro d buf h; omega
  | succ n ih =>
    intro d buf h
    rw [decCall_eq]
    cases hs : decStep d buf with
    | done => exact fun h => by cases h
    | fail => exact fun h => by cases h
    | more => exact fun h => by cases h
    | advance k d' => exact ih d' _ (by have := decStep_size hs; omega)

/-! ### Calls can be made with more bytes -/

theorem drop_append_le {k : Nat} {a b : List Byte} (h : k ≤ a.length) : (a ++ b).drop k = a.drop k ++ b := List.drop_append_of_le_length h

theorem decStep_le {d d' : Dec} {buf : List Byte} {k : Nat} (h : decStep d buf = .advance k d') : k ≤ buf.length := by
  unfold decStep at h
  by_cases hv : d.inValue = true
  · rw [if_pos hv] at h
    cases hs : d.stack with
    | nil => rw [hs] at h; cases h
    | cons f rest =>
      rw [hs] at h
      dsimp only at h
      cases hl : f.left with
      | none => rw [hl] at h; cases h
      | some l =>
        rw [hl] at h
        cases l with
        | zero => cases h; omega
        | succ l =>
          dsimp only at h
          cases buf with
          | nil => rw [if_pos rfl] at h; cases h
          | cons x buf => rw [if_neg (by simp)] at h; cases h; simp
  · rw [if_neg hv] at h
    cases hs : d.stack with
    | nil => rw [hs] at h; exact (header1_advance h).2.1
    | cons f rest =>
      rw [hs] at h
      have ht : ∀ n, (buf.take n).length ≤ buf.length := fun n => by rw [List.length_take]; omega
      cases rest with
      | nil =>
        dsimp only at h
        by_cases ho : f.over = true
        · rw [if_pos ho] at h; cases h
        · rw [if_neg ho] at h
          exact (header1_advance h).2.1.trans (ht _)
      | cons p rest =>
        dsimp only at h
        by_cases ho : f.over = true
        · rw [if_pos ho] at h
          cases hp : p.left with
          | none => rw [hp] at h; cases h; omega
          | some l =>
            rw [hp] at h
            dsimp only at h
            split at h
            · cases h
            · cases h; omega
        · rw [if_neg ho] at h
          exact (header1_advance h).2.1.trans (ht _)

/-- If a call wants more, a call with more does the same as a second one with what wasn't consumed and the rest. If it doesn't, more bytes don't matter. -/
theorem decCall_append : ∀ (n : Nat) (d : Dec) (a b : List Byte), d.size a < n →
    decCall d (a ++ b) = match decCall d a with | .more r d' => decCall d' (r ++ b) | x => x := by
  intro n
  induction n with
  | zero => intro d a b h; omega
  | succ n ih =>
    intro d a b h
    cases hs : decStep d a with
    | more => rw [decCall_eq d a, hs]
    | done => rw [decCall_eq d a, hs, decCall_eq, decStep_append d a b (by rw [hs]; exact fun h => by cases h), hs]
    | fail => rw [decCall_eq d a, hs, decCall_eq, decStep_append d a b (by rw [hs]; exact fun h => by cases h), hs]
    | advance k d' =>
      have h1 := decStep_size hs
      rw [decCall_eq d a, hs, decCall_eq, decStep_append d a b (by rw [hs]; exact fun h => by cases h), hs]
      dsimp only
      rw [drop_append_le (decStep_le hs)]
      exact ih d' _ b (by omega)

end Verif.Print
