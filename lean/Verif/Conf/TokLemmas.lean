import Verif.Conf.NumLemmas
/-
Lemmas on the tokenizer.
-/
namespace Verif.Conf
open Verif.Res (Byte)

theorem splitOnP_cons' {α} (p : α → Bool) (x : α) (xs : List α) :
    (x :: xs).splitOnP p = if p x then [] :: xs.splitOnP p else (xs.splitOnP p).modifyHead (List.cons x) := by
  exact List.splitOnP_cons ..

theorem splitOnP_word {α} (p : α → Bool) (w rest : List α) (hw : ∀ a ∈ w, p a = false) (hr : rest = [] ∨ ∃ x xs, rest = x :: xs ∧ p x = true) :
    ∃ t, (w ++ rest).splitOnP p = w :: t ∧ rest.splitOnP p = [] :: t := by
  induction w with
  | nil =>
    rcases hr with rfl | ⟨x, xs, rfl, hx⟩
    · exact ⟨[], by simp, by simp⟩
    · refine ⟨xs.splitOnP p, ?_, ?_⟩
      · rw [List.nil_append, splitOnP_cons', if_pos hx]
      · rw [splitOnP_cons', if_pos hx]
  | cons a w ih =>
    obtain ⟨t, h1, h2⟩ := ih (fun a ha => hw a (by simp [ha]))
    refine ⟨t, ?_, h2⟩
    rw [List.cons_append, splitOnP_cons', if_neg (by simp [hw a (by simp)]), h1]
    rfl

theorem fieldsOf_sep (sep : Byte) (l : List Byte) : fieldsOf sep (sep :: l) = fieldsOf sep l := by
  unfold fieldsOf
  rw [splitOnP_cons', if_pos (by simp)]
  simp

theorem fieldsOf_word (sep : Byte) (w rest : List Byte) (hne : w ≠ []) (hw : ∀ a ∈ w, a ≠ sep) (hr : rest = [] ∨ ∃ xs, rest = sep :: xs) :
    fieldsOf sep (w ++ rest) = w :: fieldsOf sep rest := by
  obtain ⟨t, h1, h2⟩ := splitOnP_word (· == sep) w rest (fun a ha => by simp [hw a ha]) (by
    rcases hr with h | ⟨xs, h⟩
    · exact Or.inl h
    · exact Or.inr ⟨sep, xs, h, by simp⟩)
  unfold fieldsOf
  rw [h1, h2]
  simp [hne]

theorem fieldsOf_nil (sep : Byte) : fieldsOf sep [] = [] := by simp [fieldsOf]

theorem findSep_spec (s : List Byte) (sep : Byte) (i : Nat) (hi : i ≤ s.length) :
    i ≤ findSep s sep i ∧ findSep s sep i ≤ s.length ∧ (∀ a ∈ (s.drop i).take (findSep s sep i - i), a ≠ sep) ∧
      (s.drop (findSep s sep i) = [] ∨ ∃ xs, s.drop (findSep s sep i) = sep :: xs) := by
  fun_induction findSep s sep i with
  | case1 i h heq =>
    refine ⟨Nat.le_refl _, hi, by simp, Or.inr ⟨s.drop (i + 1), ?_⟩⟩
    rw [List.drop_eq_getElem_cons h, heq]
  | case2 i h hne ih =>
    obtain ⟨k1, k2, k3, k4⟩ := ih (by omega)
    refine ⟨by omega, k2, ?_, k4⟩
    have e : findSep s sep (i + 1) - i = (findSep s sep (i + 1) - (i + 1)) + 1 := by omega
    rw [List.drop_eq_getElem_cons h, e, List.take_succ_cons]
    intro a ha
    rcases List.mem_cons.1 ha with rfl | ha
    · exact hne
    · exact k3 a ha
  | case3 i h =>
    refine ⟨Nat.le_refl _, hi, by simp, Or.inl ?_⟩
    exact List.drop_eq_nil_of_le (by omega)

theorem skipSep_spec (s : List Byte) (sep : Byte) (i : Nat) (hi : i < s.length) :
    (skipSep s sep i = some none ∧ fieldsOf sep (s.drop i) = []) ∨
    ∃ j, skipSep s sep i = some (some j) ∧ i ≤ j ∧ ∃ h : j < s.length, s[j] ≠ sep ∧ fieldsOf sep (s.drop i) = fieldsOf sep (s.drop j) := by
  fun_induction skipSep s sep i with
  | case1 i h => exact absurd (List.getElem?_eq_none_iff.1 h) (by omega)
  | case2 i h hlast =>
    left
    refine ⟨rfl, ?_⟩
    have e : s[i] = sep := (List.getElem?_eq_some_iff.1 (by assumption)).2
    rw [List.drop_eq_getElem_cons hi, e, fieldsOf_sep, List.drop_eq_nil_of_le (by omega), fieldsOf_nil]
  | case3 i h hlast ih =>
    have e : s[i] = sep := (List.getElem?_eq_some_iff.1 (by assumption)).2
    have hd : fieldsOf sep (s.drop i) = fieldsOf sep (s.drop (i + 1)) := by
      rw [List.drop_eq_getElem_cons hi, e, fieldsOf_sep]
    rw [hd]
    rcases ih (by omega) with h | ⟨j, h1, h2, h3⟩
    · exact Or.inl h
    · exact Or.inr ⟨j, h1, by omega, h3⟩
  | case4 i b h hne =>
    right
    have e : s[i] = b := (List.getElem?_eq_some_iff.1 h).2
    exact ⟨i, rfl, Nat.le_refl _, hi, by rw [e]; exact hne, rfl⟩

theorem tokLoop_eq (s : List Byte) (sep : Byte) (fuel : Nat) (t : Tok) (ht : t.stop ≤ s.length) (hf : s.length - t.stop < fuel) :
    tokLoop s sep fuel t = some (fieldsOf sep (s.drop t.stop)) := by
  induction fuel generalizing t with
  | zero => omega
  | succ fuel ih =>
    rw [tokLoop, tokNext]
    by_cases h : t.stop = s.length
    · rw [if_pos h]
      dsimp only
      rw [List.drop_eq_nil_of_le (by omega), fieldsOf_nil]
    · rw [if_neg h]
      rcases skipSep_spec s sep t.stop (by omega) with ⟨h1, h2⟩ | ⟨j, h1, h2, h3, h4, h5⟩
      · rw [h1, h2]
      · rw [h1, h5]
        dsimp only
        obtain ⟨k1, k2, k3, k4⟩ := findSep_spec s sep j (by omega)
        have hgt : j < findSep s sep j := by
          rcases Nat.lt_or_ge j (findSep s sep j) with h | h
          · exact h
          · have e : findSep s sep j = j := by omega
            rw [e] at k4
            rw [List.drop_eq_getElem_cons h3] at k4
            rcases k4 with k4 | ⟨xs, k4⟩
            · cases k4
            · injection k4 with k4; exact absurd k4 h4
        rw [ih ⟨j, findSep s sep j⟩ k2 (by simp only; omega)]
        dsimp only
        have e : s.drop j = (s.drop j).take (findSep s sep j - j) ++ s.drop (findSep s sep j) := by
          have := (List.take_append_drop (findSep s sep j - j) (s.drop j)).symm
          rw [List.drop_drop] at this
          have e2 : j + (findSep s sep j - j) = findSep s sep j := by omega
          rw [e2] at this
          exact this
        have hw := fieldsOf_word sep ((s.drop j).take (findSep s sep j - j)) (s.drop (findSep s sep j)) (by
          intro h0
          have := congrArg List.length h0
          simp only [List.length_take, List.length_drop, List.length_nil] at this
          omega) k3 k4
        rw [← e] at hw
        rw [hw]

theorem writeTokens_eq (ts : List (List Byte)) (done : List (List Byte)) :
    writeTokens ts done.length (done.map some ++ List.replicate ts.length none) = some ((done ++ ts).map some) := by
  induction ts generalizing done with
  | nil => simp [writeTokens]
  | cons t ts ih =>
    rw [writeTokens, if_pos (by simp)]
    have e : (done.map some ++ List.replicate (t :: ts).length none).set done.length (some t) =
        (done ++ [t]).map some ++ List.replicate ts.length none := by
      rw [List.set_append_right _ _ (by simp)]
      simp [List.replicate_succ]
    rw [e]
    have := ih (done ++ [t])
    rw [List.length_append, List.length_singleton] at this
    rw [this]
    simp

theorem argvStrings_eq (o : Opt) (s : List Byte) (c : Conf) :
    parseArgvStrings o (some s) c = if o.max > 0 ∧ (fieldsOf 0x2C#8 s).length > o.max then .fail (-eINVAL)
      else .ok (c.set o.name (.strs (fieldsOf 0x2C#8 s))) := by
  have h := tokLoop_eq s 0x2C#8 (s.length + 1) ⟨0, 0⟩ (by simp) (by simp)
  rw [List.drop_zero] at h
  unfold parseArgvStrings
  simp only [h]
  have hw := writeTokens_eq (fieldsOf 0x2C#8 s) []
  simp only [List.length_nil, List.map_nil, List.nil_append] at hw
  rw [hw]
  simp

end Verif.Conf
