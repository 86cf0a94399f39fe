import Verif.Gbr.Spec
/-
Lemmas on the lines of a vCard.
-/
namespace Verif.Gbr
open Verif.Res (Byte)

/-- The first line of a text, computed. -/
def unfoldF : List Byte → Option (List Byte × List Byte)
  | [] => none
  | [_] => none
  | [c, d] => if c = cr ∧ d = lf then some ([], []) else none
  | c :: d :: w :: t =>
    if c = cr ∧ d = lf then
      if w = 32#8 ∨ w = 9#8 then unfoldF t else some ([], w :: t)
    else (unfoldF (d :: w :: t)).map fun p => (c :: p.1, p.2)

theorem unfoldF_two (c d : Byte) (t : List Byte) (h : ¬ (c = cr ∧ d = lf)) : unfoldF (c :: d :: t) = (unfoldF (d :: t)).map fun p => (c :: p.1, p.2) := by
  cases t with
  | nil => simp [unfoldF, h]
  | cons w t => rw [unfoldF, if_neg h]

theorem unfoldF_iff (text line rest : List Byte) : unfoldF text = some (line, rest) ↔ Unfold text line rest := by
  constructor
  · intro h
    induction text using unfoldF.induct generalizing line rest with
    | case1 => cases h
    | case2 => cases h
    | case3 c d hc =>
      rw [unfoldF, if_pos hc] at h
      obtain ⟨rfl, rfl⟩ := hc
      injection h with h
      injection h with h h'
      subst h h'
      exact .ended [] (by simp)
    | case4 c d hc => rw [unfoldF, if_neg hc] at h; cases h
    | case5 c d w t hc hw ih =>
      obtain ⟨rfl, rfl⟩ := hc
      rw [unfoldF, if_pos ⟨rfl, rfl⟩, if_pos hw] at h
      exact .folded w hw (ih _ _ h)
    | case6 c d w t hc hw =>
      obtain ⟨rfl, rfl⟩ := hc
      rw [unfoldF, if_pos ⟨rfl, rfl⟩, if_neg hw] at h
      injection h with h
      injection h with h h'
      subst h h'
      refine .ended _ ?_
      intro b bs hb hwb
      injection hb with hb
      subst hb
      exact hw hwb
    | case7 c d w t hc ih =>
      rw [unfoldF, if_neg hc, Option.map_eq_some_iff] at h
      obtain ⟨⟨l, r⟩, h1, h2⟩ := h
      injection h2 with h2 h3
      subst h2 h3
      refine .chara c ?_ (ih _ _ h1)
      intro hcr bs hbs
      injection hbs with hbs
      exact hc ⟨hcr, hbs⟩
  · intro h
    induction h with
    | ended rest hr =>
      cases rest with
      | nil => rfl
      | cons w t =>
        rw [unfoldF, if_pos ⟨rfl, rfl⟩, if_neg (show ¬ (w = 32#8 ∨ w = 9#8) from hr w t rfl)]
    | folded w hw _ ih => rw [unfoldF, if_pos ⟨rfl, rfl⟩, if_pos (show w = 32#8 ∨ w = 9#8 from hw), ih]
    | @chara text line rest c hc _ ih =>
      cases text with
      | nil => cases ih
      | cons d t =>
        rw [unfoldF_two c d t (fun h => hc h.1 t (by rw [h.2]; rfl)), ih]
        rfl

/-- The line's buffer, while it's being filled. -/
def Filling (line : Line) (content : List Byte) : Prop :=
  line.len = content.length ∧ line.len < line.buf.length ∧ ∃ tail, line.buf = content.map some ++ tail

/-- The line's buffer, once it's full. -/
def Good (line : Line) (content : List Byte) : Prop := line.len = content.length ∧ ∃ tail, line.buf = content.map some ++ some 0#8 :: tail

theorem set_append_len {α : Type} (l t : List α) (x y : α) (i : Nat) (h : i = l.length) : (l ++ y :: t).set i x = l ++ x :: t := by
  subst h; simp

theorem addChara_true {line : Line} {content : List Byte} (h : Filling line content) (c : Byte) :
    ∃ line', addChara line c true = some line' ∧ Filling line' (content ++ [c]) ∧ line'.offset = line.offset := by
  obtain ⟨h1, h2, tail, h3⟩ := h
  have hlen : line.buf.length = content.length + tail.length := by rw [h3]; simp
  unfold addChara
  simp only
  by_cases hd : line.len + 1 = line.buf.length
  · rw [if_pos hd, if_pos (by simp; omega)]
    refine ⟨_, rfl, ⟨by simp [h1], ?_, ?_⟩, rfl⟩
    · simp only [if_true, List.length_set, List.length_append, List.length_replicate]; omega
    · cases tail with
      | nil => simp at hlen; omega
      | cons y tail =>
        refine ⟨tail ++ List.replicate line.buf.length none, ?_⟩
        simp only
        conv => lhs; arg 1; arg 1; rw [h3]
        rw [List.append_assoc, List.cons_append, set_append_len _ _ _ _ _ (by simp [h1])]
        simp
  · rw [if_neg hd, if_pos h2]
    refine ⟨_, rfl, ⟨by simp [h1], ?_, ?_⟩, rfl⟩
    · simp only [if_true, List.length_set]; omega
    · cases tail with
      | nil => simp at hlen; omega
      | cons y tail =>
        refine ⟨tail, ?_⟩
        simp only
        rw [h3, set_append_len _ _ _ _ _ (by simp [h1])]
        simp

theorem addChara_false {line : Line} {content : List Byte} (h : Filling line content) :
    ∃ line', addChara line 0#8 false = some line' ∧ Good line' content ∧ line'.offset = line.offset := by
  obtain ⟨h1, h2, tail, h3⟩ := h
  have hlen : line.buf.length = content.length + tail.length := by rw [h3]; simp
  unfold addChara
  simp only
  by_cases hd : line.len + 1 = line.buf.length
  · rw [if_pos hd, if_pos (by simp; omega)]
    refine ⟨_, rfl, ⟨h1, ?_⟩, rfl⟩
    cases tail with
    | nil => simp at hlen; omega
    | cons y tail =>
      refine ⟨tail ++ List.replicate line.buf.length none, ?_⟩
      simp only
      conv => lhs; arg 1; arg 1; rw [h3]
      rw [List.append_assoc, List.cons_append, set_append_len _ _ _ _ _ (by simp [h1])]
  · rw [if_neg hd, if_pos h2]
    refine ⟨_, rfl, ⟨h1, ?_⟩, rfl⟩
    cases tail with
    | nil => simp at hlen; omega
    | cons y tail =>
      refine ⟨tail, ?_⟩
      simp only
      rw [h3, set_append_len _ _ _ _ _ (by simp [h1])]

theorem Good.ready {line : Line} {content : List Byte} (h : Good line content) : 0 < line.buf.length := by
  obtain ⟨-, tail, h⟩ := h
  rw [h]; simp; omega

/-- What the loop does, in terms of the text that's left. -/
theorem lineLoop_spec (val : List Byte) (pos : Nat) (line : Line) (content : List Byte) (hf : Filling line content) :
    match unfoldF (val.drop pos) with
    | none => lineLoop val pos line = .err
    | some (l, rest) => ∃ line' k, lineLoop val pos line = .ok line' ∧ Good line' (content ++ l) ∧ line'.offset = line.offset + k ∧ pos < k ∧ k ≤ val.length ∧ val.drop k = rest := by
  induction hn : val.length - pos using Nat.strongRecOn generalizing pos line content with
  | _ n ih =>
    by_cases hp : pos < val.length
    · have hd : val.drop pos = val[pos] :: val.drop (pos + 1) := List.drop_eq_getElem_cons hp
      have copy : (unfoldF (val.drop pos) = (unfoldF (val.drop (pos + 1))).map fun p => (val[pos] :: p.1, p.2)) → analyzePos val pos = some .copyChara →
          match unfoldF (val.drop pos) with
          | none => lineLoop val pos line = .err
          | some (l, rest) => ∃ line' k, lineLoop val pos line = .ok line' ∧ Good line' (content ++ l) ∧ line'.offset = line.offset + k ∧ pos < k ∧ k ≤ val.length ∧ val.drop k = rest := by
        intro hu ha
        obtain ⟨l1, g1, g2, g3⟩ := addChara_true hf val[pos]
        have hl : lineLoop val pos line = lineLoop val (pos + 1) l1 := by
          rw [lineLoop, dif_pos hp, ha]
          simp only [List.getElem?_eq_getElem hp, g1]
        have := ih (val.length - (pos + 1)) (by omega) (pos + 1) l1 (content ++ [val[pos]]) g2 rfl
        rw [hu, hl]
        cases hr : unfoldF (val.drop (pos + 1)) with
        | none => rw [hr] at this; exact this
        | some q =>
          obtain ⟨l, rest⟩ := q
          rw [hr] at this
          obtain ⟨line', k, q1, q2, q3, q4, q5, q6⟩ := this
          refine ⟨line', k, q1, ?_, by rw [q3, g3], by omega, q5, q6⟩
          simpa using q2
      have hget : val[pos]? = some val[pos] := List.getElem?_eq_getElem hp
      by_cases hcr : val[pos] = cr
      · by_cases hlast : pos + 1 < val.length
        · have hd1 : val.drop (pos + 1) = val[pos + 1] :: val.drop (pos + 2) := List.drop_eq_getElem_cons hlast
          have hget1 : val[pos + 1]? = some val[pos + 1] := List.getElem?_eq_getElem hlast
          have hn1 : nextChara val pos = some (pos + 1) := by unfold nextChara; rw [if_pos (by omega)]
          by_cases hlf : val[pos + 1] = lf
          · have ended : unfoldF (val.drop pos) = some ([], val.drop (pos + 2)) → analyzePos val pos = some .lineEnded →
                match unfoldF (val.drop pos) with
                | none => lineLoop val pos line = .err
                | some (l, rest) => ∃ line' k, lineLoop val pos line = .ok line' ∧ Good line' (content ++ l) ∧ line'.offset = line.offset + k ∧ pos < k ∧ k ≤ val.length ∧ val.drop k = rest := by
              intro hu ha
              have hf' : Filling { line with offset := line.offset + (pos + 2) } content := hf
              obtain ⟨l1, g1, g2, g3⟩ := addChara_false hf'
              rw [hu]
              refine ⟨l1, pos + 2, ?_, by simpa using g2, g3, by omega, by omega, rfl⟩
              rw [lineLoop, dif_pos hp, ha]
              simp only [g1]
            by_cases hmore : pos + 2 < val.length
            · have hd2 : val.drop (pos + 2) = val[pos + 2] :: val.drop (pos + 3) := List.drop_eq_getElem_cons hmore
              have hget2 : val[pos + 1 + 1]? = some val[pos + 2] := List.getElem?_eq_getElem hmore
              have hn2 : nextChara val (pos + 1) = some (pos + 1 + 1) := by unfold nextChara; rw [if_pos (by omega)]
              by_cases hw : val[pos + 2] = 32#8 ∨ val[pos + 2] = 9#8
              · have hu : unfoldF (val.drop pos) = unfoldF (val.drop (pos + 3)) := by
                  rw [hd, hd1, hd2, unfoldF, if_pos ⟨hcr, hlf⟩, if_pos hw]
                have ha : analyzePos val pos = some .skipThree := by
                  unfold analyzePos
                  simp only [hget, hcr, hn1, hget1, hlf, hn2, hget2, hw, if_true, ne_eq, not_true_eq_false, if_false]
                have hl : lineLoop val pos line = lineLoop val (pos + 3) line := by
                  rw [lineLoop, dif_pos hp, ha]
                have := ih (val.length - (pos + 3)) (by omega) (pos + 3) line content hf rfl
                rw [hu, hl]
                cases hr : unfoldF (val.drop (pos + 3)) with
                | none => rw [hr] at this; exact this
                | some q =>
                  obtain ⟨l, rest⟩ := q
                  rw [hr] at this
                  obtain ⟨line', k, q1, q2, q3, q4, q5, q6⟩ := this
                  exact ⟨line', k, q1, q2, q3, by omega, q5, q6⟩
              · apply ended
                · rw [hd, hd1, hd2, unfoldF, if_pos ⟨hcr, hlf⟩, if_neg hw]
                · unfold analyzePos
                  simp only [hget, hcr, hn1, hget1, hlf, hn2, hget2, hw, ne_eq, not_true_eq_false, if_false]
            · have hd2 : val.drop (pos + 2) = [] := List.drop_eq_nil_of_le (by omega)
              have hn2 : nextChara val (pos + 1) = none := by unfold nextChara; rw [if_neg (by omega)]
              apply ended
              · rw [hd, hd1, hd2, unfoldF, if_pos ⟨hcr, hlf⟩]
              · unfold analyzePos
                simp only [hget, hcr, hn1, hget1, hlf, hn2, ne_eq, not_true_eq_false, if_false]
          · apply copy
            · rw [hd, hd1, unfoldF_two _ _ _ (fun h => hlf h.2)]
            · unfold analyzePos
              simp only [hget, hcr, hn1, hget1, hlf, ne_eq, not_true_eq_false, not_false_eq_true, if_false, if_true]
        · have hd1 : val.drop (pos + 1) = [] := List.drop_eq_nil_of_le (by omega)
          have hn1 : nextChara val pos = none := by unfold nextChara; rw [if_neg (by omega)]
          have hu : unfoldF (val.drop pos) = none := by rw [hd, hd1]; rfl
          rw [hu]
          simp only
          rw [lineLoop, dif_pos hp]
          have ha : analyzePos val pos = some .error := by
            unfold analyzePos
            simp only [hget, hcr, hn1, ne_eq, not_true_eq_false, if_false]
          rw [ha]
      · apply copy
        · rw [hd]
          cases ht : val.drop (pos + 1) with
          | nil => rfl
          | cons d t => rw [unfoldF_two _ _ _ (fun h => hcr h.1)]
        · unfold analyzePos
          simp only [hget, hcr, ne_eq, not_false_eq_true, if_true]
    · have hu : unfoldF (val.drop pos) = none := by rw [List.drop_eq_nil_of_le (by omega)]; rfl
      rw [hu]
      simp only
      rw [lineLoop, dif_neg hp]

theorem lineNext_spec (line : Line) (text : List Byte) (hb : 0 < line.buf.length) (ho : line.offset ≤ text.length) :
    match unfoldF (text.drop line.offset) with
    | none => lineNext line text = .err
    | some (l, rest) => ∃ line', lineNext line text = .ok line' ∧ Good line' l ∧ line.offset < line'.offset ∧ line'.offset ≤ text.length ∧ text.drop line'.offset = rest := by
  unfold lineNext
  by_cases h : text.length = line.offset
  · rw [if_pos h, List.drop_eq_nil_of_le (by omega)]
    rfl
  · rw [if_neg h]
    have hf : Filling { line with len := 0 } [] := ⟨rfl, hb, line.buf, rfl⟩
    have := lineLoop_spec (text.drop line.offset) 0 _ [] hf
    rw [List.drop_zero] at this
    cases hr : unfoldF (text.drop line.offset) with
    | none => rw [hr] at this; exact this
    | some q =>
      obtain ⟨l, rest⟩ := q
      rw [hr] at this
      obtain ⟨line', k, q1, q2, q3, q4, q5, q6⟩ := this
      simp only at q3
      rw [List.length_drop] at q5
      rw [List.drop_drop] at q6
      exact ⟨line', q1, by simpa using q2, by omega, by omega, by rw [q3]; exact q6⟩

/-! ### Comparisons -/

theorem lower_eq : lower = fold := by
  have : ∀ b : Byte, lower b = fold b := by decide +kernel
  exact funext this

theorem caseEq_iff (a b : List Byte) : CaseEq a b ↔ a.map lower = b.map lower := by rw [lower_eq]; exact Iff.rfl

theorem strncaseeq_good (content : List Byte) (tail : List (Option Byte)) : ∀ (tag : List Byte), (∀ t ∈ tag, lower t ≠ 0#8) →
    ∃ b, strncaseeq (content.map some ++ some 0#8 :: tail) tag = some b ∧ (b = true ↔ ∃ p rest, content = p ++ rest ∧ CaseEq p tag) := by
  induction content with
  | nil =>
    intro tag ht
    cases tag with
    | nil => exact ⟨true, rfl, by simp [CaseEq]⟩
    | cons t ts =>
      refine ⟨false, ?_, ?_⟩
      · have : lower 0#8 ≠ lower t := fun h => ht t List.mem_cons_self (by rw [← h]; rfl)
        simp only [List.map_nil, List.nil_append, strncaseeq]
        rw [if_pos this]
      · simp only [Bool.false_eq_true, false_iff]
        rintro ⟨p, rest, h1, h2⟩
        have hp : p = [] := by
          cases p with
          | nil => rfl
          | cons => cases h1
        subst hp
        simp [CaseEq] at h2
  | cons c cs ih =>
    intro tag ht
    cases tag with
    | nil => exact ⟨true, rfl, by simp only [true_iff]; exact ⟨[], _, rfl, rfl⟩⟩
    | cons t ts =>
      simp only [List.map_cons, List.cons_append, strncaseeq]
      by_cases h1 : lower c = lower t
      · rw [if_neg (by simp [h1])]
        have hc : c ≠ 0#8 := fun h => ht t List.mem_cons_self (by rw [← h1, h]; rfl)
        rw [if_neg hc]
        obtain ⟨b, hb1, hb2⟩ := ih ts (fun x hx => ht x (List.mem_cons_of_mem _ hx))
        refine ⟨b, hb1, hb2.trans ?_⟩
        constructor
        · rintro ⟨p, rest, g1, g2⟩
          exact ⟨c :: p, rest, by rw [g1]; rfl, by rw [caseEq_iff] at *; simp [h1, g2]⟩
        · rintro ⟨p, rest, g1, g2⟩
          cases p with
          | nil => simp [CaseEq] at g2
          | cons x p =>
            injection g1 with g1 g3
            simp only [caseEq_iff] at *
            simp only [List.map_cons, List.cons.injEq] at g2
            exact ⟨p, rest, g3, g2.2⟩
      · rw [if_pos h1]
        refine ⟨false, rfl, ?_⟩
        simp only [Bool.false_eq_true, false_iff]
        rintro ⟨p, rest, g1, g2⟩
        cases p with
        | nil => simp [CaseEq] at g2
        | cons x p =>
          injection g1 with g1 g3
          rw [caseEq_iff] at g2
          simp only [List.map_cons, List.cons.injEq] at g2
          exact h1 (by rw [g1]; exact g2.1)

theorem cstring_good : ∀ (content : List Byte) (tail : List (Option Byte)), cstring (content.map some ++ some 0#8 :: tail) = true
  | [], _ => rfl
  | c :: cs, tail => by
    simp only [List.map_cons, List.cons_append, cstring]
    by_cases h : c = 0#8
    · rw [if_pos h]
    · rw [if_neg h]; exact cstring_good cs tail

def NoNul (s : String) : Prop := ∀ t ∈ bytes s, lower t ≠ 0#8

theorem starts_spec {line : Line} {content : List Byte} (hg : Good line content) (tag : String) (ht : NoNul tag) :
    ∃ b, lineStartsWith line (bytes tag) = some b ∧ (b = true ↔ Starts content tag) := by
  obtain ⟨-, tail, h⟩ := hg
  unfold lineStartsWith
  rw [h]
  exact strncaseeq_good content tail _ ht

theorem caseEq_length {a b : List Byte} (h : CaseEq a b) : a.length = b.length := by
  have := congrArg List.length h
  simpa using this

theorem validate_spec {line : Line} {content : List Byte} (hg : Good line content) (tag : String) (ht : NoNul tag) :
    (lineValidate line (bytes tag) = .ok () ↔ CaseEq content (bytes tag)) ∧ (lineValidate line (bytes tag) = .ok () ∨ lineValidate line (bytes tag) = .err) := by
  obtain ⟨h1, tail, h⟩ := hg
  unfold lineValidate
  obtain ⟨b, hb1, hb2⟩ := strncaseeq_good content tail (bytes tag) ht
  rw [h1, h, cstring_good, hb1]
  by_cases hl : content.length = (bytes tag).length
  · rw [if_neg (by simp [hl])]
    cases b with
    | true =>
      obtain ⟨p, rest, g1, g2⟩ := hb2.1 rfl
      have : rest = [] := by
        have h3 := caseEq_length g2
        rw [g1, List.length_append] at hl
        exact List.eq_nil_of_length_eq_zero (by omega)
      subst this
      rw [List.append_nil] at g1
      subst g1
      simp [g2]
    | false =>
      have : ¬ CaseEq content (bytes tag) := fun hc => by
        have := hb2.2 ⟨content, [], by simp, hc⟩
        cases this
      simp [this]
  · rw [if_pos hl]
    have : ¬ CaseEq content (bytes tag) := fun hc => hl (caseEq_length hc)
    simp [this]

theorem useful_spec {line : Line} {content : List Byte} (hg : Good line content) :
    ∃ b, usefulLine line = some b ∧ (b = true ↔ Useful content) := by
  have n1 : NoNul "ORG:" := by unfold NoNul; decide
  have n2 : NoNul "ADR;" := by unfold NoNul; decide
  have n3 : NoNul "TEL;" := by unfold NoNul; decide
  have n4 : NoNul "EMAIL:" := by unfold NoNul; decide
  have n5 : NoNul "EMAIL;" := by unfold NoNul; decide
  obtain ⟨b1, e1, f1⟩ := starts_spec hg "ORG:" n1
  obtain ⟨b2, e2, f2⟩ := starts_spec hg "ADR;" n2
  obtain ⟨b3, e3, f3⟩ := starts_spec hg "TEL;" n3
  obtain ⟨b4, e4, f4⟩ := starts_spec hg "EMAIL:" n4
  obtain ⟨b5, e5, f5⟩ := starts_spec hg "EMAIL;" n5
  unfold usefulLine Useful
  simp only [e1, e2, e3, e4, e5, ← f1, ← f2, ← f3, ← f4, ← f5]
  cases b1 <;> cases b2 <;> cases b3 <;> cases b4 <;> cases b5 <;> exact ⟨_, rfl, by simp⟩

/-- A line can't start with two of these. -/
theorem starts_head {line : List Byte} {tag : String} {t : Byte} {ts : List Byte} (ht : bytes tag = t :: ts) (h : Starts line tag) : ∃ c cs, line = c :: cs ∧ lower c = lower t := by
  obtain ⟨p, rest, h1, h2⟩ := h
  cases p with
  | nil => rw [ht] at h2; simp [CaseEq] at h2
  | cons c p =>
    rw [ht] at h2
    rw [caseEq_iff] at h2
    simp only [List.map_cons, List.cons.injEq] at h2
    exact ⟨c, p ++ rest, h1, h2.1⟩

end Verif.Gbr
