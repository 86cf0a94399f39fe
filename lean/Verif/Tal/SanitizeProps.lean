import Verif.Tal.FileModel
import Mathlib.Data.List.Infix
/-
C55: base64 text is wrapped without loss.
-/
namespace Verif.Tal
open Verif.Rtr (Byte)

/-! ### Specification -/

/-- No line is longer than `n`, without its LF. -/
def MaxLine (n : Nat) (text : List Byte) : Prop := ∀ run, run <:+: text → lf ∉ run → run.length ≤ n

/-- `out` is `text` with additional LFs. -/
structure OnlyLfsAdded (text out : List Byte) : Prop where
  sub : text.Sublist out
  same : out.filter (· ≠ lf) = text.filter (· ≠ lf)

/-! ### Lemmas -/

theorem OnlyLfsAdded.refl (l : List Byte) : OnlyLfsAdded l l := ⟨List.Sublist.refl l, rfl⟩

theorem OnlyLfsAdded.append {a a' b b' : List Byte} (h : OnlyLfsAdded a a') (h' : OnlyLfsAdded b b') : OnlyLfsAdded (a ++ b) (a' ++ b') :=
  ⟨h.sub.append h'.sub, by rw [List.filter_append, List.filter_append, h.same, h'.same]⟩

theorem run_infix {a b r : List Byte} (h : r <:+: a ++ lf :: b) (hr : lf ∉ r) : r <:+: a ∨ r <:+: b := by
  rcases List.infix_append_iff.1 h with h | h | ⟨l1, l2, rfl, h1, h2⟩
  · exact .inl h
  · rcases List.infix_cons_iff.1 h with h | h
    · cases r with
      | nil => exact .inl (List.nil_infix ..)
      | cons c r =>
        obtain ⟨t, e⟩ := h
        rw [List.cons_append] at e
        injection e with e1 e2
        exact absurd (by rw [e1]; exact List.mem_cons_self ..) hr
    · exact .inr h
  · cases l2 with
    | nil => rw [List.append_nil]; exact .inl h1.isInfix
    | cons c l2 =>
      obtain ⟨t, e⟩ := h2
      rw [List.cons_append] at e
      injection e with e1 e2
      exact absurd (by rw [e1]; simp) hr

theorem run_suffix {a b r : List Byte} (h : r <:+ a ++ lf :: b) (hr : lf ∉ r) : r <:+ b := by
  by_cases hl : r.length ≤ b.length
  · exact List.suffix_of_suffix_length_le h ((List.suffix_cons lf b).trans (List.suffix_append ..)) hl
  · have h1 : lf :: b <:+ r := List.suffix_of_suffix_length_le (List.suffix_append ..) h (by simp; omega)
    exact absurd (h1.subset (List.mem_cons_self ..)) hr

theorem splitLf_none {l : List Byte} (h : splitLf l = none) : lf ∉ l := by
  induction l with
  | nil => intro h; cases h
  | cons c l ih =>
    unfold splitLf at h
    by_cases hc : c = lf
    · rw [if_pos hc] at h; cases h
    · rw [if_neg hc] at h
      cases h1 : splitLf l with
      | some p => rw [h1] at h; cases h
      | none =>
        intro hm
        rcases List.mem_cons.1 hm with e | hm
        · exact hc e.symm
        · exact ih h1 hm

theorem splitLf_some {l pre post : List Byte} (h : splitLf l = some (pre, post)) : l = pre ++ lf :: post ∧ lf ∉ pre := by
  induction l generalizing pre post with
  | nil => cases h
  | cons c l ih =>
    unfold splitLf at h
    by_cases hc : c = lf
    · rw [if_pos hc] at h; cases h; exact ⟨by rw [hc]; rfl, fun h => by cases h⟩
    · rw [if_neg hc] at h
      cases h1 : splitLf l with
      | none => rw [h1] at h; cases h
      | some p =>
        rw [h1] at h
        cases h
        obtain ⟨h2, h3⟩ := ih h1
        refine ⟨congrArg (c :: ·) h2, ?_⟩
        intro hm
        rcases List.mem_cons.1 hm with e | hm
        · exact hc e.symm
        · exact h3 hm

/-- What is written for a chunk: no longer than it plus one, only LFs added, and as two parts around an LF. -/
theorem chunk_spec {c : List Byte} (hc : c ≠ []) (hl : c.length ≤ bufSize) : (sanitizeChunk c).length ≤ c.length + 1 ∧ OnlyLfsAdded c (sanitizeChunk c) ∧
    ∃ a b, sanitizeChunk c = a ++ lf :: b ∧ a.length ≤ 64 ∧ MaxLine 64 b ∧ ∀ r, r <:+ b → lf ∉ r → r.length ≤ 1 := by
  have hpos : 0 < c.length := List.length_pos_iff.2 hc
  unfold sanitizeChunk
  simp only [bufSize] at hl
  cases h : splitLf c with
  | none =>
    simp only
    have hd : (c.drop (c.length - 1)).length ≤ 1 := by simp; omega
    refine ⟨by simp; omega, ⟨?_, ?_⟩, c.take (c.length - 1), c.drop (c.length - 1), by simp, by simp; omega, ?_, ?_⟩
    · conv => lhs; rw [← List.take_append_drop (c.length - 1) c]
      exact List.Sublist.append (List.sublist_append_left ..) (List.Sublist.refl _)
    · conv => rhs; rw [← List.take_append_drop (c.length - 1) c]
      rw [List.filter_append, List.filter_append, List.filter_append]
      simp only [List.filter_cons, List.filter_nil, ne_eq, not_true_eq_false, decide_false, Bool.false_eq_true, if_false, List.append_nil]
    · intro r hr _
      have := hr.length_le
      omega
    · intro r hr _
      have := hr.length_le
      omega
  | some p =>
    obtain ⟨pre, post⟩ := p
    obtain ⟨e, hp⟩ := splitLf_some h
    simp only
    have hlen : c.length = pre.length + 1 + post.length := by rw [e]; simp; omega
    by_cases hlt : pre.length + 1 < c.length
    · rw [if_pos hlt]
      refine ⟨by simp; omega, ⟨?_, ?_⟩, pre, post ++ [lf], by simp, by omega, ?_, ?_⟩
      · rw [e]
        simp
      · rw [e]
        simp
      · intro r hr hn
        rcases run_infix hr hn with h | h
        · have := h.length_le; omega
        · have := h.length_le; simp at this; subst this; exact Nat.zero_le _
      · intro r hr hn
        have := (run_suffix hr hn).length_le
        simp at this; subst this; exact Nat.zero_le _
    · rw [if_neg hlt]
      have : post = [] := List.length_eq_zero_iff.1 (by omega)
      subst this
      refine ⟨by simp; omega, ?_, pre, [], by simp, by omega, ?_, ?_⟩
      · rw [e]; exact .refl _
      · intro r hr _
        have := hr.length_le
        simp at this; subst this; exact Nat.zero_le _
      · intro r hr _
        have := hr.length_le
        simp at this; subst this; exact Nat.zero_le _

/-- What holds of the buffer after each iteration. -/
structure Wrapped (out : List Byte) : Prop where
  max : MaxLine 65 out
  open_ : ∀ r, r <:+ out → lf ∉ r → r.length ≤ 1

theorem Wrapped.nil : Wrapped [] :=
  ⟨fun r h _ => by have := h.length_le; simp at this; subst this; exact Nat.zero_le _,
   fun r h _ => by have := h.length_le; simp at this; subst this; exact Nat.zero_le _⟩

theorem Wrapped.append {out a b : List Byte} (h : Wrapped out) (ha : a.length ≤ 64) (hb : MaxLine 64 b) (hs : ∀ r, r <:+ b → lf ∉ r → r.length ≤ 1) :
    Wrapped (out ++ (a ++ lf :: b)) := by
  constructor
  · intro r hr hn
    rw [← List.append_assoc] at hr
    rcases run_infix hr hn with hr | hr
    · rcases List.infix_append_iff.1 hr with hr | hr | ⟨l1, l2, rfl, h1, h2⟩
      · exact h.max r hr hn
      · have := hr.length_le; omega
      · have h3 := h.open_ l1 h1 fun hm => hn (List.mem_append_left _ hm)
        have h4 := h2.length_le
        rw [List.length_append]; omega
    · have := hb r hr hn; omega
  · intro r hr hn
    rw [← List.append_assoc] at hr
    exact hs r (run_suffix hr hn) hn

theorem sanitizeLoop_spec (cap : Nat) : ∀ (rest out : List Byte), Wrapped out → out.length + rest.length + (rest.length + 64) / 65 ≤ cap →
    ∃ add, sanitizeLoop cap rest out = .ok (out ++ add) ∧ OnlyLfsAdded rest add ∧ Wrapped (out ++ add) ∧ add.length ≤ rest.length + (rest.length + 64) / 65 := by
  intro rest
  induction hn : rest.length using Nat.strongRecOn generalizing rest with
  | ind n ih =>
    intro out hw hcap
    unfold sanitizeLoop
    by_cases hr : rest = []
    · rw [dif_pos hr]
      subst hr
      exact ⟨[], by rw [List.append_nil], .refl _, by rw [List.append_nil]; exact hw, Nat.zero_le _⟩
    · rw [dif_neg hr]
      have hpos : 0 < rest.length := List.length_pos_iff.2 hr
      have hc0 : rest.take bufSize ≠ [] := by
        intro e
        have := congrArg List.length e
        simp only [List.length_take, List.length_nil, bufSize] at this
        omega
      obtain ⟨h1, h2, a, b, h3, h4, h5, h6⟩ := chunk_spec hc0 (by simp only [List.length_take]; omega)
      have hlt : (rest.take bufSize).length = min 65 n := by rw [List.length_take, hn]
      have hld : (rest.drop bufSize).length = n - 65 := by rw [List.length_drop, hn]
      have happ : append cap out (sanitizeChunk (rest.take bufSize)) = .ok (out ++ sanitizeChunk (rest.take bufSize)) := by
        unfold append
        rw [if_pos]
        omega
      rw [happ]
      simp only
      have hw' : Wrapped (out ++ sanitizeChunk (rest.take bufSize)) := by rw [h3]; exact hw.append h4 h5 h6
      obtain ⟨add, e, h7, h8, h9⟩ := ih (n - 65) (by omega) (rest.drop bufSize) hld _ hw' (by rw [List.length_append]; omega)
      refine ⟨sanitizeChunk (rest.take bufSize) ++ add, ?_, ?_, ?_, ?_⟩
      · rw [e, List.append_assoc]
      · have := h2.append h7
        rwa [List.take_append_drop] at this
      · rw [← List.append_assoc]; exact h8
      · rw [List.length_append]; omega

theorem publishLoop_spec (cap : Nat) : ∀ (rest out : List Byte), rest ≠ [] → out.length + rest.length + (rest.length + 64) / 65 ≤ cap + 1 →
    ∃ add, publishLoop cap rest out = .ok (out ++ add) ∧ OnlyLfsAdded rest add ∧ add.length = rest.length + (rest.length - 1) / 65 ∧
      MaxLine 65 add := by
  intro rest
  induction hn : rest.length using Nat.strongRecOn generalizing rest with
  | ind n ih =>
    intro out hr hcap
    unfold publishLoop
    rw [dif_neg hr]
    have hpos : 0 < rest.length := List.length_pos_iff.2 hr
    have hlt : (rest.take bufSize).length = min 65 n := by rw [List.length_take, hn]
    have hld : (rest.drop bufSize).length = n - 65 := by rw [List.length_drop, hn]
    have happ : append cap out (rest.take bufSize) = .ok (out ++ rest.take bufSize) := by
      unfold append
      rw [if_pos]
      omega
    rw [happ]
    simp only
    by_cases hd : rest.drop bufSize = []
    · rw [if_pos hd]
      have hn65 : n ≤ 65 := by rw [hd] at hld; simp at hld; omega
      have ht : rest.take bufSize = rest := List.take_of_length_le (by rw [hn]; exact hn65)
      refine ⟨rest, by rw [ht], .refl _, by omega, ?_⟩
      intro r hr' _
      have := hr'.length_le
      omega
    · rw [if_neg hd]
      have hd' : 0 < (rest.drop bufSize).length := List.length_pos_iff.2 hd
      have happ2 : append cap (out ++ rest.take bufSize) [lf] = .ok (out ++ rest.take bufSize ++ [lf]) := by
        unfold append
        rw [if_pos]
        rw [List.length_append, List.length_singleton]
        omega
      rw [happ2]
      simp only
      obtain ⟨add, e, h7, h8, h9⟩ := ih (n - 65) (by omega) (rest.drop bufSize) hld (out ++ rest.take bufSize ++ [lf]) hd
        (by simp only [List.length_append, List.length_singleton]; omega)
      refine ⟨rest.take bufSize ++ lf :: add, ?_, ?_, ?_, ?_⟩
      · rw [e]; simp
      · have h10 : OnlyLfsAdded (rest.take bufSize) (rest.take bufSize ++ [lf]) := ⟨List.sublist_append_left .., by simp⟩
        have := h10.append h7
        rw [List.take_append_drop] at this
        simpa using this
      · rw [List.length_append, List.length_cons]; omega
      · intro r hr' hn'
        rcases run_infix hr' hn' with h | h
        · have := h.length_le; omega
        · exact h9 r h hn'

theorem dropWhile_nil {p : Byte → Bool} {l : List Byte} : l.dropWhile p = [] ↔ ∀ c ∈ l, p c = true := by
  induction l with
  | nil => simp
  | cons c l ih =>
    rw [List.dropWhile_cons]
    cases h : p c with
    | true => simp [h, ih]
    | false => simp [h]

/-! ### Theorems -/

/-- **C55.** Whatever follows the blank line of a TAL, nothing is written outside of the buffer (the NUL included), the result is
the same text with additional LFs, and none of its lines has more than 65 characters. -/
theorem C55_tal_partial (key : List Byte) : ∃ out, base64Sanitize key = .ok out ∧ OnlyLfsAdded key out ∧ MaxLine 65 out := by
  unfold base64Sanitize
  obtain ⟨add, h1, h2, h3, h4⟩ := sanitizeLoop_spec (key.length + key.length / bufSize + 1) key [] .nil
    (by simp only [List.length_nil, bufSize]; omega)
  rw [List.nil_append] at h1 h3
  simp only
  rw [h1]
  simp only
  rw [if_pos]
  · exact ⟨add, rfl, h2, h3.max⟩
  · by_cases h : add.length = key.length + key.length / bufSize
    · right; omega
    · exact .inl h

/-- **C55 (documentation).** The comment promises lines "no greater than 65 chars (including line feed)". Some have 66. -/
theorem C55_tal_refuted : ∃ key out, base64Sanitize key = .ok out ∧ ∃ run, run ++ [lf] <:+: out ∧ lf ∉ run ∧ ¬ (run ++ [lf]).length ≤ 65 := by
  obtain ⟨out, h1, h2, h3⟩ := C55_tal_partial (List.replicate 130 65#8)
  have h4 : base64Sanitize (List.replicate 130 65#8) =
      .ok (List.replicate 64 65#8 ++ lf :: (List.replicate 65 65#8 ++ lf :: [65#8])) := by decide +kernel
  refine ⟨_, _, h4, List.replicate 65 65#8, ⟨List.replicate 64 65#8 ++ [lf], [65#8], by decide +kernel⟩, by decide +kernel, by decide +kernel⟩

theorem publish_spec (content : Str) : ∃ r, publishSanitize content = .ok r ∧
    ((r = none ∧ ∀ c ∈ content, isSpace c = true) ∨
     (r = some content ∧ (∃ c ∈ content, isSpace c = false) ∧ (content.dropWhile isSpace).length ≤ 65) ∨
     (∃ out, r = some out ∧ 65 < (content.dropWhile isSpace).length ∧ OnlyLfsAdded (content.dropWhile isSpace) out ∧ MaxLine 65 out)) := by
  unfold publishSanitize
  simp only
  by_cases h : content.dropWhile isSpace = []
  · rw [if_pos h]
    exact ⟨none, rfl, .inl ⟨rfl, dropWhile_nil.1 h⟩⟩
  · rw [if_neg h]
    have hex : ∃ c ∈ content, isSpace c = false := by
      by_contra hn
      apply h
      rw [dropWhile_nil]
      intro c hc
      cases hs : isSpace c with
      | true => rfl
      | false => exact absurd ⟨c, hc, hs⟩ hn
    by_cases hl : (content.dropWhile isSpace).length ≤ bufSize
    · rw [if_pos hl]
      exact ⟨_, rfl, .inr (.inl ⟨rfl, hex, hl⟩)⟩
    · rw [if_neg hl]
      obtain ⟨add, h1, h2, h3, h4⟩ := publishLoop_spec ((content.dropWhile isSpace).length + (content.dropWhile isSpace).length / bufSize + 1)
        (content.dropWhile isSpace) [] h (by simp only [List.length_nil, bufSize]; omega)
      rw [List.nil_append] at h1
      rw [h1]
      simp only
      rw [if_pos (by rw [h3]; simp only [bufSize]; omega)]
      exact ⟨_, rfl, .inr (.inr ⟨add, rfl, Nat.not_le.1 hl, h2, h4⟩)⟩

/-- White space: blank, TAB, LF, VT, FF and CR. -/
def White (c : Byte) : Prop := c = 32#8 ∨ c = 9#8 ∨ c = 10#8 ∨ c = 11#8 ∨ c = 12#8 ∨ c = 13#8

theorem isSpace_iff : ∀ c : Byte, isSpace c = true ↔ White c := by unfold White; decide +kernel

/-- The text without its leading white space: what's left after the longest prefix that is only that. -/
def Trimmed (content tmp : Str) : Prop := ∃ pre, content = pre ++ tmp ∧ (∀ c ∈ pre, White c) ∧ ∀ c, tmp.head? = some c → ¬ White c

theorem trimmed_dropWhile (content : Str) : Trimmed content (content.dropWhile isSpace) := by
  refine ⟨content.takeWhile isSpace, (List.takeWhile_append_dropWhile).symm, ?_, ?_⟩
  · intro c hc
    exact (isSpace_iff c).1 (List.all_eq_true.1 List.all_takeWhile c hc)
  · intro c hc hw
    have := List.head?_dropWhile_not isSpace content
    rw [hc] at this
    simp only at this
    rw [(isSpace_iff c).2 hw] at this
    cases this

/-- **C55.** Whatever the text of a publish tag, nothing is written outside of the buffer. If it's only white space (or nothing) it's an error;
if it's no longer than 65 characters it's left alone; else the result is the text, without its leading white space and with additional LFs,
and none of its lines has more than 65 characters. -/
theorem C55_publish (content : Str) : ∃ r tmp, publishSanitize content = .ok r ∧ Trimmed content tmp ∧
    ((r = none ∧ ∀ c ∈ content, White c) ∨
     (r = some content ∧ (∃ c ∈ content, ¬ White c) ∧ tmp.length ≤ 65) ∨
     (∃ out, r = some out ∧ 65 < tmp.length ∧ OnlyLfsAdded tmp out ∧ MaxLine 65 out)) := by
  obtain ⟨r, h1, h2⟩ := publish_spec content
  refine ⟨r, _, h1, trimmed_dropWhile content, ?_⟩
  rcases h2 with ⟨h2, h3⟩ | ⟨h2, ⟨c, hc, h3⟩, h4⟩ | h2
  · exact .inl ⟨h2, fun c hc => (isSpace_iff c).1 (h3 c hc)⟩
  · exact .inr (.inl ⟨h2, ⟨c, hc, fun hw => by rw [(isSpace_iff c).2 hw] at h3; cases h3⟩, h4⟩)
  · exact .inr (.inr h2)

/-- "AB\nC" -/
example : base64Sanitize [65#8, 66#8, lf, 67#8] = .ok [65#8, 66#8, lf, 67#8, lf] := by decide +kernel

/-- White space at the start is removed only from texts which are long. -/
example : publishSanitize (32#8 :: List.replicate 66 65#8) = .ok (some (List.replicate 65 65#8 ++ [lf, 65#8])) ∧
    publishSanitize [32#8, 65#8] = .ok (some [32#8, 65#8]) ∧ publishSanitize [32#8, lf] = .ok none := by decide +kernel

end Verif.Tal
