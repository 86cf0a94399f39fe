import Verif.Asn.StrLemmas
/-
Strings: the loop ends, and no byte out of bounds is read.
-/
namespace Verif.Asn
open Verif.Res (Byte be)
open Verif.Cms (berFetchLength Len isConstructed)

/-- Neither of the two. -/
def Safe {α : Type} (r : R α) : Prop := r ≠ .hang ∧ r ≠ .crash

theorem finalize_safe (k : StrKind) (b : List Byte) (u n : Nat) : Safe (finalize k b u n) := by
  unfold finalize Safe
  repeat' split
  all_goals exact ⟨by simp, by simp⟩

theorem fetchLen_pos {c : Bool} {s : List Byte} (h1 : berFetchLength c s ≠ .more) : 1 ≤ s.length := by
  cases s with
  | nil => exact absurd rfl h1
  | cons b s => simp

theorem strPush_safe {k : StrKind} {m : Mode} {next : List Frame → List Byte → Str → Nat → R Val} {stk : List Frame} {rm : Option Nat}
    {w s : List Byte} {tl : Nat} {st : Str} {consumed : Nat} (htl : 1 ≤ tl) (hw : ∃ j, w = s.take j) (hs : tl ≤ s.length)
    (hnext : ∀ stk' s' st' consumed', 2 * s'.length + stk'.length + 3 ≤ 2 * s.length + stk.length → Safe (next stk' s' st' consumed')) :
    Safe (strPush k m next stk rm w s tl st consumed) := by
  obtain ⟨j, rfl⟩ := hw
  unfold strPush
  simp only
  cases hl : berFetchLength (isConstructed s) ((s.take j).drop tl) with
  | more => exact ⟨by simp, by simp⟩
  | bad => exact ⟨by simp, by simp⟩
  | indef =>
    have := fetchLen_pos (by rw [hl]; simp : berFetchLength (isConstructed s) ((s.take j).drop tl) ≠ .more)
    rw [List.length_drop, List.length_take] at this
    simp only
    split
    · exact ⟨by simp, by simp⟩
    · refine hnext _ _ _ _ ?_
      simp only [List.length_drop, List.length_cons]
      omega
  | defn ll v =>
    obtain ⟨h1, h2, -⟩ := fetchLen_sound hl
    rw [List.length_drop, List.length_take] at h2
    simp only
    split
    · exact ⟨by simp, by simp⟩
    · split
      · refine hnext _ _ _ _ ?_
        simp only [List.length_drop, List.length_cons]
        omega
      · split
        · exact ⟨by simp, by simp⟩
        · refine hnext _ _ _ _ ?_
          simp only [List.length_drop, List.length_cons]
          omega

theorem strLoop_safe (k : StrKind) (all : List Tag) (m : Mode) : ∀ (f : Nat) (stk : List Frame) (s : List Byte) (st : Str) (consumed : Nat),
    2 * s.length + stk.length < f → Safe (strLoop k all m f stk s st consumed) := by
  intro f
  induction f with
  | zero => intro stk s st consumed h; omega
  | succ f ih =>
    intro stk s st consumed h
    cases stk with
    | nil =>
      unfold strLoop
      cases hf : fetchTag s with
      | more => exact ⟨by simp, by simp⟩
      | bad => exact ⟨by simp, by simp⟩
      | ok tag tl =>
        obtain ⟨h1, h2, -⟩ := fetchTag_sound hf
        exact strPush_safe h1 ⟨s.length, by simp⟩ h2 (fun _ _ _ _ hlt => ih _ _ _ _ (by omega))
    | cons top below =>
      unfold strLoop
      by_cases hcl : top.left = some 0 ∧ top.nulls = false
      · rw [if_pos hcl]
        cases below with
        | nil => exact finalize_safe _ _ _ _
        | cons q below =>
          simp only
          split
          · exact ⟨by simp, by simp⟩
          · refine ih _ _ _ _ ?_
            simp only [List.length_cons] at h ⊢
            omega
      · rw [if_neg hcl]
        simp only
        obtain ⟨j, hj, -⟩ := room_take (l := top.left) (s := s)
        rw [hj]
        cases hf : fetchTag (s.take j) with
        | more => exact ⟨by simp, by simp⟩
        | bad => exact ⟨by simp, by simp⟩
        | ok tag tl =>
          obtain ⟨h1, h2, -⟩ := fetchTag_sound hf
          rw [List.length_take] at h2
          simp only
          have key : (berFetchLength (isConstructed s) ((s.take j).drop tl) = .more ∨ berFetchLength (isConstructed s) ((s.take j).drop tl) = .bad) ∨ 2 ≤ s.length := by
            by_cases hm : berFetchLength (isConstructed s) ((s.take j).drop tl) = .more
            · exact .inl (.inl hm)
            · have := fetchLen_pos hm
              rw [List.length_drop, List.length_take] at this
              exact .inr (by omega)
          rcases key with (hk | hk) | hk
          · rw [hk]; exact ⟨by simp, by simp⟩
          · rw [hk]; exact ⟨by simp, by simp⟩
          · have goal : Safe (match s with
              | b0 :: b1 :: rest =>
                if top.nulls = true ∧ b0 = 0 ∧ b1 = 0 then
                  strLoop k all m f (⟨some 0, top.got + 2, false⟩ :: below) rest (st.outer k m below.length [0, 0]) (consumed + 2)
                else if expected k all below.length ≠ none ∧ expected k all below.length ≠ some tag then .fail
                else strPush k m (strLoop k all m f) (top :: below) top.left (s.take j) s tl st consumed
              | _ => .crash) := by
              cases s with
              | nil => simp at hk
              | cons b0 s =>
                cases s with
                | nil => simp at hk
                | cons b1 rest =>
                  simp only
                  split
                  · refine ih _ _ _ _ ?_
                    simp only [List.length_cons] at h ⊢
                    omega
                  · split
                    · exact ⟨by simp, by simp⟩
                    · exact strPush_safe h1 ⟨j, rfl⟩ (by omega) (fun _ _ _ _ hlt => ih _ _ _ _ (by omega))
            cases hl : berFetchLength (isConstructed s) ((s.take j).drop tl) with
            | more => exact ⟨by simp, by simp⟩
            | bad => exact ⟨by simp, by simp⟩
            | indef => exact goal
            | defn ll v => exact goal

theorem andThen_safe {α β : Type} {r : R α} {f : α → Nat → R β} (h : Safe r) (hf : ∀ v n, r = .ok v n → Safe (f v n)) : Safe (r.andThen f) := by
  cases r with
  | ok v n => exact hf v n rfl
  | more => exact ⟨by simp [R.andThen], by simp [R.andThen]⟩
  | fail => exact ⟨by simp [R.andThen], by simp [R.andThen]⟩
  | hang => exact absurd rfl h.1
  | crash => exact absurd rfl h.2

theorem checkTags_safe {tags : List Tag} {m : Mode} {lf : Option Bool} {s : List Byte} (hne : ¬ (tags = [] ∧ m = .implicit)) :
    Safe (checkTags tags m lf s) := ⟨checkTags_ne_hang, checkTags_ne_crash hne⟩

/-- Any mode can be a tagging's. -/
def Mode.tagging (m : Mode) (t : Tag) : Tagging :=
  match m with
  | .none => .own
  | .implicit => .implicit t
  | .explicit => .explicit t

/-- The length is only indefinite if the element is constructed. -/
theorem checkTags_indef {tags : List Tag} {m : Mode} {lf : Option Bool} {s : List Byte} {tl : Tl} {n k : Nat}
    (h : checkTags tags m lf s = .ok tl n) (hl : tl.left = .indef k) : tl.form = true ∧ 1 ≤ k := by
  by_cases hne : tags = [] ∧ m = .none
  · obtain ⟨rfl, rfl⟩ := hne
    obtain ⟨-, -, -, -, tag, -, h3⟩ := anyTags_sound h
    rw [hl] at h3
    exact ⟨h3.1, by rw [h3.2.1]; simp⟩
  · cases hf : fetchTag s with
    | more | bad =>
      exfalso
      have h' : ∀ ch, ch ≠ [] → tagsLoop lf ch s none 0 0 false 0 ≠ .ok tl n := by
        intro ch hch h'
        cases ch with
        | nil => exact hch rfl
        | cons t rest => unfold tagsLoop at h'; rw [hf] at h'; cases h'
      unfold checkTags at h
      cases tags with
      | nil => cases m with
        | none => exact hne ⟨rfl, rfl⟩
        | implicit => cases h
        | explicit => exact h' _ (by simp [chain]) h
      | cons a l => cases m <;> exact h' _ (by simp [chain]) h
    | ok tag j =>
      obtain ⟨-, -, -, -, c5, -, -, -⟩ := checkTags_sound hne h (m.tagging tag) (by cases m <;> rfl) (by
        intro t ht
        cases m with
        | none => cases ht
        | implicit => cases ht; exact ⟨j, hf⟩
        | explicit => cases ht; exact ⟨j, hf⟩)
      rw [hl] at c5
      refine ⟨c5.1, ?_⟩
      rw [c5.2.1]
      cases m with
      | none =>
        cases tags with
        | nil => exact absurd ⟨rfl, rfl⟩ hne
        | cons a l => simp [Mode.tagging, Tagging.tags]
      | implicit => simp [Mode.tagging, Tagging.tags]
      | explicit => simp [Mode.tagging, Tagging.tags]

theorem decStr_safe {k : StrKind} {tags all : List Tag} {m : Mode} {s : List Byte} (hne : ¬ (tags = [] ∧ m = .implicit)) :
    Safe (decStr k tags all m s) := by
  unfold decStr
  refine andThen_safe (checkTags_safe hne) ?_
  intro tl n hc
  simp only
  by_cases hf : tl.form = true
  · rw [if_pos hf]
    exact strLoop_safe _ _ _ _ _ _ _ _ (by simp)
  · rw [if_neg hf]
    cases hl : tl.left with
    | indef e => exact absurd (checkTags_indef hc hl).1 hf
    | defn len =>
      simp only
      split
      · exact ⟨by simp, by simp⟩
      · exact finalize_safe _ _ _ _

/-- The last element has the form that was asked for. -/
theorem checkTags_form {tags : List Tag} {m : Mode} {f : Bool} {s : List Byte} {tl : Tl} {n k : Nat} (hne : tags ≠ [])
    (h : checkTags tags m (some f) s = .ok tl n) (hl : tl.left = .indef k) : f = true := by
  have h1 := (checkTags_indef h hl).1
  have h' : ∃ ch, ch ≠ [] ∧ tagsLoop (some f) ch s none 0 0 false 0 = .ok tl n := by
    cases tags with
    | nil => exact absurd rfl hne
    | cons a l => exact ⟨chain (a :: l) m, by cases m <;> simp [chain], by cases m <;> exact h⟩
  obtain ⟨ch, hch, h'⟩ := h'
  obtain ⟨_, _, _, _, _, _, _, h6, _⟩ := tagsLoop_sound _ _ _ _ _ _ _ _ _ _ hch h'
  rw [← h6 f rfl]
  exact h1

theorem decPrim_safe {k : PrimKind} {tags : List Tag} {m : Mode} {s : List Byte} (hne : tags ≠ []) : Safe (decPrim k tags m s) := by
  unfold decPrim
  refine andThen_safe (checkTags_safe (fun h => hne h.1)) ?_
  intro tl n hc
  cases hl : tl.left with
  | indef e => exact absurd (checkTags_form hne hc hl) (by simp)
  | defn len =>
    simp only
    repeat' split
    all_goals exact ⟨by simp, by simp⟩

end Verif.Asn
