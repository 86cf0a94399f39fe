import Verif.Asn.Sound
/-
The decoder ends and stays in bounds.
-/
namespace Verif.Asn
open Verif.Res (Byte be)

mutual
/-- No CHOICE has a tag of its own, or is tagged from outside (`m`). -/
def Ty.Calm : Ty → Mode → Prop
  | .prim _ _, _ => True
  | .str _ _ _, _ => True
  | .seq _ ms, _ => ms.Calm
  | .setOf _ _ el, _ => el.Calm .none
  | .choice tags as, m => m = .none ∧ tags = [] ∧ as.Calm

def Mems.Calm : Mems → Prop
  | .nil => True
  | .cons h ty rest => ty.Calm h.mode ∧ rest.Calm
end

/-- No crash, and if the flag is set, it ends. -/
def Good (b : Bool) {α : Type} (r : R α) : Prop := r ≠ .crash ∧ (b = true → r ≠ .hang)

theorem Safe.good {b : Bool} {α : Type} {r : R α} (h : Safe r) : Good b r := ⟨h.2, fun _ => h.1⟩

theorem good_andThen {b : Bool} {α β : Type} {r : R α} {f : α → Nat → R β} (h : Good b r) (hf : ∀ v n, r = .ok v n → Good b (f v n)) : Good b (r.andThen f) := by
  cases r with
  | ok v n => exact hf v n rfl
  | more => exact ⟨by simp [R.andThen], by simp [R.andThen]⟩
  | fail => exact ⟨by simp [R.andThen], by simp [R.andThen]⟩
  | hang => exact ⟨by simp [R.andThen], fun hb => absurd rfl (h.2 hb)⟩
  | crash => exact absurd rfl h.1

theorem good_frame {b v : Bool} {α : Type} {r : R α} (h : Good b r) : Good b (r.frame v) := by
  cases r with
  | more => cases v <;> exact ⟨by simp [R.frame], by simp [R.frame]⟩
  | ok v n => exact h
  | fail => exact h
  | hang => exact h
  | crash => exact h

theorem good_ok {b : Bool} {α : Type} {v : α} {n : Nat} : Good b (R.ok v n) := ⟨by simp, by simp⟩
theorem good_more {b : Bool} {α : Type} : Good b (R.more : R α) := ⟨by simp, by simp⟩
theorem good_fail {b : Bool} {α : Type} : Good b (R.fail : R α) := ⟨by simp, by simp⟩

theorem fetchTag_ne {s : List Byte} {t n : Nat} (h : fetchTag s = .ok t n) : s ≠ [] := by rintro rfl; cases h

theorem view_ne {left : Left} {s : List Byte} (h : view left s ≠ []) : s ≠ [] := by
  rintro rfl
  cases left <;> simp [view] at h

theorem seqEocs_good (b : Bool) : ∀ (k : Nat) (s : List Byte), Good b (seqEocs k s) := by
  intro k
  induction k with
  | zero => intro s; unfold seqEocs; exact good_ok
  | succ k ih =>
    intro s
    unfold seqEocs
    cases hf : fetchTag s with
    | more => exact good_more
    | bad => exact good_fail
    | ok t n =>
      simp only
      cases s with
      | nil => cases hf
      | cons b0 s =>
        cases s with
        | nil => simp only; split; exacts [good_more, good_fail]
        | cons b1 s =>
          simp only
          split
          · exact good_andThen (ih s) (fun _ _ _ => good_ok)
          · exact good_fail

theorem setEocs_good (b : Bool) : ∀ (k : Nat) (s : List Byte), Good b (setEocs k s) := by
  intro k
  induction k with
  | zero => intro s; unfold setEocs; exact good_ok
  | succ k ih =>
    intro s
    cases s with
    | nil => unfold setEocs; exact good_more
    | cons b0 s =>
      cases s with
      | nil => unfold setEocs; split; exacts [good_fail, good_more]
      | cons b1 s =>
        unfold setEocs
        split
        · exact good_andThen (ih s) (fun _ _ _ => good_ok)
        · exact good_fail

theorem choiceEocs_good : ∀ (k : Nat) (s : List Byte), Good false (choiceEocs k s) := by
  intro k
  induction k with
  | zero => intro s; unfold choiceEocs; exact good_ok
  | succ k ih =>
    intro s
    unfold choiceEocs
    cases hf : fetchTag s with
    | more => exact good_more
    | bad => exact good_fail
    | ok t n =>
      simp only
      cases s with
      | nil => cases hf
      | cons b0 s =>
        cases s with
        | nil => simp only; split; exacts [good_more, good_fail]
        | cons b1 s =>
          simp only
          split
          · split
            · exact good_andThen (ih s) (fun _ _ _ => good_ok)
            · exact ⟨by simp, by simp⟩
          · exact good_fail

theorem seqEnd_good (b : Bool) (left : Left) (s : List Byte) : Good b (seqEnd left s) := by
  cases left with
  | defn L =>
    cases L with
    | zero => exact good_ok
    | succ L =>
      simp only [seqEnd]
      repeat' split
      all_goals first | exact good_fail | exact good_more
  | indef k => exact seqEocs_good b k s

theorem eocAt_ne_crash {left : Left} {s : List Byte} (h : s ≠ []) : eocAt left s ≠ .crash := by
  cases left with
  | defn L => simp [eocAt]
  | indef k =>
    cases s with
    | nil => exact absurd rfl h
    | cons b0 s =>
      cases s with
      | nil => simp only [eocAt]; split <;> simp
      | cons b1 s => simp only [eocAt]; split <;> simp

theorem eocAt_yes {left : Left} {s : List Byte} (h : eocAt left s = .yes) : ∃ k, left = .indef k := by
  cases left with
  | defn L => simp [eocAt] at h
  | indef k => exact ⟨k, rfl⟩

theorem sync_ne_crash (hs : List Head) (left : Left) (s : List Byte) : sync hs left s ≠ .crash := by
  unfold sync
  split
  · simp
  · cases hf : fetchTag (view left s) with
    | more => simp only; split <;> simp
    | bad => simp
    | ok tag tl =>
      simp only
      have := eocAt_ne_crash (left := left) (view_ne (fetchTag_ne hf))
      cases he : eocAt left s with
      | crash => exact absurd he this
      | more => simp
      | yes => simp only; repeat' split
               all_goals simp
      | no => simp only; repeat' split
              all_goals simp

theorem setLoop_good {b : Bool} {dec' : List Byte → R Val} {tag : Option Tag} (hd : ∀ s, Good b (dec' s))
    (hp : ∀ s v n, dec' s = .ok v n → 2 ≤ n ∧ n ≤ s.length) : ∀ (f : Nat) (left : Left) (s : List Byte), s.length < f → Good b (setLoop dec' tag f left s) := by
  intro f
  induction f with
  | zero => intro left s h; omega
  | succ f ih =>
    intro left s h
    unfold setLoop
    split
    · exact good_ok
    · cases hf : fetchTag (view left s) with
      | more => simp only; split; exacts [good_fail, good_more]
      | bad => exact good_fail
      | ok t tl =>
        simp only
        have hne := eocAt_ne_crash (left := left) (view_ne (fetchTag_ne hf))
        cases he : eocAt left s with
        | crash => exact absurd he hne
        | more => exact good_more
        | yes =>
          obtain ⟨k, rfl⟩ := eocAt_yes he
          exact good_andThen (setEocs_good b k s) (fun _ _ _ => good_ok)
        | no =>
          simp only
          split
          · exact good_fail
          · refine good_andThen (good_frame (hd _)) ?_
            intro x n hx
            obtain ⟨p1, p2⟩ := hp _ _ _ (frame_ok hx)
            obtain ⟨-, p3, -⟩ := view_take p2
            refine good_andThen (ih _ _ ?_) (fun _ _ _ => good_ok)
            rw [List.length_drop]
            omega

theorem dec_good (b : Bool) (ty : Ty) : ∀ (m : Mode) (s : List Byte), ty.Ok → ¬ (ty.tags = [] ∧ m = .implicit) → (b = true → ty.Calm m) → Good b (dec ty m s) := by
  induction ty using Ty.rec
    (motive_2 := fun ms => ms.Ok → (b = true → ms.Calm) →
      (∀ (j : Option Nat) (left : Left) (s : List Byte), Good b (decMems ms j left s)) ∧
      (∀ (i : Nat) (tag : Tag) (s : List Byte), Good b (decAlts ms i tag s))) with
  | prim k tags => intro m s hok hne hcalm; unfold dec; exact (decPrim_safe hok).good
  | str k tags all => intro m s hok hne hcalm; unfold dec; exact (decStr_safe hne).good
  | seq tags ms ih =>
    intro m s hok hne hcalm
    unfold dec
    refine good_andThen (checkTags_safe hne).good ?_
    intro tl n _
    exact good_andThen ((ih hok.2 hcalm).1 _ _ _) (fun _ _ _ => good_ok)
  | setOf tags tag el ih =>
    intro m s hok hne hcalm
    unfold dec
    refine good_andThen (checkTags_safe hne).good ?_
    intro tl n _
    refine good_andThen ?_ (fun _ _ _ => good_ok)
    refine setLoop_good (fun s => ih .none s hok.2 (by simp) hcalm) ?_ _ _ _ (by rw [List.length_drop]; omega)
    intro s v n h
    obtain ⟨h1, h2, -⟩ := dec_sound hok.2 h .own rfl (by simp [Tagging.outer])
    exact ⟨h1, h2⟩
  | choice tags as ih =>
    intro m s hok hne hcalm
    unfold dec
    simp only
    refine good_andThen ?_ ?_
    · split
      · exact good_ok
      · exact (checkTags_safe hne).good
    · intro tl n htl
      split
      · split; exacts [good_fail, good_more]
      · exact good_fail
      · refine good_andThen (good_frame ((ih hok (fun hb => (hcalm hb).2.2)).2 _ _ _)) ?_
        intro x n' _
        refine good_andThen ?_ (fun _ _ _ => good_ok)
        cases hb : b with
        | true =>
          obtain ⟨h1, h2, -⟩ := hcalm hb
          have hu : (m = .none ∧ tags = []) := ⟨h1, h2⟩
          rw [decide_eq_true hu] at htl ⊢
          simp only [if_true] at htl
          cases htl
          simp only [Left.sub, choiceEnd, and_self, if_true]
          exact good_ok
        | false =>
          unfold choiceEnd
          split
          · split; exacts [good_fail, good_ok]
          · split; exacts [good_ok, choiceEocs_good _ _]
  | nil =>
    refine ⟨?_, ?_⟩
    · intro j left s
      unfold decMems
      exact good_andThen (seqEnd_good b _ _) (fun _ _ _ => good_ok)
    · intro i tag s
      unfold decAlts
      exact good_fail
  | cons hd ty rest ihty ihrest =>
    rename_i hok hcalm
    obtain ⟨hok1, hok2, hok3⟩ := hok
    have hty : ∀ s, Good b (dec ty hd.mode s) := fun s => ihty hd.mode s hok2 (fun h => hok1.2 h.2 h.1) (fun hb => (hcalm hb).1)
    obtain ⟨r1, r2⟩ := ihrest hok3 (fun hb => (hcalm hb).2)
    refine ⟨?_, ?_⟩
    · intro j left s
      unfold decMems
      have key : ∀ x : Sync, x ≠ .crash → Good b (match x with
            | .done => R.ok (none :: rest.heads.map fun _ => none) 0
            | .eoc => (seqEnd left s).andThen fun _ n => .ok (none :: rest.heads.map fun _ => none) n
            | .more => .more
            | .fail => .fail
            | .crash => .crash
            | .at 0 =>
              ((dec ty hd.mode (view left s)).frame (violation left s)).andThen fun x n =>
                (decMems rest none (left.sub n) (s.drop n)).andThen fun xs n' => .ok (some x :: xs) (n + n')
            | .at (k + 1) => (decMems rest (some k) left s).andThen fun xs n => .ok (none :: xs) n) := by
        intro x hx
        cases x with
        | done => exact good_ok
        | eoc => exact good_andThen (seqEnd_good b _ _) (fun _ _ _ => good_ok)
        | more => exact good_more
        | fail => exact good_fail
        | crash => exact absurd rfl hx
        | «at» k =>
          cases k with
          | zero => exact good_andThen (good_frame (hty _)) (fun _ _ _ => good_andThen (r1 _ _ _) (fun _ _ _ => good_ok))
          | succ k => exact good_andThen (r1 _ _ _) (fun _ _ _ => good_ok)
      cases j with
      | some k => exact key (.at k) (by simp)
      | none => exact key _ (sync_ne_crash _ _ _)
    · intro i tag s
      unfold decAlts
      split
      · exact good_andThen (hty _) (fun _ _ _ => good_ok)
      · exact r2 _ _ _

end Verif.Asn
