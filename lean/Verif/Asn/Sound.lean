import Verif.Asn.WF
/-
What is decoded is a value, and the bytes consumed encode it.
-/
namespace Verif.Asn
open Verif.Res (Byte be)
open Verif.Cms (berFetchLength Len isConstructed)

/-- So many bytes are the contents, and the ends of contents. -/
def Fill (left : Left) (s : List Byte) (n : Nat) (c : List Byte) : Prop :=
  n ≤ s.length ∧
  match left with
  | .defn L => n = L ∧ s.take n = c
  | .indef k => s.take n = c ++ List.replicate (2 * k) 0

theorem hdr_fill {ts : List Tag} {form : Bool} {left : Left} {s : List Byte} {h n : Nat} {c : List Byte} (hh : Hdr ts form left (s.take h))
    (hf : Fill left (s.drop h) n c) : Nest ts form c (s.take (h + n)) := by
  obtain ⟨hf1, hf2⟩ := hf
  rw [List.length_drop] at hf1
  cases left with
  | defn L =>
    obtain ⟨rfl, rfl⟩ := hf2
    have := hh ((s.drop h).take n) (by rw [List.length_take, List.length_drop]; omega)
    rwa [← List.take_add] at this
  | indef k =>
    obtain ⟨h1, h2, h3⟩ := hh
    subst h1
    simp only at hf2
    rw [List.take_add, hf2, ← List.append_assoc]
    exact h3 c

theorem view_take {left : Left} {s : List Byte} {n : Nat} (hn : n ≤ (view left s).length) : (view left s).take n = s.take n ∧ n ≤ s.length ∧ ∀ L, left = .defn L → n ≤ L := by
  cases left with
  | defn L =>
    simp only [view, List.length_take] at hn
    refine ⟨?_, by omega, ?_⟩
    · simp only [view, List.take_take]; rw [Nat.min_eq_left (by omega)]
    · intro L' hL; cases hL; omega
  | indef k => exact ⟨rfl, hn, by simp⟩

theorem fill_cons {left : Left} {s : List Byte} {n n' : Nat} {e : List Byte} (hn : n ≤ (view left s).length)
    (hf : Fill (left.sub n) (s.drop n) n' e) : Fill left s (n + n') ((view left s).take n ++ e) := by
  obtain ⟨h1, h2, h3⟩ := view_take hn
  obtain ⟨f1, f2⟩ := hf
  rw [List.length_drop] at f1
  refine ⟨by omega, ?_⟩
  rw [h1]
  cases left with
  | defn L =>
    simp only [Left.sub] at f2
    have := h3 L rfl
    refine ⟨by omega, ?_⟩
    rw [List.take_add, f2.2]
  | indef k =>
    simp only [Left.sub] at f2
    simp only
    rw [List.take_add, f2, List.append_assoc]

theorem andThen_ok {α β : Type} {r : R α} {f : α → Nat → R β} {w : β} {n : Nat} (h : r.andThen f = .ok w n) : ∃ v k, r = .ok v k ∧ f v k = .ok w n := by
  cases r with
  | ok v k => exact ⟨v, k, rfl, h⟩
  | more => cases h
  | fail => cases h
  | hang => cases h
  | crash => cases h

theorem frame_ok {α : Type} {b : Bool} {r : R α} {v : α} {n : Nat} (h : r.frame b = .ok v n) : r = .ok v n := by
  cases r with
  | more => cases b <;> cases h
  | ok v k => exact h
  | fail => cases h
  | hang => cases h
  | crash => cases h

/-! ### Ends of contents -/

theorem eocs_step {k n : Nat} {s : List Byte} (h : n ≤ s.length ∧ s.take n = List.replicate (2 * k) 0) :
    n + 2 ≤ (0 :: 0 :: s : List Byte).length ∧ (0 :: 0 :: s : List Byte).take (n + 2) = List.replicate (2 * (k + 1)) 0 := by
  obtain ⟨h1, h2⟩ := h
  refine ⟨by simp only [List.length_cons]; omega, ?_⟩
  rw [show 2 * (k + 1) = 2 * k + 1 + 1 by omega, List.replicate_succ, List.replicate_succ, ← h2]
  rfl

theorem seqEocs_sound : ∀ (k : Nat) (s : List Byte) (n : Nat), seqEocs k s = .ok () n → n ≤ s.length ∧ s.take n = List.replicate (2 * k) 0 := by
  intro k
  induction k with
  | zero => intro s n h; unfold seqEocs at h; cases h; simp
  | succ k ih =>
    intro s n h
    unfold seqEocs at h
    cases hf : fetchTag s with
    | more => rw [hf] at h; cases h
    | bad => rw [hf] at h; cases h
    | ok t tl =>
      rw [hf] at h
      simp only at h
      cases s with
      | nil => cases h
      | cons b0 s =>
        cases s with
        | nil => simp only at h; split at h <;> cases h
        | cons b1 s =>
          simp only at h
          by_cases hz : b0 = 0 ∧ b1 = 0
          · rw [if_pos hz] at h
            obtain ⟨u, j, h1, h2⟩ := andThen_ok h
            cases h2
            obtain ⟨rfl, rfl⟩ := hz
            exact eocs_step (ih s j h1)
          · rw [if_neg hz] at h; cases h

theorem setEocs_sound : ∀ (k : Nat) (s : List Byte) (n : Nat), setEocs k s = .ok () n → n ≤ s.length ∧ s.take n = List.replicate (2 * k) 0 := by
  intro k
  induction k with
  | zero => intro s n h; unfold setEocs at h; cases h; simp
  | succ k ih =>
    intro s n h
    cases s with
    | nil => unfold setEocs at h; cases h
    | cons b0 s =>
      cases s with
      | nil => unfold setEocs at h; split at h <;> cases h
      | cons b1 s =>
        unfold setEocs at h
        by_cases hz : b0 = 0 ∧ b1 = 0
        · rw [if_pos hz] at h
          obtain ⟨u, j, h1, h2⟩ := andThen_ok h
          cases h2
          obtain ⟨rfl, rfl⟩ := hz
          exact eocs_step (ih s j h1)
        · rw [if_neg hz] at h; cases h

theorem choiceEocs_sound : ∀ (k : Nat) (s : List Byte) (n : Nat), choiceEocs k s = .ok () n → n ≤ s.length ∧ s.take n = List.replicate (2 * k) 0 := by
  intro k
  induction k with
  | zero => intro s n h; unfold choiceEocs at h; cases h; simp
  | succ k ih =>
    intro s n h
    unfold choiceEocs at h
    cases hf : fetchTag s with
    | more => rw [hf] at h; cases h
    | bad => rw [hf] at h; cases h
    | ok t tl =>
      rw [hf] at h
      simp only at h
      cases s with
      | nil => cases h
      | cons b0 s =>
        cases s with
        | nil => simp only at h; split at h <;> cases h
        | cons b1 s =>
          simp only at h
          by_cases h0 : b0 = 0
          · rw [if_pos h0] at h
            by_cases h1 : b1 = 0
            · rw [if_pos h1] at h
              obtain ⟨u, j, h2, h3⟩ := andThen_ok h
              cases h3
              subst h0 h1
              exact eocs_step (ih s j h2)
            · rw [if_neg h1] at h; cases h
          · rw [if_neg h0] at h; cases h

theorem seqEnd_sound {left : Left} {s : List Byte} {n : Nat} (h : seqEnd left s = .ok () n) : Fill left s n [] := by
  cases left with
  | defn L =>
    cases L with
    | zero => unfold seqEnd at h; cases h; exact ⟨by simp, rfl, by simp⟩
    | succ L =>
      simp only [seqEnd] at h
      cases hf : fetchTag (s.take (L + 1)) <;> rw [hf] at h
      · cases h
      · simp only at h; split at h <;> cases h
      · cases h
  | indef k =>
    unfold seqEnd at h
    obtain ⟨h1, h2⟩ := seqEocs_sound k s n h
    exact ⟨h1, h2⟩

/-! ### The members of a SEQUENCE -/

theorem optCount_le (hs : List Head) : optCount hs ≤ hs.length := by
  induction hs with
  | nil => simp [optCount]
  | cons h hs ih =>
    unfold optCount
    split
    · simp only [List.length_cons]; omega
    · simp

theorem optCount_opt : ∀ (hs : List Head) (i : Nat), i < optCount hs → ∃ h, hs[i]? = some h ∧ h.opt = true := by
  intro hs
  induction hs with
  | nil => intro i h; simp [optCount] at h
  | cons a hs ih =>
    intro i h
    unfold optCount at h
    by_cases ha : a.opt = true
    · rw [if_pos ha] at h
      cases i with
      | zero => exact ⟨a, rfl, ha⟩
      | succ i => exact ih i (by omega)
    · rw [if_neg ha] at h; omega

/-- The member can have this tag. -/
def Head.Matches (h : Head) (tag : Tag) : Prop := h.tag = some tag ∨ h.any = true ∨ tag ∈ h.t2e

theorem linear_sound (tag : Tag) : ∀ (hs : List Head) (n i : Nat), linear tag hs n = .found i →
    ∃ j, i = n + j ∧ j < hs.length ∧ ∃ h, hs[j]? = some h ∧ h.Matches tag := by
  intro hs
  induction hs with
  | nil => intro n i h; unfold linear at h; cases h
  | cons a hs ih =>
    intro n i h
    unfold linear at h
    by_cases h1 : a.tag = some tag
    · rw [if_pos h1] at h; cases h; exact ⟨0, rfl, by simp, a, rfl, .inl h1⟩
    · rw [if_neg h1] at h
      by_cases h2 : a.any = true
      · rw [if_pos h2] at h; cases h; exact ⟨0, rfl, by simp, a, rfl, .inr (.inl h2)⟩
      · rw [if_neg h2] at h
        by_cases h3 : a.tag = none
        · rw [if_pos h3] at h; cases h
        · rw [if_neg h3] at h
          obtain ⟨j, rfl, hj, b, hb, hm⟩ := ih _ _ h
          exact ⟨j + 1, by omega, by simp only [List.length_cons]; omega, b, by simpa using hb, hm⟩

theorem best_sound (tag : Tag) : ∀ (hs : List Head) (n i : Nat), best tag hs n = some i →
    ∃ j, i = n + j ∧ j < hs.length ∧ ∃ h, hs[j]? = some h ∧ h.Matches tag := by
  intro hs
  induction hs with
  | nil => intro n i h; unfold best at h; cases h
  | cons a hs ih =>
    intro n i h
    unfold best at h
    cases hb : best tag hs (n + 1) with
    | some k =>
      rw [hb] at h
      cases h
      obtain ⟨j, rfl, hj, b, hb, hm⟩ := ih _ _ hb
      exact ⟨j + 1, by omega, by simp only [List.length_cons]; omega, b, by simpa using hb, hm⟩
    | none =>
      rw [hb] at h
      by_cases ht : tag ∈ a.t2e
      · rw [if_pos ht] at h; cases h; exact ⟨0, rfl, by simp, a, rfl, .inr (.inr ht)⟩
      · rw [if_neg ht] at h; cases h

theorem lookup_sound {hs : List Head} {tag : Tag} {k : Nat} (h : lookup hs tag = some k) :
    k ≤ optCount hs ∧ k < hs.length ∧ ∃ a, hs[k]? = some a ∧ a.Matches tag := by
  unfold lookup at h
  simp only at h
  have fin : ∀ q, q ≤ optCount hs + 1 → (∃ j, k = 0 + j ∧ j < (hs.take q).length ∧ ∃ a, (hs.take q)[j]? = some a ∧ a.Matches tag) →
      k ≤ optCount hs ∧ k < hs.length ∧ ∃ a, hs[k]? = some a ∧ a.Matches tag := by
    rintro q hq ⟨j, rfl, hj, a, ha, hm⟩
    rw [List.length_take] at hj
    rw [List.getElem?_take_of_lt (by omega)] at ha
    exact ⟨by omega, by omega, a, by simpa using ha, hm⟩
  have hp : (if optCount hs + 1 > hs.length then (hs.length, false) else if optCount hs + 1 > 8 then (8, true) else (optCount hs + 1, false)).1 ≤ optCount hs + 1 := by
    have := optCount_le hs
    split
    · simp only; omega
    · split
      · simp only; omega
      · simp
  generalize (if optCount hs + 1 > hs.length then (hs.length, false) else if optCount hs + 1 > 8 then (8, true) else (optCount hs + 1, false)) = p at h hp
  cases hl : linear tag (hs.take p.1) 0 with
  | found n => rw [hl] at h; cases h; exact fin _ hp (linear_sound _ _ _ _ hl)
  | ambiguous => rw [hl] at h; exact fin _ (Nat.le_refl _) (best_sound _ _ _ _ h)
  | nothing =>
    rw [hl] at h
    simp only at h
    cases hb : p.2 with
    | true => rw [hb] at h; exact fin _ (Nat.le_refl _) (best_sound _ _ _ _ h)
    | false => rw [hb] at h; cases h

/-- The next member is this one, and those before it are optional. -/
def JumpOk (hs : List Head) (j : Option Nat) (w : List Byte) : Prop :=
  ∀ k, j = some k → (∀ i, i < k → ∃ h, hs[i]? = some h ∧ h.opt = true) ∧ ∃ h tag, hs[k]? = some h ∧ FirstTag w tag ∧ h.Matches tag

theorem sync_sound {hs : List Head} {left : Left} {s : List Byte} :
    (sync hs left s = .done → left = .defn 0 ∧ optCount hs = hs.length) ∧
    (sync hs left s = .eoc → optCount hs = hs.length) ∧
    (∀ k, sync hs left s = .at k → JumpOk hs (some k) (view left s)) := by
  unfold sync
  by_cases h1 : left = .defn 0 ∧ optCount hs = hs.length
  · rw [if_pos h1]; exact ⟨fun _ => h1, by simp, by simp⟩
  · rw [if_neg h1]
    cases hf : fetchTag (view left s) with
    | more => simp only; split <;> simp
    | bad => simp
    | ok tag tl =>
      simp only
      have key : ∀ e : Eoc,
          ((if e = .yes ∧ optCount hs = hs.length then Sync.eoc else match lookup hs tag with | some k => Sync.at k | none => Sync.fail) = .done → left = .defn 0 ∧ optCount hs = hs.length) ∧
          ((if e = .yes ∧ optCount hs = hs.length then Sync.eoc else match lookup hs tag with | some k => Sync.at k | none => Sync.fail) = .eoc → optCount hs = hs.length) ∧
          (∀ k, (if e = .yes ∧ optCount hs = hs.length then Sync.eoc else match lookup hs tag with | some k => Sync.at k | none => Sync.fail) = .at k → JumpOk hs (some k) (view left s)) := by
        intro e
        by_cases h2 : e = .yes ∧ optCount hs = hs.length
        · rw [if_pos h2]; exact ⟨by simp, fun _ => h2.2, by simp⟩
        · rw [if_neg h2]
          cases hl : lookup hs tag with
          | none => simp
          | some k =>
            refine ⟨by simp, by simp, ?_⟩
            intro k' hk k'' hk'
            cases hk
            cases hk'
            obtain ⟨l1, l2, a, l3, l4⟩ := lookup_sound hl
            exact ⟨fun i hi => optCount_opt hs i (by omega), a, tag, l3, ⟨tl, hf⟩, l4⟩
      cases he : eocAt left s with
      | crash => simp
      | more => simp
      | yes => exact key .yes
      | no => exact key .no

theorem berMems_nones : ∀ (ms : Mems), (∀ i, i < ms.heads.length → ∃ h, ms.heads[i]? = some h ∧ h.opt = true) →
    BerMems ms (ms.heads.map fun _ => none) [] := by
  intro ms
  induction ms using Mems.rec (motive_1 := fun _ => True) with
  | prim => trivial
  | str => trivial
  | seq => trivial
  | setOf => trivial
  | choice => trivial
  | nil => intro _; unfold BerMems; exact ⟨rfl, rfl⟩
  | cons h ty rest _ ih =>
    intro hopt
    unfold BerMems
    refine .inl ⟨?_, _, rfl, ih ?_⟩
    · obtain ⟨a, ha, ho⟩ := hopt 0 (by simp [Mems.heads])
      simp [Mems.heads] at ha
      subst ha
      exact ho
    · intro i hi
      have := hopt (i + 1) (by simp [Mems.heads]; exact hi)
      simpa [Mems.heads] using this

theorem matches_tag {h : Head} {tags : List Tag} {w : List Byte} {tag : Tag} (hok : h.Ok tags) (hf : FirstTag w tag) (hm : h.Matches tag) :
    ∀ t, h.tagging.outer = some t → FirstTag w t := by
  intro t ht
  obtain ⟨h1, h2⟩ := (head_tagging hok).2 t ht
  obtain ⟨h3, t', h4, h5⟩ := hok.1 h2
  rw [h1] at h4
  cases h4
  rcases hm with hm | hm | hm
  · rw [h1] at hm; cases hm; exact hf
  · rw [h3] at hm; cases hm
  · rw [h5 _ hm] at hf; exact hf

/-! ### SET OF -/

theorem setLoop_sound {el : Ty} {dec' : List Byte → R Val} {tag : Option Tag}
    (hd : ∀ s v n, dec' s = .ok v n → n ≤ s.length ∧ Ber el .own v (s.take n)) : ∀ (f : Nat) (left : Left) (s : List Byte) (vs : List Val) (n : Nat),
    setLoop dec' tag f left s = .ok vs n → ∃ cs, List.Forall₂ (fun x c => Ber el .own x c) vs cs ∧ Fill left s n cs.flatten := by
  intro f
  induction f with
  | zero => intro left s vs n h; unfold setLoop at h; cases h
  | succ f ih =>
    intro left s vs n h
    unfold setLoop at h
    by_cases h0 : left = .defn 0
    · rw [if_pos h0] at h
      cases h
      subst h0
      exact ⟨[], .nil, by simp, rfl, rfl⟩
    · rw [if_neg h0] at h
      cases hf : fetchTag (view left s) with
      | more => rw [hf] at h; simp only at h; split at h <;> cases h
      | bad => rw [hf] at h; cases h
      | ok t tl =>
        rw [hf] at h
        simp only at h
        cases he : eocAt left s with
        | crash => rw [he] at h; cases h
        | more => rw [he] at h; cases h
        | yes =>
          rw [he] at h
          cases left with
          | defn L => cases h
          | indef k =>
            simp only at h
            obtain ⟨u, j, h1, h2⟩ := andThen_ok h
            cases h2
            obtain ⟨h3, h4⟩ := setEocs_sound k s n h1
            exact ⟨[], .nil, h3, h4⟩
        | no =>
          rw [he] at h
          simp only at h
          by_cases ht : tag ≠ none ∧ tag ≠ some t
          · rw [if_pos ht] at h; cases h
          · rw [if_neg ht] at h
            obtain ⟨x, j, h1, h2⟩ := andThen_ok h
            obtain ⟨xs, j', h3, h4⟩ := andThen_ok h2
            cases h4
            obtain ⟨d1, d2⟩ := hd _ _ _ (frame_ok h1)
            obtain ⟨cs, e1, e2⟩ := ih _ _ _ _ h3
            exact ⟨_ :: cs, .cons d2 e1, fill_cons d1 e2⟩

/-! ### All types -/

theorem jump_tail {h : Head} {hs : List Head} {k : Nat} {w : List Byte} (hj : JumpOk (h :: hs) (some (k + 1)) w) : h.opt = true ∧ JumpOk hs (some k) w := by
  obtain ⟨h1, a, tag, h2, h3, h4⟩ := hj _ rfl
  obtain ⟨b, hb, ho⟩ := h1 0 (by omega)
  simp at hb
  subst hb
  refine ⟨ho, ?_⟩
  intro k' hk
  cases hk
  refine ⟨fun i hi => ?_, a, tag, by simpa using h2, h3, h4⟩
  have := h1 (i + 1) (by omega)
  simpa using this

theorem dec_sound_all (ty : Ty) : ty.Ok → ∀ (m : Mode) (s : List Byte) (v : Val) (n : Nat), dec ty m s = .ok v n → ∀ g : Tagging, g.mode = m →
    (∀ t, g.outer = some t → FirstTag s t) → 2 ≤ n ∧ n ≤ s.length ∧ Ber ty g v (s.take n) := by
  induction ty using Ty.rec
    (motive_2 := fun ms => ms.Ok →
      (∀ (j : Option Nat) (left : Left) (s : List Byte) (vs : List (Option Val)) (n : Nat), decMems ms j left s = .ok vs n →
        JumpOk ms.heads j (view left s) → ∃ c, BerMems ms vs c ∧ Fill left s n c) ∧
      (∀ (i : Nat) (tag : Tag) (s : List Byte) (v : Val) (n : Nat), decAlts ms i tag s = .ok v n → FirstTag s tag →
        2 ≤ n ∧ n ≤ s.length ∧ BerAlts ms i v (s.take n))) with
  | prim k tags =>
    intro hok m s v n h g hm hg
    unfold dec decPrim at h
    obtain ⟨tl, n0, h1, h2⟩ := andThen_ok h
    obtain ⟨c1, c2, c3, -, c4, -, -, -⟩ := checkTags_sound (fun h => hok h.1) h1 g hm hg
    rw [c3 false rfl] at c4
    cases hl : tl.left with
    | indef e => rw [hl] at h2; cases h2
    | defn len =>
      rw [hl] at h2 c4
      simp only at h2
      have fin : len ≤ (s.drop n0).length → Fill (.defn len) (s.drop n0) len ((s.drop n0).take len) := fun h => ⟨h, rfl, rfl⟩
      cases k with
      | null =>
        simp only at h2
        by_cases h0 : len ≠ 0
        · rw [if_pos h0] at h2; cases h2
        · rw [if_neg h0] at h2
          cases h2
          have h0 : len = 0 := not_not.1 h0
          subst h0
          refine ⟨c1, c2, ?_⟩
          unfold Ber
          exact ⟨[], by simpa using hdr_fill c4 (fin (by simp)), rfl, rfl⟩
      | plain =>
        simp only at h2
        by_cases h0 : len > (s.drop n0).length
        · rw [if_pos h0] at h2; cases h2
        · rw [if_neg h0] at h2
          cases h2
          have := List.length_drop (l := s) (i := n0)
          refine ⟨by omega, by omega, ?_⟩
          unfold Ber
          exact ⟨_, hdr_fill c4 (fin (by omega)), rfl⟩
      | bool =>
        simp only at h2
        by_cases h0 : len > (s.drop n0).length
        · rw [if_pos h0] at h2; cases h2
        · rw [if_neg h0] at h2
          cases h2
          have := List.length_drop (l := s) (i := n0)
          refine ⟨by omega, by omega, ?_⟩
          unfold Ber
          refine ⟨_, hdr_fill c4 (fin (by omega)), ?_⟩
          unfold PrimVal
          simp only
          generalize (s.drop n0).take len = c
          clear fin c4 h1 h hl
          induction c with
          | nil => left; simp
          | cons a c ih =>
            by_cases ha : a = 0
            · subst ha
              rcases ih with ⟨i1, i2⟩ | ⟨zs, x, r, i1, i2, i3, i4⟩
              · left
                refine ⟨?_, by simpa using i2⟩
                intro x hx
                rcases List.mem_cons.1 hx with rfl | hx
                · rfl
                · exact i1 x hx
              · right
                refine ⟨0 :: zs, x, r, by rw [i1]; rfl, ?_, i3, by simpa using i4⟩
                intro z hz
                rcases List.mem_cons.1 hz with rfl | hz
                · rfl
                · exact i2 z hz
            · right
              exact ⟨[], a, c, rfl, by simp, ha, by rw [List.find?_cons_of_pos (by simpa using ha)]; rfl⟩
  | str k tags all =>
    intro hok m s v n h g hm hg
    unfold dec at h
    exact decStr_sound hok h g hm hg
  | seq tags ms ih =>
    intro hok m s v n h g hm hg
    unfold dec at h
    obtain ⟨tl, n0, h1, h2⟩ := andThen_ok h
    obtain ⟨vs, n1, h3, h4⟩ := andThen_ok h2
    cases h4
    obtain ⟨c1, c2, c3, -, c4, -, -, -⟩ := checkTags_sound (fun h => hok.1 h.1) h1 g hm hg
    rw [c3 true rfl] at c4
    obtain ⟨c, e1, e2⟩ := (ih hok.2).1 _ _ _ _ _ h3 (by intro k hk; cases hk)
    have e3 := e2.1
    rw [List.length_drop] at e3
    refine ⟨by omega, by omega, ?_⟩
    unfold Ber
    exact ⟨c, vs, hdr_fill c4 e2, rfl, e1⟩
  | setOf tags tag el ih =>
    intro hok m s v n h g hm hg
    unfold dec at h
    obtain ⟨tl, n0, h1, h2⟩ := andThen_ok h
    obtain ⟨vs, n1, h3, h4⟩ := andThen_ok h2
    cases h4
    obtain ⟨c1, c2, c3, -, c4, -, -, -⟩ := checkTags_sound (fun h => hok.1 h.1) h1 g hm hg
    rw [c3 true rfl] at c4
    obtain ⟨cs, e1, e2⟩ := setLoop_sound (el := el) (fun s v n h => (ih hok.2 _ s v n h .own rfl (by simp [Tagging.outer])).2) _ _ _ _ _ h3
    have e3 := e2.1
    rw [List.length_drop] at e3
    refine ⟨by omega, by omega, ?_⟩
    unfold Ber
    exact ⟨cs, vs, hdr_fill c4 e2, rfl, e1⟩
  | choice tags as ih =>
    intro hok m s v n h g hm hg
    unfold dec at h
    simp only at h
    obtain ⟨tl, n0, h1, h2⟩ := andThen_ok h
    cases hf : fetchTag (view tl.left (s.drop n0)) with
    | more => rw [hf] at h2; simp only at h2; split at h2 <;> cases h2
    | bad => rw [hf] at h2; cases h2
    | ok tag tlen =>
      rw [hf] at h2
      simp only at h2
      obtain ⟨x, n1, h3, h4⟩ := andThen_ok h2
      obtain ⟨u, n2, h5, h6⟩ := andThen_ok h4
      cases h6
      obtain ⟨d1, d2, d3⟩ := (ih hok).2 _ _ _ _ _ (frame_ok h3) ⟨tlen, hf⟩
      by_cases hu : m = .none ∧ tags = []
      · rw [decide_eq_true hu] at h1 h5
        simp only [if_true] at h1
        cases h1
        simp only [Left.sub, choiceEnd, and_self, if_true] at h5
        cases h5
        obtain ⟨hm', rfl⟩ := hu
        have hg' : g = .own := by cases g <;> subst hm <;> first | rfl | cases hm'
        subst hg'
        simp only [view, List.drop_zero] at d2 d3
        refine ⟨by omega, by omega, ?_⟩
        unfold Ber
        refine ⟨s.take n1, true, ?_, by simpa using d3⟩
        simp [Tagging.tags, Nest]
      · rw [decide_eq_false hu] at h1 h5
        simp only [Bool.false_eq_true, if_false] at h1
        obtain ⟨c1, c2, -, -, c4, -, -, -⟩ := checkTags_sound (fun h => hu ⟨h.2, h.1⟩) h1 g hm hg
        have hend : Fill (tl.left.sub n1) ((s.drop n0).drop n1) n2 [] := by
          cases hl : tl.left with
          | defn L =>
            rw [hl] at h5
            simp only [Left.sub, choiceEnd] at h5 ⊢
            by_cases h0 : L - n1 > 0
            · rw [if_pos h0] at h5; cases h5
            · rw [if_neg h0] at h5
              cases h5
              exact ⟨by simp, by omega, by simp⟩
          | indef k =>
            rw [hl] at h5
            simp only [Left.sub, choiceEnd, Bool.false_eq_true, and_false, if_false] at h5 ⊢
            obtain ⟨a1, a2⟩ := choiceEocs_sound _ _ _ h5
            exact ⟨a1, a2⟩
        have hfill := fill_cons d2 hend
        rw [List.append_nil] at hfill
        have e3 := hfill.1
        rw [List.length_drop] at e3
        refine ⟨by omega, by omega, ?_⟩
        unfold Ber
        refine ⟨_, tl.form, ?_, d3⟩
        rw [Nat.add_assoc]
        exact hdr_fill c4 hfill
  | nil =>
    refine ⟨?_, ?_⟩
    · intro j left s vs n h hj
      unfold decMems at h
      obtain ⟨u, n1, h1, h2⟩ := andThen_ok h
      cases h2
      exact ⟨[], by unfold BerMems; exact ⟨rfl, rfl⟩, seqEnd_sound h1⟩
    · intro i tag s v n h _
      unfold decAlts at h
      cases h
  | cons hd ty rest ihty ihrest =>
    rename_i hok
    obtain ⟨hok1, hok2, hok3⟩ := hok
    refine ⟨?_, ?_⟩
    · intro j left s vs n h hj
      unfold decMems at h
      have key : ∀ k, JumpOk (hd :: rest.heads) (some k) (view left s) →
          (match (Sync.at k) with
            | .done => R.ok (none :: rest.heads.map fun _ => none) 0
            | .eoc => (seqEnd left s).andThen fun _ n => .ok (none :: rest.heads.map fun _ => none) n
            | .more => .more
            | .fail => .fail
            | .crash => .crash
            | .at 0 =>
              ((dec ty hd.mode (view left s)).frame (violation left s)).andThen fun x n =>
                (decMems rest none (left.sub n) (s.drop n)).andThen fun xs n' => .ok (some x :: xs) (n + n')
            | .at (k + 1) => (decMems rest (some k) left s).andThen fun xs n => .ok (none :: xs) n) = .ok vs n →
          ∃ c, BerMems (.cons hd ty rest) vs c ∧ Fill left s n c := by
        intro k hj h
        cases k with
        | zero =>
          simp only at h
          obtain ⟨x, n1, h1, h2⟩ := andThen_ok h
          obtain ⟨xs, n2, h3, h4⟩ := andThen_ok h2
          cases h4
          obtain ⟨-, a, tag, j1, j2, j3⟩ := hj 0 rfl
          simp at j1
          subst j1
          obtain ⟨d1, d2, d3⟩ := ihty hok2 _ _ _ _ (frame_ok h1) hd.tagging (head_tagging hok1).1 (matches_tag hok1 j2 j3)
          obtain ⟨c, e1, e2⟩ := (ihrest hok3).1 _ _ _ _ _ h3 (by intro k hk; cases hk)
          refine ⟨_, ?_, fill_cons d2 e2⟩
          unfold BerMems
          exact .inr ⟨x, xs, _, c, rfl, rfl, d3, e1⟩
        | succ k =>
          simp only at h
          obtain ⟨xs, n1, h1, h2⟩ := andThen_ok h
          cases h2
          obtain ⟨t1, t2⟩ := jump_tail hj
          obtain ⟨c, e1, e2⟩ := (ihrest hok3).1 _ _ _ _ _ h1 t2
          refine ⟨c, ?_, e2⟩
          unfold BerMems
          exact .inl ⟨t1, xs, rfl, e1⟩
      have nones : optCount (hd :: rest.heads) = (hd :: rest.heads).length → BerMems (.cons hd ty rest) (none :: rest.heads.map fun _ => none) [] := by
        intro ho
        exact berMems_nones (.cons hd ty rest) (fun i hi => optCount_opt _ i (by
          have : (Mems.cons hd ty rest).heads = hd :: rest.heads := rfl
          rw [this] at hi ⊢
          omega))
      cases j with
      | some k => exact key k hj h
      | none =>
        obtain ⟨s1, s2, s3⟩ := sync_sound (hs := hd :: rest.heads) (left := left) (s := s)
        simp only at h
        cases hs : sync (hd :: rest.heads) left s with
        | done =>
          rw [hs] at h
          cases h
          obtain ⟨rfl, ho⟩ := s1 hs
          exact ⟨[], nones ho, by simp, rfl, rfl⟩
        | eoc =>
          rw [hs] at h
          simp only at h
          obtain ⟨u, n1, h1, h2⟩ := andThen_ok h
          cases h2
          exact ⟨[], nones (s2 hs), seqEnd_sound h1⟩
        | «at» k => rw [hs] at h; exact key k (s3 k hs) h
        | more => rw [hs] at h; cases h
        | fail => rw [hs] at h; cases h
        | crash => rw [hs] at h; cases h
    · intro i tag s v n h hft
      unfold decAlts at h
      by_cases ht : tag ∈ hd.t2e
      · rw [if_pos ht] at h
        obtain ⟨x, n1, h1, h2⟩ := andThen_ok h
        cases h2
        obtain ⟨d1, d2, d3⟩ := ihty hok2 _ _ _ _ h1 hd.tagging (head_tagging hok1).1 (matches_tag hok1 hft (.inr (.inr ht)))
        refine ⟨d1, d2, ?_⟩
        unfold BerAlts
        exact .inl ⟨x, rfl, d3⟩
      · rw [if_neg ht] at h
        obtain ⟨d1, d2, d3⟩ := (ihrest hok3).2 _ _ _ _ _ h hft
        refine ⟨d1, d2, ?_⟩
        unfold BerAlts
        exact .inr d3

theorem dec_sound {ty : Ty} (hok : ty.Ok) {m : Mode} {s : List Byte} {v : Val} {n : Nat} (h : dec ty m s = .ok v n) (g : Tagging) (hm : g.mode = m)
    (hg : ∀ t, g.outer = some t → FirstTag s t) : 2 ≤ n ∧ n ≤ s.length ∧ Ber ty g v (s.take n) := dec_sound_all ty hok m s v n h g hm hg

end Verif.Asn
