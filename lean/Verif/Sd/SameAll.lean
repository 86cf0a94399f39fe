import Verif.Sd.SameStr
/-
All types: the decoder does not look at what follows.
-/
namespace Verif.Sd
open Verif.Res (Byte be)
open Verif.Cms (berFetchLength isConstructed)
open Verif.Asn

theorem tlvs_fetch {x : List Byte} (h : Tlvs .one x) : ∃ tag k, k ≤ x.length ∧ ∀ r, fetchTag (x ++ r) = .ok tag k := by
  cases h with
  | @defn tag c t l v h1 h2 =>
    refine ⟨tag, t.length, by simp, fun r => ?_⟩
    simp only [List.append_assoc]
    exact (fetchTag_complete h1 _).1
  | @indef tag t x h1 _ =>
    refine ⟨tag, t.length, by simp, fun r => ?_⟩
    simp only [List.append_assoc]
    exact (fetchTag_complete h1 _).1

theorem tlvs_take_fetch {s : List Byte} {n : Nat} (hn : n ≤ s.length) (h : Tlvs .one (s.take n)) : ∃ tag k, k ≤ n ∧ fetchTag s = .ok tag k := by
  obtain ⟨tag, k, h1, h2⟩ := tlvs_fetch h
  have := h2 (s.drop n)
  rw [List.take_append_drop] at this
  rw [List.length_take] at h1
  exact ⟨tag, k, by omega, this⟩

/-- There is a tag in the first bytes. -/
def Begins (s : List Byte) (n : Nat) : Prop := ∃ tag k, k ≤ n ∧ fetchTag s = .ok tag k

theorem dec_fetch (ty : Ty) : ty.Ok → ∀ (m : Mode) (s : List Byte) (v : Val) (n : Nat), dec ty m s = .ok v n → Begins s n := by
  induction ty using Ty.rec
    (motive_2 := fun ms => ms.Ok → ∀ (i : Nat) (tag : Tag) (s : List Byte) (v : Val) (n : Nat), decAlts ms i tag s = .ok v n → Begins s n) with
  | prim k tags =>
    intro _ m s v n h
    unfold dec decPrim at h
    obtain ⟨tl, n0, h1, h2⟩ := andThen_ok h
    obtain ⟨-, -, tag, j, a1, a2⟩ := checkTags_tag h1
    refine ⟨tag, j, ?_, a1⟩
    cases hl : tl.left with
    | indef e => rw [hl] at h2; cases h2
    | defn len =>
      rw [hl] at h2
      simp only at h2
      cases k <;> simp only at h2 <;> split at h2 <;> cases h2 <;> omega
  | str k tags all =>
    intro hok m s v n h
    unfold dec at h
    obtain ⟨-, d2, d3⟩ := decStr_tlvs hok h
    exact tlvs_take_fetch d2 d3
  | seq tags ms ih =>
    intro _ m s v n h
    unfold dec at h
    obtain ⟨tl, n0, h1, h2⟩ := andThen_ok h
    obtain ⟨vs, n1, h3, h4⟩ := andThen_ok h2
    cases h4
    obtain ⟨-, -, tag, j, a1, a2⟩ := checkTags_tag h1
    exact ⟨tag, j, by omega, a1⟩
  | setOf tags tag el ih =>
    intro _ m s v n h
    unfold dec at h
    obtain ⟨tl, n0, h1, h2⟩ := andThen_ok h
    obtain ⟨vs, n1, h3, h4⟩ := andThen_ok h2
    cases h4
    obtain ⟨-, -, tag, j, a1, a2⟩ := checkTags_tag h1
    exact ⟨tag, j, by omega, a1⟩
  | choice tags as ih =>
    intro hok m s v n h
    unfold dec at h
    simp only at h
    obtain ⟨tl, n0, h1, h2⟩ := andThen_ok h
    by_cases hu : decide (m = .none ∧ tags = []) = true
    · rw [if_pos hu] at h1
      cases h1
      simp only [view, List.drop_zero] at h2
      cases hf : fetchTag s with
      | more => rw [hf] at h2; simp only at h2; split at h2 <;> cases h2
      | bad => rw [hf] at h2; cases h2
      | ok tag tlen =>
        rw [hf] at h2
        simp only at h2
        obtain ⟨x, n1, h3, h4⟩ := andThen_ok h2
        obtain ⟨u, n2, h5, h6⟩ := andThen_ok h4
        cases h6
        obtain ⟨tg, kk, a1, a2⟩ := ih hok _ _ _ _ _ (frame_ok h3)
        exact ⟨tg, kk, by omega, a2⟩
    · rw [if_neg hu] at h1
      obtain ⟨-, -, tag, j, a1, a2⟩ := checkTags_tag h1
      refine ⟨tag, j, ?_, a1⟩
      cases hf : fetchTag (view tl.left (s.drop n0)) with
      | more => rw [hf] at h2; simp only at h2; split at h2 <;> cases h2
      | bad => rw [hf] at h2; cases h2
      | ok tag tlen =>
        rw [hf] at h2
        simp only at h2
        obtain ⟨x, n1, h3, h4⟩ := andThen_ok h2
        obtain ⟨u, n2, h5, h6⟩ := andThen_ok h4
        cases h6
        omega
  | nil =>
    rename_i h
    unfold decAlts at h
    cases h
  | cons hd ty rest ihty ihrest =>
    rename_i hok i tag s v n h
    obtain ⟨-, hok2, hok3⟩ := hok
    unfold decAlts at h
    by_cases ht : tag ∈ hd.t2e
    · rw [if_pos ht] at h
      obtain ⟨x, n1, h1, h2⟩ := andThen_ok h
      cases h2
      exact ihty hok2 _ _ _ _ h1
    · rw [if_neg ht] at h
      exact ihrest hok3 _ _ _ _ _ h

theorem dec_begins {ty : Ty} (hok : ty.Ok) {m : Mode} {s : List Byte} {v : Val} {n : Nat} (h : dec ty m s = .ok v n) :
    2 ≤ n ∧ n ≤ s.length ∧ Begins s n := by
  have hb := dec_fetch ty hok m s v n h
  have hb' := hb
  obtain ⟨tag, k, -, hf⟩ := hb'
  have hg : ∃ g : Tagging, g.mode = m ∧ (∀ t, g.outer = some t → FirstTag s t) := by
    cases m with
    | none => exact ⟨.own, rfl, by simp [Tagging.outer]⟩
    | implicit => exact ⟨.implicit tag, rfl, fun t ht => by cases ht; exact ⟨k, hf⟩⟩
    | explicit => exact ⟨.explicit tag, rfl, fun t ht => by cases ht; exact ⟨k, hf⟩⟩
  obtain ⟨g, hm, hg⟩ := hg
  obtain ⟨d1, d2, -⟩ := dec_sound hok h g hm hg
  exact ⟨d1, d2, hb⟩

theorem view_len {left : Left} {s : List Byte} : (view left s).length ≤ s.length := by
  cases left with
  | defn L => simp only [view, List.length_take]; omega
  | indef k => exact le_rfl

theorem sync_same {hs : List Head} {left : Left} {s s' : List Byte} {j tag tl : Nat} (hss : Same j s s') (h2 : 2 ≤ j) (hj : j ≤ (view left s).length)
    (hf : fetchTag (view left s) = .ok tag tl) (htl : tl ≤ j) : sync hs left s' = sync hs left s := by
  unfold sync
  rw [(fetchTag_same hf ((hss.view hj).le htl)).1, hf, eocAt_same (hss.le h2)]

theorem andThen_eq {α β : Type} {r : R α} {f : α → Nat → R β} {v : α} {n : Nat} (h : r = .ok v n) : r.andThen f = f v n := by subst h; rfl

theorem frame_eq {α : Type} {b : Bool} {r : R α} {v : α} {n : Nat} (h : r = .ok v n) : r.frame b = .ok v n := by subst h; rfl

theorem eocAt_zeros {left : Left} {s : List Byte} (h : eocAt left s = .yes) : ∃ k r, left = .indef k ∧ s = 0 :: 0 :: r := by
  cases left with
  | defn L => cases h
  | indef k =>
    match s, h with
    | [], h => cases h
    | [b], h => simp only [eocAt] at h; split at h <;> cases h
    | a :: b :: r, h =>
      simp only [eocAt] at h
      by_cases hz : a = 0 ∧ b = 0
      · obtain ⟨rfl, rfl⟩ := hz; exact ⟨k, r, rfl, rfl⟩
      · rw [if_neg hz] at h; cases h

theorem zeros_fetch (r : List Byte) : fetchTag ((0 : Byte) :: r) = .ok 0 1 := by
  rw [fetchTag_cons, if_pos (by decide)]; rfl

theorem setLoop_same {dec' : List Byte → R Val} {tag : Option Tag}
    (hd : ∀ s v n, dec' s = .ok v n → 2 ≤ n ∧ n ≤ s.length ∧ Begins s n)
    (hsm : ∀ s s' v n, dec' s = .ok v n → Same n s s' → dec' s' = .ok v n) : ∀ (f : Nat) (left : Left) (s : List Byte) (vs : List Val) (n : Nat),
    setLoop dec' tag f left s = .ok vs n → left ≠ .indef 0 →
    ∀ (f' : Nat) (s' : List Byte), Same n s s' → s'.length < f' → setLoop dec' tag f' left s' = .ok vs n := by
  intro f
  induction f with
  | zero => intro left s vs n h; unfold setLoop at h; cases h
  | succ f ih =>
    intro left s vs n h hi f' s' hs hlt
    obtain ⟨f', rfl⟩ : ∃ g, f' = g + 1 := ⟨f' - 1, by omega⟩
    unfold setLoop at h ⊢
    by_cases h0 : left = .defn 0
    · rw [if_pos h0] at h ⊢
      exact h
    · rw [if_neg h0] at h ⊢
      cases hf : fetchTag (view left s) with
      | more => rw [hf] at h; simp only at h; split at h <;> cases h
      | bad => rw [hf] at h; cases h
      | ok t tl =>
        rw [hf] at h
        simp only at h
        cases he : eocAt left s with
        | crash => rw [he] at h; cases h
        | more => rw [he] at h; cases h
        | yes =>
          rw [he] at h
          obtain ⟨k, r, rfl, rfl⟩ := eocAt_zeros he
          simp only at h
          obtain ⟨u, j, h1, h2⟩ := andThen_ok h
          cases h2
          have hz := zeros_split (setEocs_sound _ _ _ h1)
          have hk : k ≠ 0 := fun hk => hi (by rw [hk])
          have h2 : Same 2 (0 :: 0 :: r) s' := hs.le (by omega)
          simp only [view] at hf ⊢
          rw [zeros_fetch] at hf
          cases hf
          rw [(fetchTag_same (zeros_fetch _) (h2.le (by omega))).1]
          simp only
          rw [eocAt_same h2, he]
          simp only
          rw [andThen_eq (setEocs_same h1 hs)]
        | no =>
          rw [he] at h
          simp only at h
          by_cases ht : tag ≠ none ∧ tag ≠ some t
          · rw [if_pos ht] at h; cases h
          · rw [if_neg ht] at h
            obtain ⟨x, j, h1, h2⟩ := andThen_ok h
            obtain ⟨xs, j', h3, h4⟩ := andThen_ok h2
            cases h4
            have h1 := frame_ok h1
            obtain ⟨d0, d1, d2⟩ := hd _ _ _ h1
            obtain ⟨tg, kk, a1, a2⟩ := d2
            rw [hf] at a2
            cases a2
            have hsj := hs.le (k := j) (by omega)
            rw [(fetchTag_same hf ((hsj.view d1).le a1)).1]
            simp only
            rw [eocAt_same (hsj.le d0), he]
            simp only
            rw [if_neg ht, andThen_eq (frame_eq (hsm _ _ _ _ h1 (hsj.view d1)))]
            rw [andThen_eq (ih _ _ _ _ h3 (by cases left <;> simp [Left.sub] at hi ⊢; exact hi) f' (s'.drop j) hs.drop (by
              have := hs.right
              rw [List.length_drop]; omega))]

/-- **The decoder does not look at what follows the element.** -/
theorem dec_same (ty : Ty) : ty.Ok → ∀ (m : Mode) (s s' : List Byte) (v : Val) (n : Nat), dec ty m s = .ok v n →
    Same n s s' → dec ty m s' = .ok v n := by
  induction ty using Ty.rec
    (motive_2 := fun ms => ms.Ok →
      (∀ (j : Option Nat) (left : Left) (s s' : List Byte) (vs : List (Option Val)) (n : Nat), decMems ms j left s = .ok vs n →
        left ≠ .indef 0 → Same n s s' → decMems ms j left s' = .ok vs n) ∧
      (∀ (k : Nat) (left : Left) (s : List Byte) (vs : List (Option Val)) (n : Nat), k < ms.heads.length →
        decMems ms (some k) left s = .ok vs n → ∃ j, 2 ≤ j ∧ j ≤ n ∧ j ≤ (view left s).length ∧ Begins (view left s) j) ∧
      (∀ (i : Nat) (tag : Tag) (s s' : List Byte) (v : Val) (n : Nat), decAlts ms i tag s = .ok v n →
        2 ≤ n ∧ n ≤ s.length ∧ Begins s n ∧ (Same n s s' → decAlts ms i tag s' = .ok v n))) with
  | prim k tags =>
    intro hok m s s' v n h hs
    unfold dec decPrim at h ⊢
    obtain ⟨tl, n0, h1, h2⟩ := andThen_ok h
    cases hl : tl.left with
    | indef e => rw [hl] at h2; cases h2
    | defn len =>
      rw [hl] at h2
      simp only at h2
      have e1 := List.length_drop (l := s) (i := n0)
      have e2 := List.length_drop (l := s') (i := n0)
      have e3 := hs.right
      cases k with
      | null =>
        simp only at h2
        by_cases h0 : len ≠ 0
        · rw [if_pos h0] at h2; cases h2
        · rw [if_neg h0] at h2
          cases h2
          rw [andThen_eq (checkTags_same h1 hs), hl]
          simp only
          rw [if_neg h0]
      | plain =>
        simp only at h2
        by_cases h0 : len > (s.drop n0).length
        · rw [if_pos h0] at h2; cases h2
        · rw [if_neg h0] at h2
          cases h2
          rw [andThen_eq (checkTags_same h1 (hs.le (by omega))), hl]
          simp only
          rw [if_neg (by omega), hs.dropTake (by omega)]
      | bool =>
        simp only at h2
        by_cases h0 : len > (s.drop n0).length
        · rw [if_pos h0] at h2; cases h2
        · rw [if_neg h0] at h2
          cases h2
          rw [andThen_eq (checkTags_same h1 (hs.le (by omega))), hl]
          simp only
          rw [if_neg (by omega), hs.dropTake (by omega)]
  | str k tags all =>
    intro hok m s s' v n h hs
    unfold dec at h ⊢
    exact decStr_same hok h hs
  | seq tags ms ih =>
    intro hok m s s' v n h hs
    unfold dec at h ⊢
    obtain ⟨tl, n0, h1, h2⟩ := andThen_ok h
    obtain ⟨vs, n1, h3, h4⟩ := andThen_ok h2
    cases h4
    rw [andThen_eq (checkTags_same h1 (hs.le (by omega)))]
    rw [andThen_eq ((ih hok.2).1 _ _ _ _ _ _ h3 (fun hl => absurd (checkTags_indef h1 hl).2 (by decide)) hs.drop)]
  | setOf tags tag el ih =>
    intro hok m s s' v n h hs
    unfold dec at h ⊢
    obtain ⟨tl, n0, h1, h2⟩ := andThen_ok h
    obtain ⟨vs, n1, h3, h4⟩ := andThen_ok h2
    cases h4
    rw [andThen_eq (checkTags_same h1 (hs.le (by omega)))]
    rw [andThen_eq (setLoop_same (fun s v n h => dec_begins hok.2 h) (fun s s' v n h => ih hok.2 _ s s' v n h) _ _ _ _ _ h3
      (fun hl => absurd (checkTags_indef h1 hl).2 (by decide)) _ _ hs.drop (by rw [List.length_drop]; omega))]
  | choice tags as ih =>
    intro hok m s s' v n h hs
    unfold dec at h ⊢
    simp only at h ⊢
    obtain ⟨tl, n0, h1, h2⟩ := andThen_ok h
    cases hf : fetchTag (view tl.left (s.drop n0)) with
    | more => rw [hf] at h2; simp only at h2; split at h2 <;> cases h2
    | bad => rw [hf] at h2; cases h2
    | ok tag tlen =>
      rw [hf] at h2
      simp only at h2
      obtain ⟨x, n1, h3, h4⟩ := andThen_ok h2
      obtain ⟨u, n2, h5, h6⟩ := andThen_ok h4
      cases h6
      have h3 := frame_ok h3
      obtain ⟨d1, d2, d3, -⟩ := (ih hok).2.2 _ _ _ [] _ _ h3
      obtain ⟨tg, kk, a1, a2⟩ := d3
      rw [hf] at a2
      cases a2
      have hs0 : Same (n0 + (n1 + n2)) s s' := by rw [← Nat.add_assoc]; exact hs
      have hs1 := hs0.drop
      have hs2 := hs1.drop
      have hv := (hs1.le (k := n1) (by omega)).view d2
      have h1' : (if decide (m = .none ∧ tags = []) = true then R.ok ⟨false, .indef 1⟩ 0 else checkTags tags m none s') = .ok tl n0 := by
        by_cases hu : decide (m = .none ∧ tags = []) = true
        · rw [if_pos hu] at h1 ⊢; exact h1
        · rw [if_neg hu] at h1 ⊢; exact checkTags_same h1 (hs0.le (by omega))
      rw [andThen_eq h1', (fetchTag_same hf (hv.le a1)).1]
      simp only
      rw [andThen_eq (frame_eq (((ih hok).2.2 _ _ _ _ _ _ h3).2.2.2 hv)), andThen_eq (choiceEnd_same h5 hs2)]
  | nil =>
    refine ⟨?_, ?_, ?_⟩
    · intro j left s s' vs n h _ hs
      unfold decMems at h ⊢
      obtain ⟨u, n1, h1, h2⟩ := andThen_ok h
      cases h2
      rw [andThen_eq (seqEnd_same h1 hs)]
    · intro k left s vs n hk
      simp [Mems.heads] at hk
    · intro i tag s s' v n h
      unfold decAlts at h
      cases h
  | cons hd ty rest ihty ihrest =>
    rename_i hok
    obtain ⟨hok1, hok2, hok3⟩ := hok
    obtain ⟨ih1, ih2, ih3⟩ := ihrest hok3
    have first : ∀ (k : Nat) (left : Left) (s : List Byte) (vs : List (Option Val)) (n : Nat), k < (hd :: rest.heads).length →
        decMems (.cons hd ty rest) (some k) left s = .ok vs n → ∃ j, 2 ≤ j ∧ j ≤ n ∧ j ≤ (view left s).length ∧ Begins (view left s) j := by
      intro k left s vs n hk h
      unfold decMems at h
      simp only at h
      cases k with
      | zero =>
        simp only at h
        obtain ⟨x, n1, h1, h2⟩ := andThen_ok h
        obtain ⟨xs, n2, h3, h4⟩ := andThen_ok h2
        cases h4
        obtain ⟨d1, d2, d3⟩ := dec_begins hok2 (frame_ok h1)
        exact ⟨n1, d1, by omega, d2, d3⟩
      | succ k =>
        simp only at h
        obtain ⟨xs, n1, h1, h2⟩ := andThen_ok h
        cases h2
        exact ih2 k left s _ _ (by simpa using hk) h1
    have jump : ∀ (k : Nat) (left : Left) (s s' : List Byte) (vs : List (Option Val)) (n : Nat), decMems (.cons hd ty rest) (some k) left s = .ok vs n →
        left ≠ .indef 0 → Same n s s' → decMems (.cons hd ty rest) (some k) left s' = .ok vs n := by
      intro k left s s' vs n h hl hs
      unfold decMems at h ⊢
      simp only at h ⊢
      cases k with
      | zero =>
        simp only at h ⊢
        obtain ⟨x, n1, h1, h2⟩ := andThen_ok h
        obtain ⟨xs, n2, h3, h4⟩ := andThen_ok h2
        cases h4
        have h1 := frame_ok h1
        obtain ⟨d1, d2, d3⟩ := dec_begins hok2 h1
        rw [andThen_eq (frame_eq (ihty hok2 _ _ _ _ _ h1 ((hs.le (by omega)).view d2)))]
        rw [andThen_eq (ih1 _ _ _ _ _ _ h3 (by cases left <;> simp [Left.sub] at hl ⊢; exact hl) hs.drop)]
      | succ k =>
        simp only at h ⊢
        obtain ⟨xs, n1, h1, h2⟩ := andThen_ok h
        cases h2
        rw [andThen_eq (ih1 _ _ _ _ _ _ h1 hl hs)]
    refine ⟨?_, first, ?_⟩
    · intro j left s s' vs n h hl hs
      cases j with
      | some k => exact jump k left s s' vs n h hl hs
      | none =>
        cases hsy : sync (hd :: rest.heads) left s with
        | done =>
          obtain ⟨rfl, ho⟩ := (sync_sound (hs := hd :: rest.heads) (left := left) (s := s)).1 hsy
          have : sync (hd :: rest.heads) (.defn 0) s' = .done := by unfold sync; rw [if_pos ⟨rfl, ho⟩]
          unfold decMems at h ⊢
          simp only at h ⊢
          rw [hsy] at h
          rw [this]
          exact h
        | eoc =>
          unfold decMems at h ⊢
          simp only at h ⊢
          rw [hsy] at h
          simp only at h
          obtain ⟨u, n1, h1, h2⟩ := andThen_ok h
          cases h2
          have he0 : eocAt left s = .yes := by
            unfold sync at hsy
            split at hsy
            · cases hsy
            · cases hf : fetchTag (view left s) with
              | more => rw [hf] at hsy; simp only at hsy; split at hsy <;> cases hsy
              | bad => rw [hf] at hsy; cases hsy
              | ok t tl =>
                rw [hf] at hsy
                simp only at hsy
                cases hx : eocAt left s with
                | crash => rw [hx] at hsy; cases hsy
                | more => rw [hx] at hsy; cases hsy
                | yes => rfl
                | no =>
                  rw [hx] at hsy
                  simp only [reduceCtorEq, false_and, if_false] at hsy
                  split at hsy <;> cases hsy
          obtain ⟨k, r, rfl, rfl⟩ := eocAt_zeros he0
          have hk : k ≠ 0 := fun hk => hl (by rw [hk])
          have hz := zeros_split (seqEocs_sound _ _ _ h1)
          have hs2 : Same 2 (0 :: 0 :: r) s' := hs.le (by omega)
          rw [sync_same hs2 le_rfl (by simp [view]) (by simp only [view]; exact zeros_fetch _) (by omega), hsy]
          simp only
          rw [andThen_eq (seqEnd_same h1 hs)]
        | «at» k =>
          have h' : decMems (.cons hd ty rest) (some k) left s = .ok vs n := by
            unfold decMems at h ⊢
            simp only at h ⊢
            rw [hsy] at h
            exact h
          have hk : k < (hd :: rest.heads).length := by
            unfold sync at hsy
            split at hsy
            · cases hsy
            · cases hf : fetchTag (view left s) with
              | more => rw [hf] at hsy; simp only at hsy; split at hsy <;> cases hsy
              | bad => rw [hf] at hsy; cases hsy
              | ok t tl =>
                rw [hf] at hsy
                simp only at hsy
                cases hx : eocAt left s with
                | crash => rw [hx] at hsy; cases hsy
                | more => rw [hx] at hsy; cases hsy
                | yes | no =>
                  rw [hx] at hsy
                  simp only at hsy
                  split at hsy
                  · cases hsy
                  · cases hlk : lookup (hd :: rest.heads) t with
                    | none => rw [hlk] at hsy; cases hsy
                    | some q =>
                      rw [hlk] at hsy
                      cases hsy
                      exact (lookup_sound hlk).2.1
          obtain ⟨q, q1, q2, q3, q4⟩ := first k left s vs n hk h'
          obtain ⟨tg, kk, a1, a2⟩ := q4
          have hsync := sync_same (hs := hd :: rest.heads) (hs.le q2) q1 q3 a2 a1
          have := jump k left s s' vs n h' hl hs
          unfold decMems at this ⊢
          simp only at this ⊢
          rw [hsync, hsy]
          exact this
        | more => unfold decMems at h; simp only at h; rw [hsy] at h; cases h
        | fail => unfold decMems at h; simp only at h; rw [hsy] at h; cases h
        | crash => unfold decMems at h; simp only at h; rw [hsy] at h; cases h
    · intro i tag s s' v n h
      unfold decAlts at h ⊢
      by_cases ht : tag ∈ hd.t2e
      · rw [if_pos ht] at h ⊢
        obtain ⟨x, n1, h1, h2⟩ := andThen_ok h
        cases h2
        obtain ⟨d1, d2, d3⟩ := dec_begins hok2 h1
        refine ⟨d1, d2, d3, fun hs => ?_⟩
        rw [andThen_eq (ihty hok2 _ _ _ _ _ h1 hs)]
      · rw [if_neg ht] at h ⊢
        exact ih3 _ _ _ _ _ _ h

end Verif.Sd
