import Verif.Sd.Tlvs
import Verif.Asn.Sound
/-
What the decoder accepts is one element, also for code that does not know the types.
-/
namespace Verif.Sd
open Verif.Res (Byte be)
open Verif.Cms (berFetchLength isConstructed)
open Verif.Asn

/-- The elements begin with these bytes: contents and ends of contents are missing. -/
def HdrT (left : Left) (h : List Byte) : Prop :=
  match left with
  | .defn L => ∀ c : List Byte, c.length = L → Tlvs .one (h ++ c)
  | .indef k => ∀ c : List Byte, Tlvs .seq c → Tlvs .one (h ++ c ++ List.replicate (2 * k) 0)

theorem tagsLoop_tlvs (lf : Option Bool) : ∀ (ch : List (Option Tag)) (s : List Byte) (limit : Option Nat) (eocs consumed : Nat) (form : Bool)
    (len : Nat) (tl : Tl) (n : Nat), ch ≠ [] → tagsLoop lf ch s limit eocs consumed form len = .ok tl n →
    ∃ h, n = consumed + h ∧ 2 ≤ h ∧ h ≤ s.length ∧
      (match tl.left with
       | .defn L => eocs = 0 ∧ (∀ lim, limit = some lim → lim = h + L) ∧ ∀ c : List Byte, c.length = L → Tlvs .one (s.take h ++ c)
       | .indef k => limit = none ∧ eocs < k ∧ (s.take h).take 2 ≠ [0, 0] ∧
          ∀ c : List Byte, Tlvs .seq c → Tlvs .one (s.take h ++ c ++ List.replicate (2 * (k - eocs)) 0)) := by
  intro ch
  induction ch with
  | nil => intro _ _ _ _ _ _ _ _ h; exact absurd rfl h
  | cons t rest ih =>
    intro s limit eocs consumed form len tl n _ h
    unfold tagsLoop at h
    cases hf : fetchTag s with
    | more => rw [hf] at h; cases h
    | bad => rw [hf] at h; cases h
    | ok tag k =>
      rw [hf] at h
      simp only at h
      obtain ⟨f1, f2, f3⟩ := fetchTag_sound hf
      by_cases h1 : t ≠ none ∧ t ≠ some tag
      · rw [if_pos h1] at h; cases h
      · rw [if_neg h1] at h
        by_cases h2 : rest ≠ [] ∧ isConstructed s = false
        · rw [if_pos h2] at h; cases h
        · rw [if_neg h2] at h
          by_cases h3 : rest = [] ∧ lf ≠ none ∧ lf ≠ some (isConstructed s)
          · rw [if_pos h3] at h; cases h
          · rw [if_neg h3] at h
            cases hl : berFetchLength (isConstructed s) (s.drop k) with
            | more => rw [hl] at h; cases h
            | bad => rw [hl] at h; cases h
            | indef =>
              rw [hl] at h
              simp only at h
              obtain ⟨l1, l2, l3⟩ := fetchLen_indef hl
              rw [List.length_drop] at l2
              rw [l1] at f3
              by_cases h4 : limit ≠ none
              · rw [if_pos h4] at h; cases h
              · rw [if_neg h4] at h
                have h4 : limit = none := not_not.1 h4
                by_cases hr : rest = []
                · subst hr
                  unfold tagsLoop at h
                  simp only [ne_eq, Nat.add_eq_zero_iff, one_ne_zero, and_false, not_false_eq_true, if_true] at h
                  cases h
                  refine ⟨k + 1, rfl, by omega, by omega, h4, by omega, ?_, ?_⟩
                  · rw [hdr_take]; exact isTag_nz f3 _
                  · intro c hc
                    rw [hdr_take, l3, show 2 * (eocs + 1 - eocs) = 2 by omega]
                    exact .indef f3 hc
                · obtain ⟨h', g2, g3, g4, g9⟩ := ih _ _ _ _ _ _ _ _ hr h
                  rw [List.length_drop] at g4
                  refine ⟨(k + 1) + h', by omega, by omega, by omega, ?_⟩
                  cases hleft : tl.left with
                  | defn L => rw [hleft] at g9; simp only at g9; omega
                  | indef e =>
                    rw [hleft] at g9
                    obtain ⟨-, e1, e2, e3⟩ := g9
                    refine ⟨h4, by omega, ?_, ?_⟩
                    · rw [List.take_add, hdr_take, List.append_assoc]; exact isTag_nz f3 _
                    · intro c hc
                      rw [List.take_add, hdr_take, l3]
                      have : (s.take k ++ [0x80] ++ (s.drop (k + 1)).take h' ++ c ++ List.replicate (2 * (e - eocs)) (0 : Byte)) =
                          s.take k ++ [0x80] ++ ((s.drop (k + 1)).take h' ++ c ++ List.replicate (2 * (e - (eocs + 1))) 0) ++ [0, 0] := by
                        rw [show 2 * (e - eocs) = 2 * (e - (eocs + 1)) + 2 by omega, List.replicate_add]
                        simp only [List.append_assoc]
                        rfl
                      rw [this]
                      refine .indef f3 ?_
                      have hx := Tlvs.cons (e3 c hc) ?_ .nil
                      · simpa using hx
                      · intro he
                        apply e2
                        rw [← he, List.append_assoc, List.take_append_of_le_length]
                        rw [List.length_take, List.length_drop]
                        omega
            | defn ll v =>
              rw [hl] at h
              simp only at h
              obtain ⟨l1, l2, l3, l4⟩ := fetchLen_sound hl
              rw [List.length_drop] at l2
              by_cases h4 : eocs ≠ 0
              · rw [if_pos h4] at h; cases h
              · rw [if_neg h4] at h
                have h4 : eocs = 0 := not_not.1 h4
                by_cases h5 : limit ≠ none ∧ limit ≠ some (v + k + ll)
                · rw [if_pos h5] at h; cases h
                · rw [if_neg h5] at h
                  have hlim : ∀ lim, limit = some lim → lim = k + ll + v := by
                    intro lim hx
                    by_contra hc
                    exact h5 ⟨by rw [hx]; simp, by rw [hx]; intro hy; have := Option.some.inj hy; omega⟩
                  by_cases hr : rest = []
                  · subst hr
                    unfold tagsLoop at h
                    simp only [ne_eq, not_true_eq_false, if_false] at h
                    cases h
                    refine ⟨k + ll, rfl, by omega, by omega, h4, hlim, ?_⟩
                    intro c hc
                    rw [hdr_take]
                    exact .defn f3 (by rw [hc]; exact l4)
                  · obtain ⟨h', g2, g3, g4, g9⟩ := ih _ _ _ _ _ _ _ _ hr h
                    rw [List.length_take, List.length_drop] at g4
                    refine ⟨(k + ll) + h', by omega, by omega, by omega, ?_⟩
                    cases hleft : tl.left with
                    | indef L => rw [hleft] at g9; simp only at g9; exact absurd g9.1 (by simp)
                    | defn L =>
                      rw [hleft] at g9
                      obtain ⟨-, e1, e3⟩ := g9
                      have e1 := e1 v rfl
                      refine ⟨h4, fun lim hx => by rw [hlim lim hx]; omega, ?_⟩
                      intro c hc
                      rw [List.take_add, hdr_take, List.append_assoc]
                      refine .defn f3 ?_
                      have : ((s.drop (k + ll)).take h' ++ c).length = v := by
                        rw [List.length_append, List.length_take, List.length_drop]; omega
                      rw [this]
                      exact l4

theorem checkTags_tlvs {tags : List Tag} {m : Mode} {lf : Option Bool} {s : List Byte} {tl : Tl} {n : Nat}
    (hne : ¬ (tags = [] ∧ m = .none)) (h : checkTags tags m lf s = .ok tl n) : 2 ≤ n ∧ n ≤ s.length ∧ HdrT tl.left (s.take n) := by
  have h' : chain tags m ≠ [] ∧ tagsLoop lf (chain tags m) s none 0 0 false 0 = .ok tl n := by
    cases tags with
    | nil =>
      cases m with
      | none => exact absurd ⟨rfl, rfl⟩ hne
      | implicit => cases h
      | explicit => exact ⟨by simp [chain], h⟩
    | cons a l => refine ⟨by cases m <;> simp [chain], ?_⟩; cases m <;> exact h
  obtain ⟨hch, h'⟩ := h'
  obtain ⟨k, g1, g2, g3, g4⟩ := tagsLoop_tlvs lf _ _ _ _ _ _ _ _ _ hch h'
  rw [show n = k by omega]
  refine ⟨g2, g3, ?_⟩
  cases hL : tl.left with
  | defn L => rw [hL] at g4; exact g4.2.2
  | indef e => rw [hL] at g4; exact g4.2.2.2

theorem hdrT_fill {left : Left} {s : List Byte} {h n : Nat} {c : List Byte} (hh : HdrT left (s.take h))
    (hf : Fill left (s.drop h) n c) (hc : ∀ k, left = .indef k → Tlvs .seq c) : Tlvs .one (s.take (h + n)) := by
  obtain ⟨hf1, hf2⟩ := hf
  rw [List.length_drop] at hf1
  cases left with
  | defn L =>
    obtain ⟨rfl, rfl⟩ := hf2
    have := hh ((s.drop h).take n) (by rw [List.length_take, List.length_drop]; omega)
    rwa [← List.take_add] at this
  | indef k =>
    simp only at hf2
    rw [List.take_add, hf2, ← List.append_assoc]
    exact hh c (hc k rfl)

/-! ### The types -/

mutual
/-- No end of contents is taken for a member: where there is one, either all of the members that are left can be missing, or the tag 0 fits
none of them. -/
def ends : Ty → Bool
  | .prim _ _ => true
  | .str _ _ _ => true
  | .seq _ ms => endsMems ms
  | .setOf _ _ el => ends el
  | .choice _ as => endsAlts as

def endsMems : Mems → Bool
  | .nil => true
  | .cons h ty rest => (decide (lookup (h :: rest.heads) 0 = none) || decide (optCount (h :: rest.heads) = (h :: rest.heads).length)) && ends ty && endsMems rest

def endsAlts : Mems → Bool
  | .nil => true
  | .cons h ty rest => decide (0 ∉ h.t2e) && ends ty && endsAlts rest
end

theorem eoc_no {left : Left} {s : List Byte} {k : Nat} (hl : left = .indef k) (h : eocAt left s = .no) : s.take 2 ≠ [0, 0] := by
  subst hl
  intro he
  match s, he, h with
  | [], _, h => cases h
  | [b], he, h => simp at he
  | a :: b :: s, he, h =>
    simp only [List.take_succ_cons, List.take_zero, List.cons.injEq, and_true] at he
    simp only [eocAt, if_pos he] at h
    cases h

theorem zeros_tag {s : List Byte} (h : s.take 2 = [0, 0]) {tag n : Nat} (hf : fetchTag s = .ok tag n) : tag = 0 := by
  match s, h with
  | a :: b :: s, h =>
    simp only [List.take_succ_cons, List.take_zero, List.cons.injEq, and_true] at h
    obtain ⟨rfl, rfl⟩ := h
    rw [fetchTag_cons, if_pos (by decide)] at hf
    cases hf
    rfl

theorem sync_at {hs : List Head} {left : Left} {s : List Byte} {k : Nat} (hends : lookup hs 0 = none ∨ optCount hs = hs.length) (h : sync hs left s = .at k) :
    ∀ e, left = .indef e → s.take 2 ≠ [0, 0] := by
  intro e hl he
  subst hl
  unfold sync at h
  rw [if_neg (by simp)] at h
  have hy : eocAt (.indef e) s = .yes := by
    match s, he with
    | a :: b :: s, he =>
      simp only [List.take_succ_cons, List.take_zero, List.cons.injEq, and_true] at he
      simp only [eocAt, if_pos he]
  simp only [view] at h
  cases hf : fetchTag s with
  | more => rw [hf] at h; simp [violation] at h
  | bad => rw [hf] at h; simp at h
  | ok tag tl =>
    rw [hf, hy] at h
    simp only at h
    have := zeros_tag he hf
    subst this
    by_cases ho : optCount hs = hs.length
    · simp [ho] at h
    · rw [if_neg (fun hc => ho hc.2)] at h
      rcases hends with hn | hn
      · rw [hn] at h; cases h
      · exact ho hn

theorem decStr_tlvs {k : StrKind} {tags all : List Tag} {m : Mode} {s : List Byte} {v : Val} {n : Nat} (hw : StrOk k tags all)
    (h : decStr k tags all m s = .ok v n) : 2 ≤ n ∧ n ≤ s.length ∧ Tlvs .one (s.take n) := by
  have hg : ∃ g : Tagging, g.mode = m ∧ (∀ t, g.outer = some t → FirstTag s t) ∧ (k = .any → ∀ t, g ≠ .implicit t) := by
    unfold decStr at h
    obtain ⟨tl, n0, h1, -⟩ := andThen_ok h
    cases m with
    | none => exact ⟨.own, rfl, by simp [Tagging.outer], by simp⟩
    | implicit =>
      cases tags with
      | nil => cases h1
      | cons a as =>
        cases hf : fetchTag s with
        | more => simp [checkTags, chain, tagsLoop, hf] at h1
        | bad => simp [checkTags, chain, tagsLoop, hf] at h1
        | ok tag j =>
          refine ⟨.implicit tag, rfl, fun t ht => by cases ht; exact ⟨j, hf⟩, ?_⟩
          rintro rfl
          cases hw
    | explicit =>
      cases hf : fetchTag s with
      | more => cases tags <;> simp [checkTags, chain, tagsLoop, hf] at h1
      | bad => cases tags <;> simp [checkTags, chain, tagsLoop, hf] at h1
      | ok tag j => exact ⟨.explicit tag, rfl, fun t ht => by cases ht; exact ⟨j, hf⟩, by simp⟩
  obtain ⟨g, hm, hg, hi⟩ := hg
  obtain ⟨d1, d2, d3⟩ := decStr_sound hw h g hm hg
  refine ⟨d1, d2, ?_⟩
  cases k with
  | any =>
    cases g with
    | own => unfold Ber at d3; obtain ⟨-, ls, d3⟩ := d3; exact (els_tlvs d3).1 rfl
    | implicit t => exact absurd rfl (hi rfl t)
    | explicit t => unfold Ber at d3; obtain ⟨_, _, -, -, -, ls, d3⟩ := d3; exact (els_tlvs d3).1 rfl
  | octets => unfold Ber at d3; obtain ⟨ls, d3, -⟩ := d3; exact (els_tlvs d3).1 rfl
  | bits => unfold Ber at d3; obtain ⟨ls, d3, -⟩ := d3; exact (els_tlvs d3).1 rfl

theorem setLoop_tlvs {dec' : List Byte → R Val} {tag : Option Tag}
    (hd : ∀ s v n, dec' s = .ok v n → 2 ≤ n ∧ n ≤ s.length ∧ Tlvs .one (s.take n)) : ∀ (f : Nat) (left : Left) (s : List Byte) (vs : List Val) (n : Nat),
    setLoop dec' tag f left s = .ok vs n → ∃ c, Fill left s n c ∧ ∀ k, left = .indef k → Tlvs .seq c := by
  intro f
  induction f with
  | zero => intro left s vs n h; unfold setLoop at h; cases h
  | succ f ih =>
    intro left s vs n h
    unfold setLoop at h
    by_cases h0 : left = .defn 0
    · rw [if_pos h0] at h
      cases h
      subst h0
      exact ⟨[], ⟨by simp, rfl, rfl⟩, by simp⟩
    · rw [if_neg h0] at h
      cases hf : fetchTag (view left s) with
      | more => rw [hf] at h; simp only at h; split at h <;> cases h
      | bad => rw [hf] at h; cases h
      | ok t tl =>
        rw [hf] at h
        simp only at h
        cases he : eocAt left s with
        | crash => rw [he] at h; cases h
        | more => rw [he] at h; cases h
        | yes =>
          rw [he] at h
          cases left with
          | defn L => cases h
          | indef k =>
            simp only at h
            obtain ⟨u, j, h1, h2⟩ := andThen_ok h
            cases h2
            obtain ⟨h3, h4⟩ := setEocs_sound k s n h1
            exact ⟨[], ⟨h3, h4⟩, fun _ _ => .nil⟩
        | no =>
          rw [he] at h
          simp only at h
          by_cases ht : tag ≠ none ∧ tag ≠ some t
          · rw [if_pos ht] at h; cases h
          · rw [if_neg ht] at h
            obtain ⟨x, j, h1, h2⟩ := andThen_ok h
            obtain ⟨xs, j', h3, h4⟩ := andThen_ok h2
            cases h4
            obtain ⟨d0, d1, d2⟩ := hd _ _ _ (frame_ok h1)
            obtain ⟨c, e1, e2⟩ := ih _ _ _ _ h3
            refine ⟨_, fill_cons d1 e1, fun k hk => .cons d2 ?_ (e2 k (by rw [hk]; rfl))⟩
            rw [(view_take d1).1, List.take_take, Nat.min_eq_left d0]
            exact eoc_no hk he

/-- **What the decoder accepts is one element.** -/
theorem dec_tlvs (ty : Ty) : ty.Ok → ends ty = true → ∀ (m : Mode) (s : List Byte) (v : Val) (n : Nat), dec ty m s = .ok v n →
    2 ≤ n ∧ n ≤ s.length ∧ Tlvs .one (s.take n) := by
  induction ty using Ty.rec
    (motive_2 := fun ms => ms.Ok →
      (endsMems ms = true → ∀ (j : Option Nat) (left : Left) (s : List Byte) (vs : List (Option Val)) (n : Nat), decMems ms j left s = .ok vs n →
        (j ≠ none → ∀ e, left = .indef e → s.take 2 ≠ [0, 0]) → ∃ c, Fill left s n c ∧ ∀ e, left = .indef e → Tlvs .seq c) ∧
      (endsAlts ms = true → ∀ (i : Nat) (tag : Tag) (s : List Byte) (v : Val) (n : Nat), decAlts ms i tag s = .ok v n →
        2 ≤ n ∧ n ≤ s.length ∧ Tlvs .one (s.take n) ∧ tag ≠ (0 : Nat))) with
  | prim k tags =>
    intro hok _ m s v n h
    unfold dec decPrim at h
    obtain ⟨tl, n0, h1, h2⟩ := andThen_ok h
    obtain ⟨c1, c2, c4⟩ := checkTags_tlvs (fun h => hok h.1) h1
    cases hl : tl.left with
    | indef e => rw [hl] at h2; cases h2
    | defn len =>
      rw [hl] at h2 c4
      simp only at h2
      have fin : len ≤ (s.drop n0).length → Fill (.defn len) (s.drop n0) len ((s.drop n0).take len) := fun h => ⟨h, rfl, rfl⟩
      have := List.length_drop (l := s) (i := n0)
      cases k with
      | null =>
        simp only at h2
        by_cases h0 : len ≠ 0
        · rw [if_pos h0] at h2; cases h2
        · rw [if_neg h0] at h2
          cases h2
          have h0 : len = 0 := not_not.1 h0
          subst h0
          exact ⟨c1, c2, by simpa using hdrT_fill c4 (fin (by simp)) (by simp)⟩
      | plain =>
        simp only at h2
        by_cases h0 : len > (s.drop n0).length
        · rw [if_pos h0] at h2; cases h2
        · rw [if_neg h0] at h2
          cases h2
          exact ⟨by omega, by omega, hdrT_fill c4 (fin (by omega)) (by simp)⟩
      | bool =>
        simp only at h2
        by_cases h0 : len > (s.drop n0).length
        · rw [if_pos h0] at h2; cases h2
        · rw [if_neg h0] at h2
          cases h2
          exact ⟨by omega, by omega, hdrT_fill c4 (fin (by omega)) (by simp)⟩
  | str k tags all =>
    intro hok _ m s v n h
    unfold dec at h
    exact decStr_tlvs hok h
  | seq tags ms ih =>
    intro hok he m s v n h
    unfold dec at h
    obtain ⟨tl, n0, h1, h2⟩ := andThen_ok h
    obtain ⟨vs, n1, h3, h4⟩ := andThen_ok h2
    cases h4
    obtain ⟨c1, c2, c4⟩ := checkTags_tlvs (fun h => hok.1 h.1) h1
    obtain ⟨c, e2, e4⟩ := (ih hok.2).1 he _ _ _ _ _ h3 (by simp)
    have e3 := e2.1
    rw [List.length_drop] at e3
    exact ⟨by omega, by omega, hdrT_fill c4 e2 e4⟩
  | setOf tags tag el ih =>
    intro hok he m s v n h
    unfold dec at h
    obtain ⟨tl, n0, h1, h2⟩ := andThen_ok h
    obtain ⟨vs, n1, h3, h4⟩ := andThen_ok h2
    cases h4
    obtain ⟨c1, c2, c4⟩ := checkTags_tlvs (fun h => hok.1 h.1) h1
    obtain ⟨cs, e2, e4⟩ := setLoop_tlvs (fun s v n h => ih hok.2 he _ s v n h) _ _ _ _ _ h3
    have e3 := e2.1
    rw [List.length_drop] at e3
    exact ⟨by omega, by omega, hdrT_fill c4 e2 e4⟩
  | choice tags as ih =>
    intro hok he m s v n h
    unfold dec at h
    simp only at h
    obtain ⟨tl, n0, h1, h2⟩ := andThen_ok h
    cases hf : fetchTag (view tl.left (s.drop n0)) with
    | more => rw [hf] at h2; simp only at h2; split at h2 <;> cases h2
    | bad => rw [hf] at h2; cases h2
    | ok tag tlen =>
      rw [hf] at h2
      simp only at h2
      obtain ⟨x, n1, h3, h4⟩ := andThen_ok h2
      obtain ⟨u, n2, h5, h6⟩ := andThen_ok h4
      cases h6
      obtain ⟨d1, d2, d3, d4⟩ := (ih hok).2 he _ _ _ _ _ (frame_ok h3)
      by_cases hu : m = .none ∧ tags = []
      · rw [decide_eq_true hu] at h1 h5
        simp only [if_true] at h1
        cases h1
        simp only [Left.sub, choiceEnd, and_self, if_true] at h5
        cases h5
        simp only [view, List.drop_zero] at d2 d3
        exact ⟨by omega, by omega, by simpa using d3⟩
      · rw [decide_eq_false hu] at h1 h5
        simp only [Bool.false_eq_true, if_false] at h1
        obtain ⟨c1, c2, c4⟩ := checkTags_tlvs (fun h => hu ⟨h.2, h.1⟩) h1
        have hend : Fill (tl.left.sub n1) ((s.drop n0).drop n1) n2 [] := by
          cases hl : tl.left with
          | defn L =>
            rw [hl] at h5
            simp only [Left.sub, choiceEnd] at h5 ⊢
            by_cases h0 : L - n1 > 0
            · rw [if_pos h0] at h5; cases h5
            · rw [if_neg h0] at h5
              cases h5
              exact ⟨by simp, by omega, by simp⟩
          | indef k =>
            rw [hl] at h5
            simp only [Left.sub, choiceEnd, Bool.false_eq_true, and_false, if_false] at h5 ⊢
            obtain ⟨a1, a2⟩ := choiceEocs_sound _ _ _ h5
            exact ⟨a1, a2⟩
        have hfill := fill_cons d2 hend
        rw [List.append_nil] at hfill
        have e3 := hfill.1
        rw [List.length_drop] at e3
        refine ⟨by omega, by omega, ?_⟩
        rw [Nat.add_assoc]
        refine hdrT_fill c4 hfill (fun k hk => ?_)
        have := Tlvs.cons d3 ?_ .nil
        · simpa using this
        · rw [List.take_take, Nat.min_eq_left d1]
          exact fun hz => d4 (zeros_tag hz hf)
  | nil =>
    refine ⟨?_, ?_⟩
    · intro _ j left s vs n h hj
      unfold decMems at h
      obtain ⟨u, n1, h1, h2⟩ := andThen_ok h
      cases h2
      exact ⟨[], seqEnd_sound h1, fun _ _ => .nil⟩
    · intro _ i tag s v n h
      unfold decAlts at h
      cases h
  | cons hd ty rest ihty ihrest =>
    rename_i hok
    obtain ⟨hok1, hok2, hok3⟩ := hok
    refine ⟨?_, ?_⟩
    · intro he j left s vs n h hj
      simp only [endsMems, Bool.and_eq_true, Bool.or_eq_true, decide_eq_true_eq] at he
      obtain ⟨⟨he1, he2⟩, he3⟩ := he
      unfold decMems at h
      have key : ∀ k, (∀ e, left = .indef e → s.take 2 ≠ [0, 0]) →
          (match (Sync.at k) with
            | .done => R.ok (none :: rest.heads.map fun _ => none) 0
            | .eoc => (seqEnd left s).andThen fun _ n => .ok (none :: rest.heads.map fun _ => none) n
            | .more => .more
            | .fail => .fail
            | .crash => .crash
            | .at 0 =>
              ((dec ty hd.mode (view left s)).frame (violation left s)).andThen fun x n =>
                (decMems rest none (left.sub n) (s.drop n)).andThen fun xs n' => .ok (some x :: xs) (n + n')
            | .at (k + 1) => (decMems rest (some k) left s).andThen fun xs n => .ok (none :: xs) n) = .ok vs n →
          ∃ c, Fill left s n c ∧ ∀ e, left = .indef e → Tlvs .seq c := by
        intro k hj h
        cases k with
        | zero =>
          simp only at h
          obtain ⟨x, n1, h1, h2⟩ := andThen_ok h
          obtain ⟨xs, n2, h3, h4⟩ := andThen_ok h2
          cases h4
          obtain ⟨d1, d2, d3⟩ := ihty hok2 he2 _ _ _ _ (frame_ok h1)
          obtain ⟨c, e1, e2⟩ := (ihrest hok3).1 he3 _ _ _ _ _ h3 (by simp)
          refine ⟨_, fill_cons d2 e1, fun k hk => .cons d3 ?_ (e2 k (by rw [hk]; rfl))⟩
          rw [(view_take d2).1, List.take_take, Nat.min_eq_left d1]
          exact hj k hk
        | succ k =>
          simp only at h
          obtain ⟨xs, n1, h1, h2⟩ := andThen_ok h
          cases h2
          exact (ihrest hok3).1 he3 _ _ _ _ _ h1 (fun _ => hj)
      cases j with
      | some k => exact key k (hj (by simp)) h
      | none =>
        simp only at h
        cases hs : sync (hd :: rest.heads) left s with
        | done =>
          rw [hs] at h
          cases h
          obtain ⟨rfl, ho⟩ := (sync_sound (hs := hd :: rest.heads) (left := left) (s := s)).1 hs
          exact ⟨[], ⟨by simp, rfl, rfl⟩, by simp⟩
        | eoc =>
          rw [hs] at h
          simp only at h
          obtain ⟨u, n1, h1, h2⟩ := andThen_ok h
          cases h2
          exact ⟨[], seqEnd_sound h1, fun _ _ => .nil⟩
        | «at» k => rw [hs] at h; exact key k (sync_at he1 hs) h
        | more => rw [hs] at h; cases h
        | fail => rw [hs] at h; cases h
        | crash => rw [hs] at h; cases h
    · intro he i tag s v n h
      simp only [endsAlts, Bool.and_eq_true, decide_eq_true_eq] at he
      obtain ⟨⟨he1, he2⟩, he3⟩ := he
      unfold decAlts at h
      by_cases ht : tag ∈ hd.t2e
      · rw [if_pos ht] at h
        obtain ⟨x, n1, h1, h2⟩ := andThen_ok h
        cases h2
        obtain ⟨d1, d2, d3⟩ := ihty hok2 he2 _ _ _ _ h1
        exact ⟨d1, d2, d3, fun h0 => he1 (h0 ▸ ht)⟩
      · rw [if_neg ht] at h
        exact (ihrest hok3).2 he3 _ _ _ _ _ h

end Verif.Sd
