import Verif.Asn.TlLemmas
/-
`ber_check_tags`: what it accepts is the beginning of nested elements.
-/
namespace Verif.Asn
open Verif.Res (Byte be)
open Verif.Cms (berFetchLength Len isConstructed)

/-- The elements begin with these bytes: the contents, and two zeros for each indefinite length, are missing. -/
def Hdr (ts : List Tag) (form : Bool) (left : Left) (h : List Byte) : Prop :=
  match left with
  | .defn L => ∀ c : List Byte, c.length = L → Nest ts form c (h ++ c)
  | .indef k => form = true ∧ k = ts.length ∧ ∀ c : List Byte, Nest ts true c (h ++ c ++ List.replicate (2 * k) 0)

theorem nest_cons {t : Tag} {ts : List Tag} {form : Bool} {c b x : List Byte} (hne : ts ≠ []) (h : Nest ts form c x) (ht : Tlv t true x b) :
    Nest (t :: ts) form c b := by
  cases ts with
  | nil => exact absurd rfl hne
  | cons t' ts => exact ⟨x, h, ht⟩

/-- Tags that are expected, and tags that are there. -/
def Fits (ch : List (Option Tag)) (ts : List Tag) : Prop := List.Forall₂ (fun e t => e = none ∨ e = some t) ch ts

theorem Fits.ne {ch : List (Option Tag)} {ts : List Tag} (h : Fits ch ts) : ch = [] ↔ ts = [] := by
  cases h <;> simp

theorem fits_map {tags ts : List Tag} : Fits (tags.map some) ts ↔ ts = tags := by
  unfold Fits
  induction tags generalizing ts with
  | nil =>
    constructor
    · intro h; cases h; rfl
    · rintro rfl; exact .nil
  | cons a l ih =>
    constructor
    · intro h
      cases h with
      | cons h1 h2 =>
        rcases h1 with h1 | h1
        · cases h1
        · cases h1; rw [ih.1 h2]
    · rintro rfl; exact .cons (.inr rfl) (ih.2 rfl)

theorem hdr_take {s : List Byte} {tl ll : Nat} : s.take (tl + ll) = s.take tl ++ (s.drop tl).take ll := by
  rw [List.take_add]

theorem tagsLoop_sound (lf : Option Bool) : ∀ (ch : List (Option Tag)) (s : List Byte) (limit : Option Nat) (eocs consumed : Nat) (form : Bool)
    (len : Nat) (tl : Tl) (n : Nat), ch ≠ [] → tagsLoop lf ch s limit eocs consumed form len = .ok tl n →
    ∃ ts h, Fits ch ts ∧ n = consumed + h ∧ 2 ≤ h ∧ h ≤ s.length ∧ (∃ k, fetchTag s = .ok (ts.headD 0) k) ∧
      (∀ f, lf = some f → tl.form = f) ∧ (ch.length ≠ 1 → isConstructed s = true) ∧ (ch.length = 1 → tl.form = isConstructed s) ∧
      (match tl.left with
       | .defn L => eocs = 0 ∧ (∀ lim, limit = some lim → lim = h + L) ∧ L < 2 ^ 62 ∧ Hdr ts tl.form (.defn L) (s.take h)
       | .indef k => limit = none ∧ k = eocs + ts.length ∧ Hdr ts tl.form (.indef ts.length) (s.take h)) := by
  intro ch
  induction ch with
  | nil => intro _ _ _ _ _ _ _ _ h; exact absurd rfl h
  | cons t rest ih =>
    intro s limit eocs consumed form len tl n _ h
    unfold tagsLoop at h
    cases hf : fetchTag s with
    | more => rw [hf] at h; cases h
    | bad => rw [hf] at h; cases h
    | ok tag k =>
      rw [hf] at h
      simp only at h
      obtain ⟨f1, f2, f3⟩ := fetchTag_sound hf
      by_cases h1 : t ≠ none ∧ t ≠ some tag
      · rw [if_pos h1] at h; cases h
      · rw [if_neg h1] at h
        have hfit : t = none ∨ t = some tag := by
          by_contra hc
          exact h1 ⟨fun h => hc (.inl h), fun h => hc (.inr h)⟩
        by_cases h2 : rest ≠ [] ∧ isConstructed s = false
        · rw [if_pos h2] at h; cases h
        · rw [if_neg h2] at h
          by_cases h3 : rest = [] ∧ lf ≠ none ∧ lf ≠ some (isConstructed s)
          · rw [if_pos h3] at h; cases h
          · rw [if_neg h3] at h
            have hlast : rest = [] → ∀ f, lf = some f → isConstructed s = f := by
              intro hr f hlf
              by_contra hc
              exact h3 ⟨hr, by rw [hlf]; simp, by rw [hlf]; intro hx; exact hc (Option.some.inj hx).symm⟩
            have hconstr : rest ≠ [] → isConstructed s = true := by
              intro hr
              by_contra hc
              exact h2 ⟨hr, by simpa using hc⟩
            cases hl : berFetchLength (isConstructed s) (s.drop k) with
            | more => rw [hl] at h; cases h
            | bad => rw [hl] at h; cases h
            | indef =>
              rw [hl] at h
              simp only at h
              obtain ⟨l1, l2, l3⟩ := fetchLen_indef hl
              rw [List.length_drop] at l2
              by_cases h4 : limit ≠ none
              · rw [if_pos h4] at h; cases h
              · rw [if_neg h4] at h
                have h4 : limit = none := not_not.1 h4
                by_cases hr : rest = []
                · subst hr
                  unfold tagsLoop at h
                  simp only [ne_eq, Nat.add_eq_zero_iff, one_ne_zero, and_false, not_false_eq_true, if_true] at h
                  cases h
                  refine ⟨[tag], k + 1, .cons hfit .nil, rfl, by omega, by omega, ⟨k, rfl⟩, hlast rfl, fun hc => absurd rfl hc, fun _ => rfl, h4, rfl, l1, rfl, ?_⟩
                  intro c
                  rw [hdr_take, l3]
                  exact .indef (by rw [← l1]; exact f3) rfl
                · obtain ⟨ts, h', g1, g2, g3, g4, g5, g6, g7, g8, g9⟩ := ih _ _ _ _ _ _ _ _ hr h
                  have hts : ts ≠ [] := fun h0 => hr (g1.ne.2 h0)
                  rw [List.length_drop] at g4
                  refine ⟨tag :: ts, (k + 1) + h', .cons hfit g1, by omega, by omega, by omega, ⟨k, rfl⟩, g6, fun _ => hconstr hr, ?_, ?_⟩
                  · intro hc; exact absurd (by simpa using hc) hr
                  · have hg := g9
                    cases hleft : tl.left with
                    | defn L => rw [hleft] at hg; simp only at hg; omega
                    | indef e =>
                      rw [hleft] at hg
                      obtain ⟨-, e1, e2, -, e3⟩ := hg
                      refine ⟨h4, by simp only [List.length_cons]; omega, e2, rfl, ?_⟩
                      intro c
                      refine nest_cons hts (e3 c) ?_
                      rw [List.take_add, hdr_take, l3]
                      have : (s.take k ++ [0x80] ++ (s.drop (k + 1)).take h' ++ c ++ List.replicate (2 * (tag :: ts).length) (0 : Byte)) =
                          s.take k ++ [0x80] ++ ((s.drop (k + 1)).take h' ++ c ++ List.replicate (2 * ts.length) 0) ++ [0, 0] := by
                        rw [List.length_cons, show 2 * (ts.length + 1) = 2 * ts.length + 2 by omega, List.replicate_add]
                        simp only [List.append_assoc]
                        rfl
                      rw [this]
                      exact .indef (by rw [← l1]; exact f3) rfl
            | defn ll v =>
              rw [hl] at h
              simp only at h
              obtain ⟨l1, l2, l3, l4⟩ := fetchLen_sound hl
              rw [List.length_drop] at l2
              by_cases h4 : eocs ≠ 0
              · rw [if_pos h4] at h; cases h
              · rw [if_neg h4] at h
                have h4 : eocs = 0 := not_not.1 h4
                by_cases h5 : limit ≠ none ∧ limit ≠ some (v + k + ll)
                · rw [if_pos h5] at h; cases h
                · rw [if_neg h5] at h
                  have hlim : ∀ lim, limit = some lim → lim = k + ll + v := by
                    intro lim hx
                    by_contra hc
                    exact h5 ⟨by rw [hx]; simp, by rw [hx]; intro hy; have := Option.some.inj hy; omega⟩
                  by_cases hr : rest = []
                  · subst hr
                    unfold tagsLoop at h
                    simp only [ne_eq, not_true_eq_false, if_false] at h
                    cases h
                    refine ⟨[tag], k + ll, .cons hfit .nil, rfl, by omega, by omega, ⟨k, rfl⟩, hlast rfl, fun hc => absurd rfl hc, fun _ => rfl, h4, hlim, l3, ?_⟩
                    intro c hc
                    rw [hdr_take]
                    exact .defn f3 (by rw [hc]; exact l4)
                  · obtain ⟨ts, h', g1, g2, g3, g4, g5, g6, g7, g8, g9⟩ := ih _ _ _ _ _ _ _ _ hr h
                    have hts : ts ≠ [] := fun h0 => hr (g1.ne.2 h0)
                    rw [List.length_take, List.length_drop] at g4
                    refine ⟨tag :: ts, (k + ll) + h', .cons hfit g1, by omega, by omega, by omega, ⟨k, rfl⟩, g6, fun _ => hconstr hr, ?_, ?_⟩
                    · intro hc; exact absurd (by simpa using hc) hr
                    · have hg := g9
                      cases hleft : tl.left with
                      | indef L => rw [hleft] at hg; simp only at hg; exact absurd hg.1 (by simp)
                      | defn L =>
                        rw [hleft] at hg
                        obtain ⟨-, e1, e2, e3⟩ := hg
                        have e1 := e1 v rfl
                        refine ⟨h4, fun lim hx => by rw [hlim lim hx]; omega, e2, ?_⟩
                        intro c hc
                        have e3 := e3 c hc
                        rw [List.take_take, Nat.min_eq_left (by omega)] at e3
                        refine nest_cons hts e3 ?_
                        rw [List.take_add, hdr_take, List.append_assoc]
                        refine .defn (by rw [← hconstr hr]; exact f3) ?_
                        have : ((s.drop (k + ll)).take h' ++ c).length = v := by
                          rw [List.length_append, List.length_take, List.length_drop]; omega
                        rw [this, ← hconstr hr]
                        exact l4

/-- `tag_mode`. -/
def Tagging.mode : Tagging → Mode
  | .own => .none
  | .implicit _ => .implicit
  | .explicit _ => .explicit

/-- The tag that comes from outside. -/
def Tagging.outer : Tagging → Option Tag
  | .own => none
  | .implicit t => some t
  | .explicit t => some t

/-- The first tag of the bytes. -/
def FirstTag (s : List Byte) (t : Tag) : Prop := ∃ k, fetchTag s = .ok t k

theorem FirstTag.unique {s : List Byte} {t t' : Tag} (h : FirstTag s t) (h' : FirstTag s t') : t = t' := by
  obtain ⟨k, h⟩ := h
  obtain ⟨k', h'⟩ := h'
  rw [h] at h'
  cases h'
  rfl

theorem checkTags_sound {tags : List Tag} {m : Mode} {lf : Option Bool} {s : List Byte} {tl : Tl} {n : Nat}
    (hne : ¬ (tags = [] ∧ m = .none)) (h : checkTags tags m lf s = .ok tl n) (g : Tagging) (hm : g.mode = m)
    (hg : ∀ t, g.outer = some t → FirstTag s t) :
    2 ≤ n ∧ n ≤ s.length ∧ (∀ f, lf = some f → tl.form = f) ∧ (∀ L, tl.left = .defn L → L < 2 ^ 62) ∧ Hdr (g.tags tags) tl.form tl.left (s.take n) ∧
      ((g.tags tags).length ≠ 1 → isConstructed s = true) ∧ ((g.tags tags).length = 1 → tl.form = isConstructed s) ∧
      FirstTag s ((g.tags tags).headD 0) := by
  have h' : chain tags m ≠ [] ∧ tagsLoop lf (chain tags m) s none 0 0 false 0 = .ok tl n := by
    cases tags with
    | nil =>
      cases m with
      | none => exact absurd ⟨rfl, rfl⟩ hne
      | implicit => cases h
      | explicit => exact ⟨by simp [chain], h⟩
    | cons a l => refine ⟨by cases m <;> simp [chain], ?_⟩; cases m <;> exact h
  obtain ⟨hch, h'⟩ := h'
  obtain ⟨ts, k, g1, g2, g2', g3, g4, g5, g6, g7, g8⟩ := tagsLoop_sound lf _ _ _ _ _ _ _ _ _ hch h'
  have hts : ts = g.tags tags := by
    cases g with
    | own => subst hm; exact fits_map.1 g1
    | implicit t =>
      subst hm
      cases g1 with
      | cons _ h2 =>
        obtain ⟨j, h3⟩ := hg t rfl
        obtain ⟨j', g4⟩ := g4
        rw [h3] at g4
        rw [fits_map.1 h2]
        cases g4
        rfl
    | explicit t =>
      subst hm
      cases g1 with
      | cons _ h2 =>
        obtain ⟨j, h3⟩ := hg t rfl
        obtain ⟨j', g4⟩ := g4
        rw [h3] at g4
        rw [fits_map.1 h2]
        cases g4
        rfl
  subst hts
  have hlen : (chain tags m).length = (g.tags tags).length := List.Forall₂.length_eq g1
  rw [hlen] at g6 g7
  refine ⟨by omega, by omega, g5, ?_, ?_, g6, g7, g4⟩
  · intro L hL; rw [hL] at g8; exact g8.2.2.1
  · rw [show n = k by omega]
    cases hL : tl.left with
    | defn L => rw [hL] at g8; exact g8.2.2.2
    | indef e => rw [hL] at g8; obtain ⟨-, e1, e2⟩ := g8; rw [e1, Nat.zero_add]; exact e2

theorem anyTags_sound {s : List Byte} {tl : Tl} {n : Nat} (h : anyTags s = .ok tl n) :
    2 ≤ n ∧ n ≤ s.length ∧ tl.form = isConstructed s ∧ (∀ L, tl.left = .defn L → L < 2 ^ 62) ∧ ∃ tag, FirstTag s tag ∧ Hdr [tag] tl.form tl.left (s.take n) := by
  unfold anyTags at h
  cases hf : fetchTag s with
  | more => rw [hf] at h; cases h
  | bad => rw [hf] at h; cases h
  | ok tag k =>
    rw [hf] at h
    simp only at h
    obtain ⟨f1, f2, f3⟩ := fetchTag_sound hf
    cases hl : berFetchLength (isConstructed s) (s.drop k) with
    | more => rw [hl] at h; cases h
    | bad => rw [hl] at h; cases h
    | indef =>
      rw [hl] at h
      obtain ⟨l1, l2, l3⟩ := fetchLen_indef hl
      rw [List.length_drop] at l2
      cases h
      refine ⟨by omega, by omega, rfl, by simp, tag, ⟨k, hf⟩, l1, rfl, ?_⟩
      intro c
      rw [hdr_take, l3]
      exact .indef (by rw [← l1]; exact f3) rfl
    | defn ll v =>
      rw [hl] at h
      obtain ⟨l1, l2, l3, l4⟩ := fetchLen_sound hl
      rw [List.length_drop] at l2
      cases h
      refine ⟨by omega, by omega, rfl, ?_, tag, ⟨k, hf⟩, ?_⟩
      · intro L hL; cases hL; exact l3
      · intro c hc
        rw [hdr_take]
        exact .defn f3 (by rw [hc]; exact l4)

theorem checkTags_any (lf : Option Bool) (s : List Byte) : checkTags [] .none lf s = anyTags s := rfl

theorem tagsLoop_safe (lf : Option Bool) : ∀ (ch : List (Option Tag)) (s : List Byte) (limit : Option Nat) (eocs consumed : Nat) (form : Bool) (len : Nat),
    tagsLoop lf ch s limit eocs consumed form len ≠ .hang ∧ tagsLoop lf ch s limit eocs consumed form len ≠ .crash := by
  intro ch
  induction ch with
  | nil => intro s limit eocs consumed form len; unfold tagsLoop; exact ⟨by simp, by simp⟩
  | cons t rest ih =>
    intro s limit eocs consumed form len
    unfold tagsLoop
    dsimp only
    repeat' split
    all_goals first | exact ih _ _ _ _ _ _ | exact ⟨by simp, by simp⟩

theorem anyTags_safe (s : List Byte) : anyTags s ≠ .hang ∧ anyTags s ≠ .crash := by
  unfold anyTags
  dsimp only
  repeat' split
  all_goals exact ⟨by simp, by simp⟩

theorem checkTags_ne_hang {tags : List Tag} {m : Mode} {lf : Option Bool} {s : List Byte} : checkTags tags m lf s ≠ .hang := by
  unfold checkTags
  split
  · exact (anyTags_safe s).1
  · simp
  · exact (tagsLoop_safe _ _ _ _ _ _ _ _).1

theorem checkTags_ne_crash {tags : List Tag} {m : Mode} {lf : Option Bool} {s : List Byte} (hne : ¬ (tags = [] ∧ m = .implicit)) :
    checkTags tags m lf s ≠ .crash := by
  unfold checkTags
  split
  · exact (anyTags_safe s).2
  · exact absurd ⟨rfl, rfl⟩ hne
  · exact (tagsLoop_safe _ _ _ _ _ _ _ _).2

end Verif.Asn
