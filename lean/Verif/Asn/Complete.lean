import Verif.Asn.SpecDer
import Verif.Asn.Sound
/-
DER encodings are decoded, to the value that they encode.
-/
namespace Verif.Asn
open Verif.Res (Byte be)
open Verif.Cms (berFetchLength Len isConstructed)

theorem dlen_isLen {n : Nat} {l : List Byte} (c : Bool) (h : DLen n l) : IsLen n c l := by
  rcases h with h | ⟨k, b0, bs, rfl, h1, h2, h3, h4, h5⟩
  · exact .inl h
  · exact .inr ⟨k, b0 :: bs, rfl, by simpa using h1, h2, h4, fun _ => by simp⟩

theorem dtlv_head {tag : Nat} {constr : Bool} {c b : List Byte} (h : DTlv tag constr c b) (hlen : b.length < 2 ^ 62) (rest : List Byte) :
    ∃ tl ll, fetchTag (b ++ rest) = .ok tag tl ∧ isConstructed (b ++ rest) = constr ∧ berFetchLength constr ((b ++ rest).drop tl) = .defn ll c.length ∧
      1 ≤ tl ∧ 1 ≤ ll ∧ b.length = tl + ll + c.length ∧ (b ++ rest).drop (tl + ll) = c ++ rest ∧ b.drop (tl + ll) = c ∧ (b ++ rest).take (tl + ll) ++ c = b := by
  obtain ⟨t, l, h1, h2, rfl⟩ := h
  have e : t ++ l ++ c ++ rest = t ++ (l ++ (c ++ rest)) := by simp
  refine ⟨t.length, l.length, ?_, ?_, ?_, isTag_ne h1.1, isLen_ne (dlen_isLen constr h2), by simp only [List.length_append], ?_, ?_, ?_⟩
  · rw [e]; exact (fetchTag_complete h1.1 _).1
  · rw [e]; exact (fetchTag_complete h1.1 _).2
  · rw [e, List.drop_left]
    refine fetchLen_complete (dlen_isLen constr h2) ?_ _
    simp only [List.length_append] at hlen
    omega
  · rw [show t ++ l ++ c ++ rest = (t ++ l) ++ (c ++ rest) by simp, List.drop_left' (by simp)]
  · rw [List.drop_left' (by simp)]
  · rw [show t ++ l ++ c ++ rest = (t ++ l) ++ (c ++ rest) by simp, List.take_left' (by simp)]

theorem dnest_len : ∀ (ts : List Tag) (form : Bool) (c b : List Byte), DNest ts form c b → c.length ≤ b.length := by
  intro ts
  induction ts with
  | nil => intro form c b h; unfold DNest at h; subst h; exact Nat.le_refl _
  | cons t ts ih =>
    intro form c b h
    cases ts with
    | nil => obtain ⟨t, l, -, -, rfl⟩ := h; simp only [List.length_append]; omega
    | cons t' ts =>
      obtain ⟨x, h1, t, l, -, -, rfl⟩ := h
      have := ih _ _ _ h1
      simp only [List.length_append]
      omega

/-- The header, and what follows it. -/
theorem dnest_drop : ∀ (ts : List Tag) (form : Bool) (c b : List Byte), DNest ts form c b → b.drop (b.length - c.length) = c := by
  intro ts
  induction ts with
  | nil => intro form c b h; unfold DNest at h; subst h; simp
  | cons t ts ih =>
    intro form c b h
    have key : ∀ (l x : List Byte), c.length ≤ x.length → x.drop (x.length - c.length) = c → (l ++ x).drop ((l ++ x).length - c.length) = c := by
      intro l x h1 h2
      rw [List.length_append, show l.length + x.length - c.length = l.length + (x.length - c.length) by omega, ← List.drop_drop, List.drop_left, h2]
    cases ts with
    | nil => obtain ⟨t, l, -, -, rfl⟩ := h; exact key _ _ (Nat.le_refl _) (by simp)
    | cons t' ts =>
      obtain ⟨x, h1, t, l, -, -, rfl⟩ := h
      exact key _ _ (dnest_len _ _ _ _ h1) (ih _ _ _ h1)

theorem tagsLoop_complete (lf : Option Bool) (form : Bool) (hlf : lf = none ∨ lf = some form) : ∀ (ch : List (Option Tag)) (ts : List Tag) (c b rest : List Byte)
    (limit : Option Nat) (consumed : Nat) (f0 : Bool) (l0 : Nat), ch ≠ [] → Fits ch ts → DNest ts form c b → b.length < 2 ^ 62 →
    (limit = none ∨ limit = some b.length) →
    tagsLoop lf ch (b ++ rest) limit 0 consumed f0 l0 = .ok ⟨form, .defn c.length⟩ (consumed + (b.length - c.length)) := by
  intro ch
  induction ch with
  | nil => intro ts c b rest limit consumed f0 l0 h; exact absurd rfl h
  | cons e ch ih =>
    intro ts c b rest limit consumed f0 l0 _ hfit hn hb hlim
    cases hfit with
    | @cons _ t _ ts h1 h2 =>
      have hne : ch = [] ↔ ts = [] := Fits.ne h2
      have step : ∀ (cst : Bool) (x : List Byte), DTlv t cst x b → (ch ≠ [] → cst = true) → (ch = [] → cst = form) →
          tagsLoop lf (e :: ch) (b ++ rest) limit 0 consumed f0 l0 =
            tagsLoop lf ch x (some x.length) 0 (consumed + (b.length - x.length)) cst x.length := by
        intro cst x hx hc1 hc2
        obtain ⟨tl, ll, d1, d2, d3, d4, d4', d5, d6, d7, -⟩ := dtlv_head hx hb rest
        conv => lhs; unfold tagsLoop
        rw [d1]
        simp only
        rw [d2, if_neg (by rintro ⟨a, b⟩; rcases h1 with h1 | h1 <;> contradiction), if_neg (by
          rintro ⟨a, b⟩
          rw [hc1 a] at b
          cases b), if_neg (by
          rintro ⟨a, b, b'⟩
          rcases hlf with h | h
          · exact b h
          · rw [h, hc2 a] at b'; exact b' rfl), d3]
        simp only [ne_eq, not_true_eq_false, if_false]
        rw [if_neg (by
          rintro ⟨a, b⟩
          rcases hlim with h | h
          · exact a h
          · rw [h] at b
            exact b (by rw [d5]; congr 1; omega)), d6, List.take_left, show b.length - x.length = tl + ll by omega]
      cases ts with
      | nil =>
        have hch := hne.2 rfl
        subst hch
        have hn' : DTlv t form c b := hn
        rw [step form c hn' (fun h => absurd rfl h) (fun _ => rfl)]
        unfold tagsLoop
        simp
      | cons t' ts =>
        have hch : ch ≠ [] := fun h => by have := hne.1 h; cases this
        obtain ⟨x, n1, n2⟩ := hn
        have hx : b.length ≥ x.length + 2 := by
          obtain ⟨tl, ll, -, -, -, d4, d4', d5, -⟩ := dtlv_head n2 hb []
          omega
        have := dnest_len _ _ _ _ n1
        rw [step true x n2 (fun _ => rfl) (fun h => absurd h hch)]
        have := ih _ c x [] (some x.length) (consumed + (b.length - x.length)) true x.length hch h2 n1 (by omega) (.inr rfl)
        rw [List.append_nil] at this
        rw [this]
        congr 1
        omega

theorem fits_chain (g : Tagging) (tags : List Tag) : Fits (chain tags g.mode) (g.tags tags) := by
  cases g with
  | own => exact fits_map.2 rfl
  | implicit t => exact .cons (.inl rfl) (fits_map.2 rfl)
  | explicit t => exact .cons (.inl rfl) (fits_map.2 rfl)

theorem checkTags_complete {tags : List Tag} {g : Tagging} {lf : Option Bool} {form : Bool} {c b : List Byte} (hlf : lf = none ∨ lf = some form)
    (h1 : ¬ (tags = [] ∧ g.mode = .none)) (h2 : ¬ (tags = [] ∧ g.mode = .implicit)) (hn : DNest (g.tags tags) form c b) (hb : b.length < 2 ^ 62) (rest : List Byte) :
    checkTags tags g.mode lf (b ++ rest) = .ok ⟨form, .defn c.length⟩ (b.length - c.length) ∧ c.length ≤ b.length ∧
      (b ++ rest).drop (b.length - c.length) = c ++ rest := by
  have hlen := dnest_len _ _ _ _ hn
  have hdrop := dnest_drop _ _ _ _ hn
  refine ⟨?_, hlen, ?_⟩
  · have hch : chain tags g.mode ≠ [] := by
      cases tags with
      | nil => cases hm : g.mode with
        | none => exact absurd ⟨rfl, hm⟩ h1
        | implicit => simp [chain]
        | explicit => simp [chain]
      | cons a l => cases g.mode <;> simp [chain]
    have := tagsLoop_complete lf form hlf _ _ c b rest none 0 false 0 hch (fits_chain g tags) hn hb (.inl rfl)
    rw [Nat.zero_add] at this
    rw [← this]
    unfold checkTags
    split
    · exact absurd ⟨rfl, by assumption⟩ h1
    · exact absurd ⟨rfl, by assumption⟩ h2
    · rfl
  · rw [List.drop_append_of_le_length (by omega), hdrop]

theorem firstTag_append {s rest : List Byte} {t : Tag} (h : FirstTag s t) : FirstTag (s ++ rest) t := by
  obtain ⟨k, h⟩ := h
  refine ⟨k, ?_⟩
  have : fetchTag ((s ++ rest).take s.length) = .ok t k := by rw [List.take_left]; exact h
  exact (fetchTag_take this).1

theorem dtlv_firstTag {tag : Tag} {constr : Bool} {c b : List Byte} (h : DTlv tag constr c b) (hb : b.length < 2 ^ 62) : FirstTag b tag := by
  obtain ⟨tl, ll, d1, -⟩ := dtlv_head h hb []
  rw [List.append_nil] at d1
  exact ⟨tl, d1⟩

theorem dnest_firstTag {ts : List Tag} {form : Bool} {c b : List Byte} (h : DNest ts form c b) (hb : b.length < 2 ^ 62) {t : Tag} (ht : ts.head? = some t) : FirstTag b t := by
  cases ts with
  | nil => cases ht
  | cons a l =>
    cases ht
    cases l with
    | nil => exact dtlv_firstTag h hb
    | cons a' l => obtain ⟨x, -, h⟩ := h; exact dtlv_firstTag h hb

/-! ### ANY -/

theorem dels_len {e : List Byte} (h : DEls .one e) : 2 ≤ e.length := by
  have key : ∀ (tag : Nat) (cst : Bool) (c : List Byte), DTlv tag cst c e → 2 ≤ e.length := by
    rintro tag cst c ⟨t, l, h1, h2, rfl⟩
    have := isTag_ne h1.1
    have := isLen_ne (dlen_isLen cst h2)
    simp only [List.length_append]
    omega
  cases h with
  | prim h => exact key _ _ _ h
  | constr h _ => exact key _ _ _ h

theorem outer_any {m : Mode} {lvl : Nat} (h : lvl ≠ 0) (st : Str) (b : List Byte) : st.outer .any m lvl b = ⟨st.buf ++ b, st.unused⟩ := by
  unfold Str.outer
  rw [if_pos ⟨rfl, .inr h⟩]

theorem fetchTag_room {s : List Byte} {t n l : Nat} (h : fetchTag s = .ok t n) (hl : n ≤ l) : fetchTag (s.take l) = .ok t n := by
  obtain ⟨h1, h2, h3⟩ := fetchTag_sound h
  have := (fetchTag_complete h3 ((s.take l).drop n)).1
  rw [show s.take n ++ (s.take l).drop n = s.take l by
    conv => rhs; rw [← List.take_append_drop n (s.take l), List.take_take, Nat.min_eq_left hl]] at this
  rw [this, List.length_take, Nat.min_eq_left h2]

theorem fetchLen_room {c : Bool} {s : List Byte} {ll v l : Nat} (h : berFetchLength c s = .defn ll v) (hl : ll ≤ l) : berFetchLength c (s.take l) = .defn ll v := by
  obtain ⟨h1, h2, h3, h4⟩ := fetchLen_sound h
  have := fetchLen_complete h4 h3 ((s.take l).drop ll)
  rw [show s.take ll ++ (s.take l).drop ll = s.take l by
    conv => rhs; rw [← List.take_append_drop ll (s.take l), List.take_take, Nat.min_eq_left hl]] at this
  rw [this, List.length_take, Nat.min_eq_left h2]

theorem strPush_def {k : StrKind} {m : Mode} {next : List Frame → List Byte → Str → Nat → R Val} {stk : List Frame} {rm : Option Nat} {w s : List Byte} {tl ll v : Nat} {st : Str}
    {consumed : Nat} {cst : Bool} (hc : isConstructed s = cst) (hl : berFetchLength cst (w.drop tl) = .defn ll v) (hr : ∀ r, rm = some r → tl + ll + v ≤ r)
    (hs : v ≤ (s.drop (tl + ll)).length) :
    strPush k m next stk rm w s tl st consumed =
      if cst = true then
        next (⟨some v, tl + ll, false⟩ :: stk) (s.drop (tl + ll)) (st.outer k m stk.length (s.take (tl + ll))) (consumed + (tl + ll))
      else
        next (⟨some 0, tl + ll + v, false⟩ :: stk) (s.drop (tl + ll + v)) ((st.outer k m stk.length (s.take (tl + ll))).leaf k ((s.drop (tl + ll)).take v)) (consumed + (tl + ll + v)) := by
  unfold strPush
  simp only
  rw [hc, hl]
  simp only
  have : (rm.any fun r => decide (r < tl + ll + v)) = false := by
    cases rm with
    | none => rfl
    | some r => have := hr r rfl; simp; omega
  rw [this]
  simp only [Bool.false_eq_true, if_false]
  cases cst with
  | true => simp
  | false => simp only [Bool.false_eq_true, if_false]; rw [if_neg (by omega)]

theorem strLoop_els (all : List Tag) (m : Mode) {k : Kind} {e : List Byte} (h : DEls k e) : e.length < 2 ^ 62 →
    ∀ (below : List Frame) (l got : Nat) (rest : List Byte) (st : Str) (consumed : Nat), e.length ≤ l →
    ∃ steps, steps ≤ 2 * e.length ∧ ∀ f, strLoop .any all m (f + steps) (⟨some l, got, false⟩ :: below) (e ++ rest) st consumed =
      strLoop .any all m f (⟨some (l - e.length), got + e.length, false⟩ :: below) rest ⟨st.buf ++ e, st.unused⟩ (consumed + e.length) := by
  have push : ∀ (tag : Nat) (cst : Bool) (c e : List Byte), DTlv tag cst c e → e.length < 2 ^ 62 → ∀ (below : List Frame) (l got : Nat) (rest : List Byte) (st : Str) (consumed : Nat), e.length ≤ l →
      ∃ hd, e = hd ++ c ∧ 2 ≤ hd.length ∧ ∀ f, strLoop .any all m (f + 1) (⟨some l, got, false⟩ :: below) (e ++ rest) st consumed =
        if cst = true then
          strLoop .any all m f (⟨some c.length, hd.length, false⟩ :: ⟨some l, got, false⟩ :: below) (c ++ rest) ⟨st.buf ++ hd, st.unused⟩ (consumed + hd.length)
        else
          strLoop .any all m f (⟨some 0, e.length, false⟩ :: ⟨some l, got, false⟩ :: below) rest ⟨st.buf ++ e, st.unused⟩ (consumed + e.length) := by
    intro tag cst c e hx hb below l got rest st consumed hl
    obtain ⟨tl, ll, d1, d2, d3, d4, d4', d5, d6, d7, d8⟩ := dtlv_head hx hb rest
    refine ⟨(e ++ rest).take (tl + ll), d8.symm, by rw [List.length_take, List.length_append]; omega, ?_⟩
    intro f
    conv => lhs; unfold strLoop
    have hlen : ((e ++ rest).take (tl + ll)).length = tl + ll := by rw [List.length_take, List.length_append]; omega
    rw [if_neg (by simp; omega)]
    simp only [room]
    rw [fetchTag_room d1 (by omega)]
    simp only
    have hfl : berFetchLength cst (((e ++ rest).take l).drop tl) = .defn ll c.length := by
      rw [List.drop_take]; exact fetchLen_room d3 (by omega)
    rw [d2, hfl]
    simp only
    obtain ⟨b0, b1, r, hs⟩ : ∃ b0 b1 r, e ++ rest = b0 :: b1 :: r := by
      have : 2 ≤ (e ++ rest).length := by rw [List.length_append]; omega
      match e ++ rest, this with
      | b0 :: b1 :: r, _ => exact ⟨b0, b1, r, rfl⟩
    refine Eq.trans (b := strPush .any m (strLoop .any all m f) (⟨some l, got, false⟩ :: below) (some l) ((e ++ rest).take l) (e ++ rest) tl st consumed) ?_ ?_
    · rw [hs]
      simp only [Bool.false_eq_true, false_and, if_false, expected, ne_eq, not_true_eq_false]
    rw [strPush_def d2 hfl (by intro r hr; cases hr; omega) (by rw [d6, List.length_append]; omega)]
    rw [outer_any (by simp), hlen, d6]
    congr 1
    rw [← List.drop_drop, d6, List.drop_left]
    simp only [Str.leaf, List.take_left, List.append_assoc, d8]
    rw [show tl + ll + c.length = e.length by omega]
  induction h with
  | @prim tag c e hx =>
    intro hb below l got rest st consumed hl
    obtain ⟨hd, -, h2, h3⟩ := push _ _ _ _ hx hb below l got rest st consumed hl
    refine ⟨2, by have := dels_len (.prim hx); omega, ?_⟩
    intro f
    rw [h3 (f + 1)]
    simp only [Bool.false_eq_true, if_false]
    conv => lhs; unfold strLoop
    rw [if_pos ⟨rfl, rfl⟩]
    simp only [Option.any_some]
    rw [if_neg (by simp; omega)]
    simp
  | @constr tag c e hx _ ih =>
    intro hb below l got rest st consumed hl
    obtain ⟨hd, h1, h2, h3⟩ := push _ _ _ _ hx hb below l got rest st consumed hl
    have hlen : e.length = hd.length + c.length := by rw [h1, List.length_append]
    obtain ⟨steps, i1, i2⟩ := ih (by omega) (⟨some l, got, false⟩ :: below) c.length hd.length rest ⟨st.buf ++ hd, st.unused⟩ (consumed + hd.length) (Nat.le_refl _)
    refine ⟨steps + 2, by omega, ?_⟩
    intro f
    rw [show f + (steps + 2) = (f + 1 + steps) + 1 by omega, h3]
    simp only [if_true]
    rw [i2 (f + 1)]
    conv => lhs; unfold strLoop
    rw [Nat.sub_self, if_pos ⟨rfl, rfl⟩]
    simp only [Option.any_some]
    rw [if_neg (by simp; omega), List.append_assoc, ← h1]
    simp only [Option.map_some]
    rw [← hlen, show consumed + hd.length + c.length = consumed + e.length by omega]
  | nil =>
    intro hb below l got rest st consumed hl
    exact ⟨0, by simp, fun f => by simp⟩
  | @cons e x he _ ih1 ih2 =>
    intro hb below l got rest st consumed hl
    simp only [List.length_append] at hb hl ⊢
    obtain ⟨s1, i1, i2⟩ := ih1 (by omega) below l got (x ++ rest) st consumed (by omega)
    obtain ⟨s2, j1, j2⟩ := ih2 (by omega) below (l - e.length) (got + e.length) rest ⟨st.buf ++ e, st.unused⟩ (consumed + e.length) (by omega)
    refine ⟨s1 + s2, by omega, ?_⟩
    intro f
    rw [show f + (s1 + s2) = (f + s2) + s1 by omega, List.append_assoc, i2, j2]
    simp only [List.append_assoc]
    rw [show l - e.length - x.length = l - (e.length + x.length) by omega, show got + e.length + x.length = got + (e.length + x.length) by omega,
      show consumed + e.length + x.length = consumed + (e.length + x.length) by omega]

/-- A constructed element, from the beginning. -/
theorem strLoop_top (all : List Tag) (m : Mode) {tag : Tag} {c b : List Byte} (hx : DTlv tag true c b) (hc : DEls .seq c) (hb : b.length < 2 ^ 62)
    (rest : List Byte) (f : Nat) (hf : 2 * b.length + 1 ≤ f) :
    strLoop .any all m f [] (b ++ rest) ⟨[], 0⟩ 0 = .ok (.bytes (if m = .explicit then c else b)) b.length := by
  obtain ⟨tl, ll, d1, d2, d3, d4, d4', d5, d6, d7, d8⟩ := dtlv_head hx hb rest
  obtain ⟨f, rfl⟩ : ∃ f', f = f' + 1 := ⟨f - 1, by omega⟩
  unfold strLoop
  rw [d1]
  simp only
  rw [strPush_def d2 d3 (by simp) (by rw [d6, List.length_append]; omega)]
  simp only [if_true, d6]
  have hlen : ((b ++ rest).take (tl + ll)).length = tl + ll := by rw [List.length_take, List.length_append]; omega
  obtain ⟨steps, i1, i2⟩ := strLoop_els all m hc (by omega) [] c.length (tl + ll) rest (Str.outer .any m ([] : List Frame).length ⟨[], 0⟩ ((b ++ rest).take (tl + ll))) (0 + (tl + ll)) (Nat.le_refl _)
  obtain ⟨f', rfl⟩ : ∃ f', f = f' + 1 + steps := ⟨f - 1 - steps, by omega⟩
  rw [i2 (f' + 1)]
  unfold strLoop
  rw [Nat.sub_self, if_pos ⟨rfl, rfl⟩]
  simp only [finalize]
  rw [show 0 + (tl + ll) + c.length = b.length by omega]
  congr 1
  congr 1
  unfold Str.outer
  by_cases hm : m = .explicit
  · subst hm; simp
  · rw [if_pos ⟨rfl, .inl hm⟩, if_neg hm]
    simp only [List.nil_append]
    exact d8

theorem decStr_any {m : Mode} {all : List Tag} {g : Tagging} {v : Val} {b : List Byte} (hm : g.mode = m) (h : Der (.str .any [] all) g v b) (hb : b.length < 2 ^ 62) (rest : List Byte) :
    decStr .any [] all m (b ++ rest) = .ok v b.length := by
  subst hm
  cases g with
  | implicit t => unfold Der at h; exact absurd h id
  | own =>
    unfold Der at h
    obtain ⟨rfl, h⟩ := h
    have pre : ∀ (tag : Nat) (cst : Bool) (c : List Byte), DTlv tag cst c b → ∃ tl ll, checkTags [] .none none (b ++ rest) = .ok ⟨cst, .defn c.length⟩ (tl + ll) ∧
        b.length = tl + ll + c.length ∧ (b ++ rest).drop (tl + ll) = c ++ rest ∧ (b ++ rest).take (tl + ll) ++ c = b := by
      intro tag cst c hx
      obtain ⟨tl, ll, d1, d2, d3, d4, d4', d5, d6, d7, d8⟩ := dtlv_head hx hb rest
      refine ⟨tl, ll, ?_, d5, d6, d8⟩
      rw [checkTags_any]
      unfold anyTags
      rw [d1]
      simp only
      rw [d2, d3]
    unfold decStr
    cases h with
    | prim hx =>
      obtain ⟨tl, ll, p1, p2, p3, p4⟩ := pre _ _ _ hx
      simp only [Tagging.mode, p1, R.andThen, Bool.false_eq_true, if_false]
      rw [p3, if_neg (by rw [List.length_append]; omega)]
      simp only [true_and, ne_eq, reduceCtorEq, not_false_eq_true, if_true, Str.leaf, List.take_left, p4, finalize]
      rw [p2]
    | constr hx hc =>
      obtain ⟨tl, ll, p1, p2, p3, p4⟩ := pre _ _ _ hx
      simp only [Tagging.mode, p1, R.andThen, if_true]
      rw [strLoop_top all .none hx hc hb rest _ (by rw [List.length_append]; omega)]
      simp
  | explicit t =>
    unfold Der at h
    obtain ⟨c, rfl, hx, hc⟩ := h
    obtain ⟨c1, c2, c3⟩ := checkTags_complete (tags := []) (g := .explicit t) (lf := none) (form := true) (c := c) (b := b) (.inl rfl) (by simp [Tagging.mode]) (by simp [Tagging.mode]) hx hb rest
    unfold decStr
    rw [c1]
    simp only [R.andThen, if_true]
    have hseq : DEls .seq c := by simpa using DEls.cons hc .nil
    rw [strLoop_top all _ hx hseq hb rest _ (by rw [List.length_append]; omega)]
    simp [Tagging.mode]

theorem byte_mask_id (x : Byte) (u : Nat) (hu : u ≤ 7) (h : x.toNat % 2 ^ u = 0) : x &&& (0xff#8 <<< u) = x := by
  refine BitVec.eq_of_toNat_eq ?_
  rw [byte_mask x u hu]
  exact Nat.div_mul_cancel (Nat.dvd_of_mod_eq_zero h)

theorem decStr_prim {k : StrKind} {tags all : List Tag} {g : Tagging} {v : Val} {c b : List Byte} (hk : k ≠ .any) (htags : tags ≠ [])
    (hn : DNest (g.tags tags) false c b) (hv : DStr k c v) (hb : b.length < 2 ^ 62) (rest : List Byte) :
    decStr k tags all g.mode (b ++ rest) = .ok v b.length := by
  obtain ⟨c1, c2, c3⟩ := checkTags_complete (lf := none) (.inl rfl) (fun h => htags h.1) (fun h => htags h.1) hn hb rest
  unfold decStr
  rw [c1]
  simp only [R.andThen, Bool.false_eq_true, if_false]
  rw [c3, if_neg (by rw [List.length_append]; omega), List.take_left, show b.length - c.length + c.length = b.length by omega]
  have e : (if k = .any ∧ g.mode ≠ .explicit then (b ++ rest).take (b.length - c.length) else []) = ([] : List Byte) := by rw [if_neg (fun h => hk h.1)]
  rw [e]
  cases k with
  | any => exact absurd rfl hk
  | octets =>
    simp only [DStr] at hv
    subst hv
    simp [Str.leaf, finalize]
  | bits =>
    obtain ⟨u, bs, rfl, h1, h2, h3, rfl⟩ := hv
    have hu : (BitVec.ofNat 8 u).toNat = u := by rw [BitVec.toNat_ofNat]; omega
    simp only [Str.leaf, finalize, List.nil_append, hu]
    by_cases h0 : bs = []
    · rw [if_pos h0, if_neg (by rw [h2 h0]; simp)]
      subst h0
      rw [h2 rfl]
    · rw [if_neg h0, if_neg (by omega)]
      obtain ⟨init, x, rfl⟩ : ∃ init x, bs = init ++ [x] := ⟨_, _, (List.dropLast_append_getLast h0).symm⟩
      simp only [List.dropLast_concat, List.getLast?_concat, Option.map_some, Option.toList_some]
      rw [byte_mask_id x u h1 (h3 x (by simp))]

end Verif.Asn
