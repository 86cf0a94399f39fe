import Verif.Uri.SpecUri
import Verif.Uri.PathProps
import Mathlib.Data.List.Induction
/-
Lemmas on the URI module.
-/
namespace Verif.Uri
open Verif.Res (Byte)

theorem splitSlash_next (l : List Byte) : splitSlash l =
    (nextSlash l).1 :: (match (nextSlash l).2 with | none => [] | some r => splitSlash r) := by
  induction l with
  | nil => rfl
  | cons c cs ih =>
    rw [splitSlash, nextSlash]
    by_cases h : c = slash
    · simp [h]
    · simp only [h, if_false, ih]

theorem nextSlash_take (l : List Byte) : l.take (nextSlash l).1.length = (nextSlash l).1 := by
  induction l with
  | nil => rfl
  | cons c cs ih =>
    unfold nextSlash
    by_cases h : c = slash
    · simp [h]
    · simp [h, ih]

theorem nextSlash_le (l : List Byte) : (nextSlash l).1.length ≤ l.length := by
  have := congrArg List.length (nextSlash_take l)
  rw [List.length_take] at this
  omega

theorem nextSlash_noslash (l : List Byte) : slash ∉ (nextSlash l).1 := by
  induction l with
  | nil => simp [nextSlash]
  | cons c cs ih =>
    unfold nextSlash
    by_cases h : c = slash
    · simp [h]
    · simp only [h, if_false, List.mem_cons, not_or]
      exact ⟨fun e => h e.symm, ih⟩

theorem nextSlash_left (l : List Byte) : (nextSlash l).1.length + 1 + left (nextSlash l).2 = l.length + 1 := by
  induction l with
  | nil => rfl
  | cons c cs ih =>
    unfold nextSlash
    by_cases h : c = slash
    · simp only [h, if_true, left, List.length_nil, List.length_cons]; omega
    · simp only [h, if_false, List.length_cons]; omega

theorem getElem?_of_take {l : List Byte} {n i : Nat} (h : i < n) : l[i]? = (l.take n)[i]? := by
  rw [List.getElem?_take, if_pos h]

theorem isDot_iff (l : List Byte) : pathIsDot l (nextSlash l).1.length = true ↔ (nextSlash l).1 = [dot] := by
  have ht := nextSlash_take l
  unfold pathIsDot
  rw [decide_eq_true_iff]
  generalize (nextSlash l).1 = t at ht ⊢
  constructor
  · rintro ⟨h1, h2⟩
    rw [getElem?_of_take (n := t.length) (by omega), ht] at h2
    match t, h1, h2 with
    | [a], _, h2 => simpa using h2
  · rintro rfl
    refine ⟨rfl, ?_⟩
    rw [getElem?_of_take (n := 1) (by omega)]
    simp only [List.length_cons, List.length_nil] at ht
    rw [ht]; rfl

theorem isDotdots_iff (l : List Byte) : pathIsDotdots l (nextSlash l).1.length = true ↔ (nextSlash l).1 = [dot, dot] := by
  have ht := nextSlash_take l
  unfold pathIsDotdots
  rw [decide_eq_true_iff]
  generalize (nextSlash l).1 = t at ht ⊢
  constructor
  · rintro ⟨h1, h2, h3⟩
    rw [getElem?_of_take (n := t.length) (by omega), ht] at h2 h3
    match t, h1, h2, h3 with
    | [a, b], _, h2, h3 => simp at h2 h3; rw [h2, h3]
  · rintro rfl
    simp only [List.length_cons, List.length_nil] at ht
    refine ⟨rfl, ?_, ?_⟩
    · rw [getElem?_of_take (n := 2) (by omega)]; rw [ht]; rfl
    · rw [getElem?_of_take (n := 2) (by omega)]; rw [ht]; rfl

theorem left_le_of_eq (l : List Byte) : left (nextSlash l).2 ≤ l.length := by
  have := nextSlash_left l; omega

/-- The segments left to walk. -/
def segsOf : Option (List Byte) → List (List Byte)
  | none => []
  | some t => splitSlash t

theorem pathOf_length_snoc (b : List Byte) (cs : List (List Byte)) (c : List Byte) :
    (pathOf b (cs ++ [c])).length = (pathOf b cs).length + (c.length + 1) := by
  rw [pathOf_snoc]; simp only [List.length_append, List.length_cons, List.length_nil]; omega

theorem pathOf_append (b : List Byte) (cs ds : List (List Byte)) : pathOf b (cs ++ ds) = pathOf (pathOf b cs) ds := by
  simp [pathOf]

/-- Appending a token to a path. -/
theorem appendTok {pb : PB} (hi : pb.Inv) {B : List Byte} (hB : B ≠ []) {acc : List (List Byte)} (hs : pb.str = pathOf B acc)
    {text : List Byte} (hn : (nextSlash text).1 ≠ []) :
    if maxCapacity ≤ (pathOf B acc).length + ((nextSlash text).1.length + 1) then
      pbAppendn pb (text ++ [0]) (nextSlash text).1.length = .err .nospc
    else ∃ pb', pbAppendn pb (text ++ [0]) (nextSlash text).1.length = .ok pb' ∧ pb'.Inv ∧
      pb'.str = pathOf B (acc ++ [(nextSlash text).1]) := by
  have hlen : pb.len = (pathOf B acc).length := by rw [← str_length hi, hs]
  have hpos : pb.len ≠ 0 := by rw [hlen]; simp [pathOf, hB]
  have hle := nextSlash_le text
  have := pbAppendn_spec hi (src := text ++ [0]) (n := (nextSlash text).1.length) (by simpa using hn)
    (by simp only [List.length_append, List.length_cons, List.length_nil]; omega)
  rw [if_neg hpos, if_neg hpos] at this
  rw [hlen] at this
  split
  · rw [if_pos (by omega)] at this; exact this
  · rw [if_neg (by omega)] at this
    obtain ⟨pb', e, hi', hs'⟩ := this
    refine ⟨pb', e, hi', ?_⟩
    rw [hs', hs, pathOf_snoc, List.take_append_of_le_length hle, nextSlash_take]

/-- What the loop does. -/
theorem appendLoop_spec {s c : List Byte} (hs : s ≠ []) (hc : slash ∉ c) :
    ∀ (k : Nat) (parser : Option (List Byte)) (_ : left parser ≤ k) (pb : PB) (acc : List (List Byte)) (_ : pb.Inv)
      (_ : ∀ d ∈ acc, slash ∉ d) (_ : pb.str = pathOf (s ++ [slash] ++ c) acc),
      (∃ pb' cs, appendLoop (s ++ [slash] ++ c).length parser pb = .ok pb' ∧ normalize (segsOf parser) acc = some cs ∧
        pb'.Inv ∧ pb'.str = pathOf (s ++ [slash] ++ c) cs) ∨
      (appendLoop (s ++ [slash] ++ c).length parser pb = .err .inval ∧ normalize (segsOf parser) acc = none) ∨
      (appendLoop (s ++ [slash] ++ c).length parser pb = .err .nospc ∧
        maxCapacity ≤ (pathOf (s ++ [slash] ++ c) acc).length + left parser) := by
  have hB : s ++ [slash] ++ c ≠ [] := by simp
  intro k
  induction k with
  | zero =>
    intro parser hk pb acc hi _ hstr
    cases parser with
    | some t => simp [left] at hk
    | none =>
      left
      refine ⟨pb, acc, ?_, rfl, hi, hstr⟩
      unfold appendLoop
      simp [pathNext]
  | succ k ih =>
    intro parser hk pb acc hi hacc hstr
    cases parser with
    | none =>
      left
      refine ⟨pb, acc, ?_, rfl, hi, hstr⟩
      unfold appendLoop
      simp [pathNext]
    | some t =>
      by_cases ht : t = []
      · left
        subst ht
        refine ⟨pb, acc, ?_, ?_, hi, hstr⟩
        · unfold appendLoop
          simp [pathNext]
        · simp [segsOf, splitSlash, normalize]
      · have hnext : pathNext (some t) = some (t, (nextSlash t).1.length, (nextSlash t).2) := by simp [pathNext, ht]
        have hseg : segsOf (some t) = (nextSlash t).1 :: segsOf (nextSlash t).2 := by
          simp only [segsOf]
          rw [splitSlash_next]
        have hleft := nextSlash_left t
        have hleft' : left (some t) = t.length + 1 := rfl
        have hk' : left (nextSlash t).2 ≤ k := by omega
        rw [hseg]
        have hunf : appendLoop (s ++ [slash] ++ c).length (some t) pb =
          if pathIsDotdots t (nextSlash t).1.length then
            match pbPop pb false with
            | .ok pb => if pb.len < (s ++ [slash] ++ c).length then .err .inval else appendLoop (s ++ [slash] ++ c).length (nextSlash t).2 pb
            | .err e => .err e
            | .crash => .crash
          else if pathIsDot t (nextSlash t).1.length then appendLoop (s ++ [slash] ++ c).length (nextSlash t).2 pb
          else
            match pbAppendn pb (t ++ [0]) (nextSlash t).1.length with
            | .ok pb => appendLoop (s ++ [slash] ++ c).length (nextSlash t).2 pb
            | .err e => .err e
            | .crash => .crash := by
          rw [appendLoop]
          split
          · rename_i h; rw [hnext] at h; simp at h
          · rename_i text n p h
            rw [hnext] at h
            simp only [Option.some.injEq, Prod.mk.injEq] at h
            obtain ⟨rfl, rfl, rfl⟩ := h
            rfl
        by_cases hdd : (nextSlash t).1 = [dot, dot]
        · have h1 := (isDotdots_iff t).2 hdd
          rw [h1, if_pos rfl] at hunf
          have hn : ∀ ss, normalize ((nextSlash t).1 :: ss) acc = if acc = [] then none else normalize ss acc.dropLast := by
            intro ss; rw [hdd]; simp [normalize, dot]
          rw [hn]
          by_cases ha : acc = []
          · subst ha
            right; left
            rw [if_pos rfl]
            refine ⟨?_, rfl⟩
            obtain ⟨pb', e, hi', hs'⟩ := pbPop_spec hi (s := s) (c := c) hs hc (by rw [hstr]; simp [pathOf]) false
            rw [hunf, e]
            simp only
            rw [if_pos]
            rw [← str_length hi', hs']
            simp
          · rw [if_neg ha]
            obtain ⟨ds, d, rfl⟩ : ∃ ds d, acc = ds ++ [d] := ⟨acc.dropLast, acc.getLast ha, (List.dropLast_concat_getLast ha).symm⟩
            obtain ⟨pb', e, hi', hs'⟩ := pbPop_spec hi (s := pathOf (s ++ [slash] ++ c) ds) (c := d) (by simp [pathOf])
              (hacc d (by simp)) (by rw [hstr, pathOf_snoc]) false
            rw [hunf, e]
            simp only
            rw [if_neg (by rw [← str_length hi', hs']; simp [pathOf])]
            rw [List.dropLast_concat]
            rcases ih (nextSlash t).2 hk' pb' ds hi' (fun d hd => hacc d (by simp [hd])) hs' with h | h | ⟨h1, h2⟩
            · exact .inl h
            · exact .inr (.inl h)
            · right; right
              refine ⟨h1, ?_⟩
              rw [pathOf_length_snoc]
              omega
        · have h1 : pathIsDotdots t (nextSlash t).1.length = false := by
            rw [← Bool.not_eq_true, isDotdots_iff]; exact hdd
          rw [h1] at hunf
          simp only [Bool.false_eq_true, if_false] at hunf
          by_cases hd : (nextSlash t).1 = [dot]
          · have h2 := (isDot_iff t).2 hd
            rw [h2, if_pos rfl] at hunf
            have hn : ∀ ss, normalize ((nextSlash t).1 :: ss) acc = normalize ss acc := by
              intro ss; rw [hd]; simp [normalize]
            rw [hn, hunf]
            rcases ih (nextSlash t).2 hk' pb acc hi hacc hstr with h | h | ⟨h1, h2⟩
            · exact .inl h
            · exact .inr (.inl h)
            · exact .inr (.inr ⟨h1, by omega⟩)
          · have h2 : pathIsDot t (nextSlash t).1.length = false := by
              rw [← Bool.not_eq_true, isDot_iff]; exact hd
            rw [h2] at hunf
            simp only [Bool.false_eq_true, if_false] at hunf
            by_cases he : (nextSlash t).1 = []
            · have hn : ∀ ss, normalize ((nextSlash t).1 :: ss) acc = normalize ss acc := by
                intro ss; rw [he]; simp [normalize]
              rw [hn, hunf]
              have : pbAppendn pb (t ++ [0]) (nextSlash t).1.length = .ok pb := by rw [he]; simp [pbAppendn]
              rw [this]
              simp only
              rcases ih (nextSlash t).2 hk' pb acc hi hacc hstr with h | h | ⟨h1, h2⟩
              · exact .inl h
              · exact .inr (.inl h)
              · exact .inr (.inr ⟨h1, by omega⟩)
            · have hn : ∀ ss, normalize ((nextSlash t).1 :: ss) acc = normalize ss (acc ++ [(nextSlash t).1]) := by
                intro ss; simp [normalize, he, hd, hdd]
              rw [hn, hunf]
              have := appendTok hi hB hstr he
              split at this
              · rename_i hcap
                rw [this]
                exact .inr (.inr ⟨rfl, by omega⟩)
              · obtain ⟨pb', e, hi', hs'⟩ := this
                rw [e]
                simp only
                rcases ih (nextSlash t).2 hk' pb' _ hi' (by
                    intro d hd
                    rcases List.mem_append.1 hd with h | h
                    · exact hacc d h
                    · simp only [List.mem_singleton] at h; subst h; exact nextSlash_noslash t) hs' with h | h | ⟨h1, h2⟩
                · exact .inl h
                · exact .inr (.inl h)
                · refine .inr (.inr ⟨h1, ?_⟩)
                  rw [pathOf_length_snoc] at h2
                  omega

/-- Appending a URL without its scheme. -/
theorem appendGuri_skip {s c : List Byte} (hs : s ≠ []) (hc : slash ∉ c) {pb : PB} (hi : pb.Inv)
    (hstr : pb.str = s ++ [slash] ++ c) (g pre : List Byte) (hp : startsWith g pre = true) (e : Err) :
    (∃ pb' cs, appendGuri pb g pre e true = .ok pb' ∧ urlComps g = some cs ∧ pb'.Inv ∧
        pb'.str = pathOf (s ++ [slash] ++ c) cs) ∨
    (appendGuri pb g pre e true = .err .inval ∧ urlComps g = none) ∨
    (appendGuri pb g pre e true = .err .nospc ∧ maxCapacity ≤ pb.len + (g.drop 8).length + 1) := by
  have hB : s ++ [slash] ++ c ≠ [] := by simp
  have hlen : pb.len = (s ++ [slash] ++ c).length := by rw [← str_length hi, hstr]
  unfold appendGuri urlComps
  rw [hp]
  simp only [Bool.true_eq_false, if_false, if_true, ok_bind]
  generalize g.drop 8 = t
  have hsp := splitSlash_next t
  rw [hsp]
  by_cases ht : t = []
  · subst ht
    right; left
    exact ⟨rfl, rfl⟩
  · have hnext : pathNext (some t) = some (t, (nextSlash t).1.length, (nextSlash t).2) := by simp [pathNext, ht]
    rw [hnext]
    simp only
    by_cases hd : (nextSlash t).1 = [dot]
    · right; left
      rw [(isDot_iff t).2 hd]
      simp [hd]
    · have h2 : pathIsDot t (nextSlash t).1.length = false := by
        rw [← Bool.not_eq_true, isDot_iff]; exact hd
      by_cases hdd : (nextSlash t).1 = [dot, dot]
      · right; left
        rw [h2, (isDotdots_iff t).2 hdd]
        simp [hdd]
      · have h1 : pathIsDotdots t (nextSlash t).1.length = false := by
          rw [← Bool.not_eq_true, isDotdots_iff]; exact hdd
        rw [h1, h2]
        simp only [Bool.false_eq_true, if_false, ht, hd, hdd, or_self]
        have hleft := nextSlash_left t
        have hsegs : (match (nextSlash t).2 with | none => [] | some r => splitSlash r) = segsOf (nextSlash t).2 := by
          cases (nextSlash t).2 <;> rfl
        rw [hsegs]
        by_cases he : (nextSlash t).1 = []
        · have : pbAppendn pb (t ++ [0]) (nextSlash t).1.length = .ok pb := by rw [he]; simp [pbAppendn]
          rw [this, ok_bind, hlen]
          rcases appendLoop_spec hs hc _ (nextSlash t).2 le_rfl pb [] hi (by simp) (by rw [hstr]; simp [pathOf]) with
            ⟨pb', cs, e1, e2, e3, e4⟩ | ⟨e1, e2⟩ | ⟨e1, e2⟩
          · left
            refine ⟨pb', cs, e1, ?_, e3, e4⟩
            rw [e2, he]; simp
          · right; left
            exact ⟨e1, by rw [e2]; rfl⟩
          · right; right
            refine ⟨e1, ?_⟩
            simp only [pathOf, List.flatMap_nil, List.append_nil] at e2
            omega
        · have := appendTok hi hB (acc := []) (by rw [hstr]; simp [pathOf]) he
          have h0 : pathOf (s ++ [slash] ++ c) [] = s ++ [slash] ++ c := by simp [pathOf]
          rw [h0] at this
          split at this
          · right; right
            rw [this, err_bind]
            exact ⟨rfl, by omega⟩
          · obtain ⟨pb', e', hi', hs'⟩ := this
            rw [e', ok_bind]
            have hb' : pb'.str = (s ++ [slash] ++ c) ++ [slash] ++ (nextSlash t).1 := by rw [hs']; simp [pathOf]
            have hl' : pb'.len = ((s ++ [slash] ++ c) ++ [slash] ++ (nextSlash t).1).length := by
              rw [← str_length hi', hb']
            rw [hl']
            rcases appendLoop_spec hB (nextSlash_noslash t) _ (nextSlash t).2 le_rfl pb' [] hi' (by simp)
                (by rw [hb']; simp [pathOf]) with ⟨pb'', cs, e1, e2, e3, e4⟩ | ⟨e1, e2⟩ | ⟨e1, e2⟩
            · left
              refine ⟨pb'', _, e1, by rw [e2, if_neg he]; rfl, e3, ?_⟩
              rw [e4, pathOf_append]
              simp [pathOf]
            · right; left
              exact ⟨e1, by rw [e2]; rfl⟩
            · right; right
              refine ⟨e1, ?_⟩
              simp only [pathOf, List.flatMap_nil, List.append_nil] at e2
              rw [List.length_append, List.length_append, ← hlen] at e2
              simp only [List.length_cons, List.length_nil] at e2
              omega

theorem normalize_proper : ∀ (ss acc cs : List (List Byte)), (∀ s ∈ ss, slash ∉ s) → (∀ a ∈ acc, Proper a) →
    normalize ss acc = some cs → ∀ c ∈ cs, Proper c := by
  intro ss
  induction ss with
  | nil =>
    intro acc cs _ h2 h3
    simp only [normalize, Option.some.injEq] at h3
    subst h3; exact h2
  | cons s ss ih =>
    intro acc cs h1 h2 h3
    have h1' : ∀ s ∈ ss, slash ∉ s := fun x hx => h1 x (by simp [hx])
    unfold normalize at h3
    split at h3
    · exact ih acc cs h1' h2 h3
    · rename_i ha
      split at h3
      · split at h3
        · simp at h3
        · exact ih _ cs h1' (fun a h => h2 a (List.dropLast_subset _ h)) h3
      · rename_i hb
        rw [not_or] at ha
        refine ih _ cs h1' ?_ h3
        intro a h
        rcases List.mem_append.1 h with h | h
        · exact h2 a h
        · simp only [List.mem_singleton] at h; subst h
          exact ⟨ha.1, h1 a (by simp), ha.2, hb⟩

theorem splitSlash_noslash : ∀ (l : List Byte), ∀ s ∈ splitSlash l, slash ∉ s := by
  intro l
  induction l with
  | nil => simp [splitSlash]
  | cons c cs ih =>
    intro s hs
    unfold splitSlash at hs
    split at hs
    · rcases List.mem_cons.1 hs with rfl | h
      · simp
      · exact ih s h
    · rename_i hc
      split at hs
      · simp only [List.mem_singleton] at hs; subst hs
        simpa using fun e => hc e.symm
      · rename_i t ts e
        rcases List.mem_cons.1 hs with rfl | h
        · rw [List.mem_cons, not_or]
          exact ⟨fun e => hc e.symm, ih t (by rw [e]; simp)⟩
        · exact ih s (by rw [e]; simp [h])

theorem urlComps_proper {g : List Byte} {cs : List (List Byte)} (h : urlComps g = some cs) : ∀ c ∈ cs, Proper c := by
  have hns := splitSlash_noslash (g.drop 8)
  unfold urlComps at h
  split at h
  · simp at h
  · rename_i d segs e
    rw [e] at hns
    split at h
    · simp at h
    · rename_i hd
      rw [not_or, not_or] at hd
      obtain ⟨cs', h1, rfl⟩ := Option.map_eq_some_iff.1 h
      have hp := normalize_proper segs [] cs' (fun s hs => hns s (by simp [hs])) (by simp) h1
      intro c hc
      rcases List.mem_append.1 hc with h | h
      · split at h
        · simp at h
        · rename_i hne
          simp only [List.mem_singleton] at h; subst h
          exact ⟨hne, hns c (by simp), hd.2.1, hd.2.2⟩
      · exact hp c h

theorem pathOf_nil_snoc_len (cs : List (List Byte)) (c : List Byte) :
    (pathOf [] (cs ++ [c])).length = (pathOf [] cs).length + (c.length + 1) := pathOf_length_snoc [] cs c

theorem normalize_len : ∀ (ss acc cs : List (List Byte)), normalize ss acc = some cs →
    (pathOf [] cs).length ≤ (pathOf [] acc).length + (pathOf [] ss).length := by
  intro ss
  induction ss with
  | nil =>
    intro acc cs h
    simp only [normalize, Option.some.injEq] at h
    subst h; omega
  | cons s ss ih =>
    intro acc cs h
    have hss : (pathOf [] (s :: ss)).length = s.length + 1 + (pathOf [] ss).length := by
      simp only [pathOf, List.nil_append, List.flatMap_cons, List.length_append, List.length_cons]
    rw [hss]
    unfold normalize at h
    split at h
    · have := ih acc cs h; omega
    · split at h
      · split at h
        · simp at h
        · rename_i hne
          have := ih _ cs h
          have h2 := pathOf_nil_snoc_len acc.dropLast (acc.getLast hne)
          rw [List.dropLast_concat_getLast] at h2
          omega
      · have := ih _ cs h
        rw [pathOf_nil_snoc_len] at this
        omega

theorem splitSlash_len (l : List Byte) : (pathOf [] (splitSlash l)).length = l.length + 1 := by
  induction l with
  | nil => rfl
  | cons c cs ih =>
    unfold splitSlash
    split
    · rw [pathOf] at ih ⊢
      simp only [List.nil_append, List.flatMap_cons, List.length_append, List.length_cons, List.length_nil] at ih ⊢
      omega
    · cases e : splitSlash cs with
      | nil => rw [e] at ih; simp [pathOf] at ih
      | cons t ts =>
        rw [e] at ih
        rw [pathOf] at ih ⊢
        simp only [List.nil_append, List.flatMap_cons, List.length_append, List.length_cons] at ih ⊢
        omega

theorem urlComps_len {g : List Byte} {cs : List (List Byte)} (h : urlComps g = some cs) :
    (pathOf [] cs).length ≤ (g.drop 8).length + 1 := by
  have hl := splitSlash_len (g.drop 8)
  unfold urlComps at h
  split at h
  · simp at h
  · rename_i d segs e
    rw [e] at hl
    split at h
    · simp at h
    · obtain ⟨cs', h1, rfl⟩ := Option.map_eq_some_iff.1 h
      have := normalize_len segs [] cs' h1
      have hd : (pathOf [] (d :: segs)).length = d.length + 1 + (pathOf [] segs).length := by
        simp only [pathOf, List.nil_append, List.flatMap_cons, List.length_append, List.length_cons]
      have h2 : (pathOf [] ((if d = [] then [] else [d]) ++ cs')).length ≤ d.length + 1 + (pathOf [] cs').length := by
        split
        · simp only [List.nil_append]; omega
        · simp only [pathOf, List.nil_append, List.flatMap_append, List.flatMap_cons, List.flatMap_nil, List.length_append,
            List.length_cons, List.length_nil]; omega
      have h3 : (pathOf [] ([] : List (List Byte))).length = 0 := rfl
      omega

theorem splitSlash_ne (l : List Byte) : splitSlash l ≠ [] := by
  rw [splitSlash_next]; simp

theorem splitSlash_snoc (l c : List Byte) (hc : slash ∉ c) : splitSlash (l ++ [slash] ++ c) = splitSlash l ++ [c] := by
  have h0 : ∀ c : List Byte, slash ∉ c → splitSlash c = [c] := by
    intro c
    induction c with
    | nil => intro _; rfl
    | cons a c ih =>
      intro h
      rw [List.mem_cons, not_or] at h
      unfold splitSlash
      rw [if_neg (fun e => h.1 e.symm), ih h.2]
  induction l with
  | nil => simp [splitSlash, h0 c hc]
  | cons a l ih =>
    simp only [List.cons_append] at ih ⊢
    unfold splitSlash
    rw [ih]
    by_cases ha : a = slash
    · simp [ha]
    · simp only [ha, if_false]
      cases e : splitSlash l with
      | nil => exact absurd e (splitSlash_ne l)
      | cons t ts => simp

/-- Components of a path. -/
theorem splitSlash_pathOf (b : List Byte) : ∀ (cs : List (List Byte)), (∀ c ∈ cs, slash ∉ c) →
    splitSlash (pathOf b cs) = splitSlash b ++ cs := by
  intro cs
  induction cs using List.reverseRecOn with
  | nil => intro _; simp [pathOf]
  | append_singleton cs c ih =>
    intro h
    rw [pathOf_snoc, splitSlash_snoc _ _ (h c (by simp)), ih (fun d hd => h d (by simp [hd]))]
    simp

theorem pathOf_inj {b : List Byte} {cs ds : List (List Byte)} (h1 : ∀ c ∈ cs, slash ∉ c) (h2 : ∀ c ∈ ds, slash ∉ c) :
    pathOf b cs = pathOf b ds ↔ cs = ds := by
  constructor
  · intro h
    have := congrArg splitSlash h
    rw [splitSlash_pathOf b cs h1, splitSlash_pathOf b ds h2] at this
    exact List.append_cancel_left this
  · rintro rfl; rfl

end Verif.Uri
