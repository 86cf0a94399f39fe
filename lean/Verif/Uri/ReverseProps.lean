import Verif.Uri.ReverseLemmas
import Verif.Uri.UriLemmas
import Verif.Uri.PathProps
/-
C212: reversing a path reverses its components.
-/
namespace Verif.Uri
open Verif.Res (Byte)

/-! ### Specification -/

/-- The text of the path is the same components (what's between slashes), from the last one to the first one; nothing
else changes, and the path can still be used. -/
def Reverses (pb : PB) : Prop :=
  ∃ pb', pbReverse pb = .ok pb' ∧ pb'.Inv ∧ pb'.len = pb.len ∧ pb'.mem.length = pb.mem.length ∧
    splitSlash pb'.str = (splitSlash pb.str).reverse

/-! ### Proof -/

theorem exists_pathOf : ∀ l : List Byte, ∃ c cs, splitSlash l = c :: cs ∧ l = pathOf c cs := by
  intro l
  induction l with
  | nil => exact ⟨[], [], rfl, rfl⟩
  | cons x l ih =>
    obtain ⟨c, cs, h1, h2⟩ := ih
    by_cases hx : x = slash
    · refine ⟨[], c :: cs, by simp [splitSlash, hx, h1], ?_⟩
      rw [h2, hx]; simp [pathOf]
    · refine ⟨x :: c, cs, by simp [splitSlash, hx, h1], ?_⟩
      rw [h2]; simp [pathOf]

/-- Components each followed by a slash, and a last one. -/
def closed (ds : List (List Byte)) (l : List Byte) : List Byte := ds.flatMap (· ++ [slash]) ++ l

theorem closed_eq_pathOf : ∀ (ds : List (List Byte)) (l : List Byte), ∃ e es, ds ++ [l] = e :: es ∧ closed ds l = pathOf e es := by
  intro ds
  induction ds with
  | nil => intro l; exact ⟨l, [], rfl, by simp [closed, pathOf]⟩
  | cons d ds ih =>
    intro l
    obtain ⟨e, es, h1, h2⟩ := ih l
    refine ⟨d, e :: es, by rw [List.cons_append, h1], ?_⟩
    have : closed (d :: ds) l = d ++ slash :: closed ds l := by simp [closed]
    rw [this, h2]; simp [pathOf]

theorem splitSlash_closed (ds : List (List Byte)) (l : List Byte) (h : ∀ d ∈ ds, slash ∉ d) (hl : slash ∉ l) :
    splitSlash (closed ds l) = ds ++ [l] := by
  obtain ⟨e, es, h1, h2⟩ := closed_eq_pathOf ds l
  have hall : ∀ c ∈ e :: es, slash ∉ c := by
    rw [← h1]; intro c hc
    rcases List.mem_append.1 hc with hc | hc
    · exact h c hc
    · simp only [List.mem_singleton] at hc; subst hc; exact hl
  have h0 : splitSlash e = [e] := by
    obtain ⟨c, cs, g1, g2⟩ := exists_pathOf e
    cases cs with
    | nil => rw [g1, g2]; simp [pathOf]
    | cons x xs =>
      exact absurd (by rw [g2]; simp [pathOf]) (hall e (by simp))
  rw [h2, splitSlash_pathOf e es (fun c hc => hall c (by simp [hc])), h0, h1]
  rfl

theorem pathOf_reverse (c : List Byte) : ∀ cs : List (List Byte),
    (pathOf c cs).reverse = closed (cs.reverse.map List.reverse) c.reverse := by
  intro cs
  induction cs with
  | nil => simp [pathOf, closed]
  | cons d cs ih =>
    simp only [pathOf, closed, List.reverse_append, List.flatMap_cons, List.reverse_cons, List.map_append,
      List.flatMap_append, List.map_cons, List.map_nil, List.flatMap_nil, List.append_nil] at ih ⊢
    have : (cs.flatMap fun c => slash :: c).reverse = (cs.reverse.map List.reverse).flatMap (· ++ [slash]) :=
      List.append_cancel_right ih
    rw [this]

theorem reverseLoop_closed (l T : List Byte) (hl : slash ∉ l) : ∀ (ds : List (List Byte)) (P : List Byte),
    (∀ d ∈ ds, IsSeg d) →
    reverseLoop (P ++ closed ds l ++ T) (P.length + (closed ds l).length) P.length (P.length + 1) =
      .ok (P ++ closed (ds.map List.reverse) l.reverse ++ T) := by
  intro ds
  induction ds with
  | nil =>
    intro P _
    have e : closed [] l = l := by simp [closed]
    have e' : closed ([].map List.reverse) l.reverse = l.reverse := by simp [closed]
    rw [e, e']
    have fin : ∀ m, P.length + l.length ≤ m → reverseLoop (P ++ l ++ T) (P.length + l.length) P.length m =
        .ok (P ++ l.reverse ++ T) := by
      intro m hm
      unfold reverseLoop
      rw [if_neg (by omega)]
      exact reverseString_spec _ _ _ _ _ rfl (by omega)
    rcases Nat.eq_zero_or_pos l.length with h | h
    · exact fin _ (by omega)
    · rw [reverseLoop_comp _ P l T (List.length_pos_iff.1 h) hl le_rfl]
      exact fin _ le_rfl
  | cons d ds ih =>
    intro P hds
    have hd := hds d (by simp)
    have e : closed (d :: ds) l = d ++ slash :: closed ds l := by simp [closed]
    have e' : closed ((d :: ds).map List.reverse) l.reverse = d.reverse ++ slash :: closed (ds.map List.reverse) l.reverse := by
      simp [closed]
    rw [e, e']
    have a1 : P ++ (d ++ slash :: closed ds l) ++ T = P ++ d ++ (slash :: (closed ds l ++ T)) := by simp
    have hlen : P.length + (d ++ slash :: closed ds l).length = P.length + d.length + 1 + (closed ds l).length := by
      simp only [List.length_append, List.length_cons]; omega
    rw [a1, hlen, reverseLoop_comp _ P d _ hd.1 hd.2 (by omega)]
    unfold reverseLoop
    rw [if_pos (by omega), memGet_at (P ++ d) slash _ _ (by simp), ok_bind, if_pos rfl,
      reverseString_spec P d _ _ _ rfl (by omega), ok_bind]
    have := ih (P ++ d.reverse ++ [slash]) (fun d hd => hds d (by simp [hd]))
    have a2 : (P ++ d.reverse ++ [slash]).length = P.length + d.length + 1 := by simp; omega
    have a3 : P ++ d.reverse ++ (slash :: (closed ds l ++ T)) = P ++ d.reverse ++ [slash] ++ closed ds l ++ T := by simp
    rw [a2] at this
    rw [a3, this]
    simp

theorem mem_split {pb : PB} (_ : pb.Inv) : pb.mem = pb.str ++ pb.mem.drop pb.len := by
  simp [PB.str]

theorem inv_of {pb : PB} (h : pb.Inv) (s : List Byte) (hs : s.length = pb.len) :
    PB.Inv { pb with mem := s ++ pb.mem.drop pb.len } ∧ (PB.str { pb with mem := s ++ pb.mem.drop pb.len }) = s ∧
      (s ++ pb.mem.drop pb.len).length = pb.mem.length := by
  have hl : (s ++ pb.mem.drop pb.len).length = pb.mem.length := by
    have := h.fits
    simp only [List.length_append, List.length_drop]; omega
  refine ⟨⟨by simp only [hl]; exact h.fits, ?_, by simp only [hl]; exact h.cap, by simp only [hl]; exact h.pow⟩, ?_, hl⟩
  · simp only
    rw [List.getElem?_append_right (by omega), List.getElem?_drop, ← h.term]
    congr 1; omega
  · simp only [PB.str, ← hs, List.take_left]

theorem pbReverse_paths {pb : PB} (h : pb.Inv) (c : List Byte) (cs : List (List Byte)) (hs : pb.str = pathOf c cs)
    (hc : slash ∉ c) (hcs : ∀ d ∈ cs, IsSeg d) :
    ∃ pb', pbReverse pb = .ok pb' ∧ pb'.Inv ∧ pb'.len = pb.len ∧ pb'.mem.length = pb.mem.length ∧
      pb'.str = closed cs.reverse c := by
  have hlen := str_length h
  have hrev := pathOf_reverse c cs
  rw [← hs] at hrev
  have hm : (cs.reverse.map List.reverse).map List.reverse = cs.reverse := by simp [Function.comp_def]
  have hl2 : (closed (cs.reverse.map List.reverse) c.reverse).length = pb.len := by
    rw [← hrev, List.length_reverse, hlen]
  have key := reverseLoop_closed c.reverse (pb.mem.drop pb.len) (by simpa using hc) (cs.reverse.map List.reverse) []
    (by
      intro d hd
      obtain ⟨x, hx, rfl⟩ := List.mem_map.1 hd
      have := hcs x (by simpa using hx)
      exact ⟨by simpa using this.1, by simpa using this.2⟩)
  simp only [List.nil_append, List.length_nil, Nat.zero_add, hm, List.reverse_reverse, hl2] at key
  have hl3 : (closed cs.reverse c).length = pb.len := by
    rw [← hlen, hs]
    simp only [closed, pathOf, List.length_append, List.length_flatMap, List.map_reverse, List.sum_reverse,
      List.length_cons, List.length_nil, Nat.add_comm]
  obtain ⟨i1, i2, i3⟩ := inv_of h (closed cs.reverse c) hl3
  refine ⟨{ pb with mem := closed cs.reverse c ++ pb.mem.drop pb.len }, ?_, i1, rfl, i3, i2⟩
  unfold pbReverse
  have r0 : reverseString pb.mem 0 pb.len = .ok (pb.str.reverse ++ pb.mem.drop pb.len) := by
    conv_lhs => rw [mem_split h]
    exact reverseString_spec [] pb.str _ _ _ rfl hlen.symm
  rw [r0, ok_bind, hrev, key, ok_bind]

/-- **C212, for paths without empty components** (other than the one before the slash of an absolute path): the
components are reversed. -/
theorem C212_partial (pb : PB) (h : pb.Inv) (he : [] ∉ (splitSlash pb.str).tail) : Reverses pb := by
  obtain ⟨c, cs, h1, h2⟩ := exists_pathOf pb.str
  have hno := splitSlash_noslash pb.str
  rw [h1] at hno he
  simp only [List.tail_cons] at he
  obtain ⟨pb', e1, e2, e3, e4, e5⟩ := pbReverse_paths h c cs h2 (hno c (by simp))
    (fun d hd => ⟨fun hn => he (hn ▸ hd), hno d (by simp [hd])⟩)
  refine ⟨pb', e1, e2, e3, e4, ?_⟩
  rw [e5, h1, splitSlash_closed _ _ (fun d hd => hno d (by simp at hd; simp [hd])) (hno c (by simp)), List.reverse_cons]

/-- A path of components, as those that `pb_append` makes, becomes the path of the same components in the opposite
order. -/
theorem C212_joined (pb : PB) (h : pb.Inv) (cs : List (List Byte)) (hcs : ∀ c ∈ cs, IsSeg c) (hs : pb.str = joined cs) :
    ∃ pb', pbReverse pb = .ok pb' ∧ pb'.Inv ∧ pb'.str = joined cs.reverse := by
  cases cs with
  | nil =>
    obtain ⟨pb', e1, e2, -, -, e5⟩ := pbReverse_paths h [] [] (by simpa [joined, pathOf] using hs) (by simp) (by simp)
    exact ⟨pb', e1, e2, by rw [e5]; simp [closed, joined]⟩
  | cons c cs =>
    obtain ⟨pb', e1, e2, -, -, e5⟩ := pbReverse_paths h c cs hs (hcs c (by simp)).2 (fun d hd => hcs d (by simp [hd]))
    refine ⟨pb', e1, e2, ?_⟩
    obtain ⟨e, es, g1, g2⟩ := closed_eq_pathOf cs.reverse c
    rw [e5, List.reverse_cons, g1, g2]
    rfl

/-- Reversing twice is doing nothing to the text. -/
theorem C212_twice (pb : PB) (h : pb.Inv) (cs : List (List Byte)) (hcs : ∀ c ∈ cs, IsSeg c) (hs : pb.str = joined cs) :
    ∃ pb' pb'', pbReverse pb = .ok pb' ∧ pbReverse pb' = .ok pb'' ∧ pb''.str = pb.str := by
  obtain ⟨pb', e1, e2, e3⟩ := C212_joined pb h cs hcs hs
  obtain ⟨pb'', f1, -, f3⟩ := C212_joined pb' e2 cs.reverse (fun c hc => hcs c (by simpa using hc)) e3
  exact ⟨pb', pb'', e1, f1, by rw [f3, hs, List.reverse_reverse]⟩

theorem memGet_ok {mem : List Byte} {i : Nat} (h : i < mem.length) : memGet mem i = .ok mem[i] := by
  simp [memGet, List.getElem?_eq_getElem h]

theorem reverseString_safe (s T : List Byte) (i n : Nat) (h : i + n ≤ s.length) :
    ∃ s', reverseString (s ++ T) i n = .ok (s' ++ T) ∧ s'.Perm s := by
  have e : s = s.take i ++ (s.drop i).take n ++ s.drop (i + n) := by
    rw [List.append_assoc, ← List.drop_drop, List.take_append_drop, List.take_append_drop]
  refine ⟨s.take i ++ ((s.drop i).take n).reverse ++ s.drop (i + n), ?_, ?_⟩
  · have := reverseString_spec (s.take i) ((s.drop i).take n) (s.drop (i + n) ++ T) i n (by simp; omega) (by simp; omega)
    rw [← List.append_assoc, ← List.append_assoc] at this
    conv_lhs => rw [e]
    exact this
  · conv_rhs => rw [e]
    exact (List.Perm.append_left _ (List.reverse_perm _)).append_right _

theorem reverseLoop_safe (T : List Byte) (len : Nat) : ∀ (n : Nat) (s : List Byte) (min max : Nat),
    len - max = n → s.length = len → min ≤ max → min ≤ len →
    ∃ s', reverseLoop (s ++ T) len min max = .ok (s' ++ T) ∧ s'.Perm s := by
  intro n
  induction n using Nat.strong_induction_on with
  | _ n ih =>
    intro s min max hn hs h1 h2
    unfold reverseLoop
    by_cases hlt : max < len
    · rw [if_pos hlt, memGet_ok (by simp; omega), ok_bind]
      split
      · obtain ⟨s1, e1, p1⟩ := reverseString_safe s T min (max - min) (by omega)
        obtain ⟨s2, e2, p2⟩ := ih (len - (max + 2)) (by omega) s1 (max + 1) (max + 2) rfl (by rw [p1.length_eq, hs])
          (by omega) (by omega)
        exact ⟨s2, by rw [e1, ok_bind, e2], p2.trans p1⟩
      · exact ih (len - (max + 1)) (by omega) s min (max + 1) rfl hs (by omega) h2
    · rw [if_neg hlt]
      exact reverseString_safe s T min (len - min) (by omega)

/-- Whatever the path is, reversing it stays within the block and within the text, and only moves characters. -/
theorem C212_safe (pb : PB) (h : pb.Inv) :
    ∃ pb', pbReverse pb = .ok pb' ∧ pb'.Inv ∧ pb'.len = pb.len ∧ pb'.mem.length = pb.mem.length ∧
      pb'.str.Perm pb.str := by
  have hlen := str_length h
  obtain ⟨s1, e1, p1⟩ := reverseString_safe pb.str (pb.mem.drop pb.len) 0 pb.len (by omega)
  obtain ⟨s2, e2, p2⟩ := reverseLoop_safe (pb.mem.drop pb.len) pb.len _ s1 0 1 rfl (by rw [p1.length_eq, hlen])
    (by omega) (by omega)
  rw [← mem_split h] at e1
  have hl : s2.length = pb.len := by rw [p2.length_eq, p1.length_eq, hlen]
  obtain ⟨i1, i2, i3⟩ := inv_of h s2 hl
  refine ⟨{ pb with mem := s2 ++ pb.mem.drop pb.len }, ?_, i1, rfl, i3, by rw [i2]; exact p2.trans p1⟩
  unfold pbReverse
  rw [e1, ok_bind, e2, ok_bind]

/-- What `pb_init` and `pb_append` make of some texts. -/
def built (cs : List (List Byte)) : R PB := cs.foldlM (fun pb c => pbAppend pb (some c)) pbInit

theorem built_inv : ∀ (cs : List (List Byte)) (pb0 pb : PB), pb0.Inv →
    cs.foldlM (fun pb c => pbAppend pb (some c)) pb0 = .ok pb → pb.Inv := by
  intro cs
  induction cs with
  | nil =>
    intro pb0 pb h e
    simp only [List.foldlM_nil] at e
    cases e
    exact h
  | cons c cs ih =>
    intro pb0 pb h e
    rw [List.foldlM_cons] at e
    obtain ⟨pb1, a1, a2⟩ := bind_eq_ok.1 e
    refine ih pb1 pb ?_ a2
    by_cases hc : c = []
    · subst hc
      simp [pbAppend, pbAppendn] at a1
      exact a1 ▸ h
    · have := pbAppend_seg h hc
      by_cases hm : maxCapacity < pb0.len + (if pb0.len = 0 then c.length else c.length + 1) + 1
      · rw [if_pos hm] at this
        rw [this] at a1; cases a1
      · rw [if_neg hm] at this
        obtain ⟨p, e', hi, -⟩ := this
        rw [e'] at a1; cases a1
        exact hi

/-- The path a//bc. -/
def doubled : PB := ⟨[0x61, slash, slash, 0x62, 0x63] ++ List.replicate 123 0, 5⟩

theorem doubled_built : built [[0x61, slash], [0x62, 0x63]] = .ok doubled := by decide +kernel

theorem doubled_reversed :
    pbReverse doubled = .ok ⟨[0x62, 0x63, slash, 0x61, slash] ++ List.replicate 123 0, 5⟩ := by decide +kernel

/-- **C212 is false.** The path a//bc, which is what appending "a/" and "bc" gives, has the components "a", "" and "bc".
Reversed it is bc/a/ and not bc//a, because the character after a slash isn't looked at. -/
theorem C212_refuted : ∃ pb, built [[0x61, slash], [0x62, 0x63]] = .ok pb ∧ pb.Inv ∧
    splitSlash pb.str = [[0x61], [], [0x62, 0x63]] ∧ ¬ Reverses pb := by
  refine ⟨doubled, doubled_built, built_inv _ _ _ pbInit_inv doubled_built, by decide +kernel, ?_⟩
  rintro ⟨pb', h, -, -, -, hs⟩
  rw [doubled_reversed] at h
  cases h
  exact absurd hs (by decide +kernel)

/-- The path /ab/c, which is absolute. -/
def absolute : PB := ⟨[slash, 0x61, 0x62, slash, 0x63] ++ List.replicate 123 0, 5⟩

theorem absolute_built : built [[slash, 0x61, 0x62], [0x63]] = .ok absolute := by decide +kernel

/-- The hypotheses of `C212_partial` are met by an absolute path, and its conclusion isn't what one has already. -/
example : absolute.Inv ∧ [] ∉ (splitSlash absolute.str).tail ∧ Reverses absolute ∧
    (splitSlash absolute.str).reverse = [[0x63], [0x61, 0x62], []] := by
  have hi := built_inv _ _ _ pbInit_inv absolute_built
  have ht : [] ∉ (splitSlash absolute.str).tail := by decide +kernel
  exact ⟨hi, ht, C212_partial _ hi ht, by decide +kernel⟩

/-- The path ab/c, of two components. -/
def relative : PB := ⟨[0x61, 0x62, slash, 0x63] ++ List.replicate 124 0, 4⟩

theorem relative_built : built [[0x61, 0x62], [0x63]] = .ok relative := by decide +kernel

/-- The hypotheses of `C212_joined` and `C212_twice` are met. -/
example : relative.Inv ∧ (∀ c ∈ [[0x61, 0x62], [0x63]], IsSeg c) ∧ relative.str = joined [[0x61, 0x62], [0x63]] ∧
    ∃ pb', pbReverse relative = .ok pb' ∧ pb'.str = [0x63, slash, 0x61, 0x62] := by
  have hi := built_inv _ _ _ pbInit_inv relative_built
  have hc : ∀ c ∈ [[0x61, 0x62], [0x63]], IsSeg c := by
    intro c hc
    simp only [List.mem_cons, List.not_mem_nil, or_false] at hc
    rcases hc with rfl | rfl <;> exact ⟨by simp, by decide⟩
  have hs : relative.str = joined [[0x61, 0x62], [0x63]] := by decide +kernel
  obtain ⟨pb', e, -, e2⟩ := C212_joined _ hi _ hc hs
  exact ⟨hi, hc, hs, pb', e, by rw [e2]; decide +kernel⟩

end Verif.Uri
