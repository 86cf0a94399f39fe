import Verif.Fs.Spec
import Verif.Tal.SanitizeProps
import Mathlib.Tactic.ByContra
/-
C135 to C140.
-/
namespace Verif.Fs
open Verif.Rtr (Byte)

/-! ## C135 -/

theorem split_slash (b : List Char) : ∀ (a cur : List Char), split cur (a ++ '/' :: b) = split cur a ++ split [] b
  | [], cur => by simp [split]
  | c :: a, cur => by
    rw [List.cons_append, split, split]
    split
    · rw [split_slash b a [], List.cons_append]
    · rw [split_slash b a (cur ++ [c])]

theorem comps_slash (a b : List Char) : comps (a ++ '/' :: b) = comps a ++ comps b := by
  unfold comps
  rw [split_slash, List.filter_append]

theorem beforeLastSlash_spec (s : List Char) : match beforeLastSlash s with
    | none => '/' ∉ s
    | some t => ∃ name, s = t ++ '/' :: name ∧ '/' ∉ name := by
  unfold beforeLastSlash
  have key := List.takeWhile_append_dropWhile (p := fun c => decide (c ≠ '/')) (l := s.reverse)
  have hin : '/' ∉ s.reverse.takeWhile (fun c => decide (c ≠ '/')) := by
    intro h
    have := List.all_takeWhile (p := fun c => decide (c ≠ '/')) (l := s.reverse)
    rw [List.all_eq_true] at this
    exact absurd (this _ h) (by decide)
  cases hd : s.reverse.dropWhile (fun c => decide (c ≠ '/')) with
  | nil =>
    rw [hd, List.append_nil] at key
    simp only
    intro h
    exact hin (by rw [key]; exact List.mem_reverse.2 h)
  | cons c r =>
    have hc : c = '/' := by
      have hne : s.reverse.dropWhile (fun c => decide (c ≠ '/')) ≠ [] := by rw [hd]; simp
      have h := List.head_dropWhile_not (fun c => decide (c ≠ '/')) hne
      simp only [hd, List.head_cons] at h
      simpa using h
    simp only
    refine ⟨(s.reverse.takeWhile (fun c => decide (c ≠ '/'))).reverse, ?_, ?_⟩
    · rw [hd] at key
      have := congrArg List.reverse key
      rw [List.reverse_reverse, List.reverse_append, List.reverse_cons, hc] at this
      rw [List.append_assoc] at this
      exact this.symm
    · rw [List.mem_reverse]; exact hin

theorem mem_above {a b : List Name} {n : Name} (h : a ++ [n] <+: b) : a <+: b := (List.prefix_append a [n]).trans h

/-- There's no file in the way. -/
def Clear (t : Tree) (target : Loc) : Prop := ∀ l, Above l target → t.node l ≠ some .file

theorem wf_above {t : Tree} (w : t.Wf) (abs : Bool) : ∀ (q p : List Name), (t.node (abs, p ++ q)).isSome → q ≠ [] → t.node (abs, p) = some .dir := by
  intro q
  induction q with
  | nil => intro _ _ h; exact absurd rfl h
  | cons n q ih =>
    intro p h _
    by_cases hq : q = []
    · subst hq
      exact w.parent abs p n h
    · have h1 : (t.node (abs, (p ++ [n]) ++ q)).isSome := by simpa using h
      have h2 := ih (p ++ [n]) h1 hq
      exact w.parent abs p n (by rw [h2]; rfl)

theorem look_clear {t : Tree} (w : t.Wf) (abs : Bool) : ∀ (rest seen : List Name), (∀ p, p <+: seen → p ≠ seen → t.node (abs, p) ≠ some .file) → look t abs seen rest = .error ENOENT → Clear t (abs, seen ++ rest)
  | [], seen, hs, h => by
    unfold look at h
    cases hn : t.node (abs, seen) with
    | some k => rw [hn] at h; cases h
    | none =>
      rintro ⟨a, p⟩ ⟨h1, h2⟩ hf
      simp only at h1 h2
      subst h1
      rw [List.append_nil] at h2
      by_cases he : p = seen
      · subst he; rw [hn] at hf; cases hf
      · exact hs p h2 he hf
  | n :: rest, seen, hs, h => by
    unfold look at h
    cases hn : t.node (abs, seen) with
    | none =>
      rintro ⟨a, p⟩ ⟨h1, h2⟩ hf
      simp only at h1 h2
      subst h1
      rcases List.prefix_or_prefix_of_prefix h2 (List.prefix_append seen (n :: rest)) with hp | ⟨q, rfl⟩
      · by_cases he : p = seen
        · subst he; rw [hn] at hf; cases hf
        · exact hs p hp he hf
      · by_cases hq : q = []
        · subst hq; rw [List.append_nil, hn] at hf; cases hf
        · have := wf_above w a q seen (by rw [hf]; rfl) hq
          rw [hn] at this; cases this
    | some k =>
      rw [hn] at h
      cases k with
      | file => simp only at h; injection h with h; exact absurd h (by decide)
      | dir =>
        simp only at h
        split at h
        · injection h with h; exact absurd h (by decide)
        · have := look_clear w abs rest (seen ++ [n]) (fun p hp hne => by
            rw [List.prefix_concat_iff] at hp
            rcases hp with rfl | hp
            · exact absurd rfl hne
            · by_cases he : p = seen
              · subst he; rw [hn]; simp
              · exact hs p hp he) h
          rw [List.append_assoc] at this
          exact this

theorem look_err {t : Tree} {abs : Bool} {e : Nat} : ∀ (rest seen : List Name), look t abs seen rest = .error e → e = ENOENT ∨ e = ENOTDIR ∨ e = EACCES
  | [], seen, h => by
    unfold look at h
    cases hn : t.node (abs, seen) with
    | none => rw [hn] at h; injection h with h; exact Or.inl h.symm
    | some k => rw [hn] at h; cases h
  | n :: rest, seen, h => by
    unfold look at h
    cases hn : t.node (abs, seen) with
    | none => rw [hn] at h; injection h with h; exact Or.inl h.symm
    | some k =>
      rw [hn] at h
      cases k with
      | file => injection h with h; exact Or.inr (Or.inl h.symm)
      | dir =>
        simp only at h
        split at h
        · injection h with h; exact Or.inr (Or.inr h.symm)
        · exact look_err rest _ h

theorem stat_err {t : Tree} {s : List Char} {e : Nat} (h : stat t s = .error e) : e = ENOENT ∨ e = ENOTDIR ∨ e = EACCES := by
  unfold stat at h
  split at h
  · injection h with h; exact Or.inl h.symm
  · cases hk : look t (loc s).1 [] (loc s).2 with
    | error e' => rw [hk] at h; simp only at h; injection h with h; subst h; exact look_err _ _ hk
    | ok k =>
      rw [hk] at h
      cases k with
      | dir => cases h
      | file =>
        simp only at h
        split at h
        · injection h with h; exact Or.inr (Or.inl h.symm)
        · cases h

theorem add_node (t : Tree) (l m : Loc) : (t.add l).node m = if m = l then some .dir else t.node m := rfl

theorem look_dir {t : Tree} (w : t.Wf) (abs : Bool) : ∀ (rest seen : List Name) (k : Kind), look t abs seen rest = .ok k → t.node (abs, seen ++ rest) = some k
  | [], seen, k, h => by
    unfold look at h
    cases hn : t.node (abs, seen) with
    | none => rw [hn] at h; cases h
    | some k' => rw [hn] at h; injection h with h; subst h; rw [List.append_nil, hn]
  | n :: rest, seen, k, h => by
    unfold look at h
    cases hn : t.node (abs, seen) with
    | none => rw [hn] at h; cases h
    | some k' =>
      rw [hn] at h
      cases k' with
      | file => cases h
      | dir =>
        simp only at h
        split at h
        · cases h
        · have := look_dir w abs rest (seen ++ [n]) k h
          rwa [List.append_assoc] at this

theorem onlyCreated_refl (t : Tree) (l : Loc) : OnlyCreated t t l := ⟨rfl, rfl, fun _ => Or.inl rfl⟩

theorem onlyCreated_trans {t1 t2 t3 : Tree} {l : Loc} (h1 : OnlyCreated t1 t2 l) (h2 : OnlyCreated t2 t3 l) : OnlyCreated t1 t3 l := by
  refine ⟨h2.1.trans h1.1, h2.2.1.trans h1.2.1, fun m => ?_⟩
  rcases h2.2.2 m with h | ⟨a, b, c⟩
  · rw [h]; exact h1.2.2 m
  · rcases h1.2.2 m with h' | ⟨_, _, c'⟩
    · exact Or.inr ⟨a, h' ▸ b, c⟩
    · rw [b] at c'; cases c'

/-- What `create_dir` does. -/
theorem createDir_spec {t : Tree} (w : t.Wf) (s : List Char) (target : Loc) (ha : Above (loc s) target) :
    (createDir t s).2.Wf ∧ OnlyCreated t (createDir t s).2 target ∧ 0 ≤ (createDir t s).1 ∧ ((createDir t s).1 = 0 → Clear t target → (createDir t s).2.node (loc s) = some .dir) := by
  unfold createDir
  have hm : (∃ e, mkdir t s = .error e ∧ e ≠ 0 ∧ (e = EEXIST → (t.node (loc s)).isSome)) ∨ (mkdir t s = .ok (t.add (loc s)) ∧ t.node (loc s) = none ∧ ∃ n, (loc s).2 = (loc s).2.dropLast ++ [n] ∧ t.node ((loc s).1, (loc s).2.dropLast) = some .dir) := by
    unfold mkdir
    split
    · exact Or.inl ⟨_, rfl, by decide, fun h => absurd h (by decide)⟩
    · cases hl : (loc s).2.getLast? with
      | none =>
        refine Or.inl ⟨_, rfl, by decide, fun _ => ?_⟩
        rw [List.getLast?_eq_none_iff] at hl
        have : loc s = ((loc s).1, []) := Prod.ext rfl hl
        rw [this, w.root]; rfl
      | some n =>
        simp only
        cases hk : look t (loc s).1 [] (loc s).2.dropLast with
        | error e =>
          refine Or.inl ⟨e, rfl, ?_, fun he => ?_⟩
          · rcases look_err _ _ hk with rfl | rfl | rfl <;> decide
          · rcases look_err _ _ hk with rfl | rfl | rfl <;> exact absurd he (by decide)
        | ok k =>
          cases k with
          | file => exact Or.inl ⟨_, rfl, by decide, fun h => absurd h (by decide)⟩
          | dir =>
            simp only
            split
            · exact Or.inl ⟨_, rfl, by decide, fun h => absurd h (by decide)⟩
            · split
              · rename_i h; exact Or.inl ⟨_, rfl, by decide, fun _ => h⟩
              · split
                · exact Or.inl ⟨_, rfl, by decide, fun h => absurd h (by decide)⟩
                · rename_i hs _
                  refine Or.inr ⟨rfl, by simpa using hs, n, ?_, ?_⟩
                  · obtain ⟨ys, hy⟩ := List.getLast?_eq_some_iff.1 hl
                    rw [hy]; simp
                  · have := look_dir w _ _ _ _ hk
                    rwa [List.nil_append] at this
  rcases hm with ⟨e, he, h0, hx⟩ | ⟨he, hnone, n, hn, hp⟩
  · rw [he]
    simp only
    split
    · refine ⟨w, onlyCreated_refl t _, Int.natCast_nonneg _, fun hz => ?_⟩
      exact absurd (Int.natCast_eq_zero.1 hz) h0
    · rename_i hee
      have hee : e = EEXIST := Decidable.not_not.1 hee
      refine ⟨w, onlyCreated_refl t _, Int.le_refl _, fun _ hc => ?_⟩
      have hs := hx hee
      cases hk : t.node (loc s) with
      | none => rw [hk] at hs; cases hs
      | some k =>
        cases k with
        | dir => rfl
        | file => exact absurd hk (hc _ ha)
  · rw [he]
    simp only
    refine ⟨⟨?_, ?_⟩, ⟨rfl, rfl, ?_⟩, Int.le_refl _, fun _ _ => by rw [add_node, if_pos rfl]⟩
    · intro abs
      rw [add_node]
      split
      · rfl
      · exact w.root abs
    · intro abs l m h
      rw [add_node] at h
      rw [add_node]
      by_cases h1 : (abs, l) = loc s
      · rw [if_pos h1]
      · rw [if_neg h1]
        by_cases h2 : (abs, l ++ [m]) = loc s
        · have e1 : abs = (loc s).1 := congrArg Prod.fst h2
          have e2 : l ++ [m] = (loc s).2 := congrArg Prod.snd h2
          rw [hn] at e2
          have e3 := List.append_inj_left' e2 rfl
          rw [e1, e3, hp]
        · rw [if_neg h2] at h
          exact w.parent abs l m h
    · intro l
      rw [add_node]
      by_cases h : l = loc s
      · rw [if_pos h]; subst h; exact Or.inr ⟨ha, hnone, rfl⟩
      · rw [if_neg h]; exact Or.inl rfl

theorem onlyCreated_clear {t t' : Tree} {l : Loc} (h : OnlyCreated t t' l) (hc : Clear t l) : Clear t' l := by
  intro m hm hf
  rcases h.2.2 m with h1 | ⟨_, _, h1⟩
  · rw [h1] at hf; exact hc m hm hf
  · rw [h1] at hf; cases hf

theorem loc_above {done rest : List Char} (hd : done ≠ []) : Above (loc done) (loc (done ++ '/' :: rest)) := by
  constructor
  · unfold loc
    cases done with
    | nil => exact absurd rfl hd
    | cons c d => rfl
  · show comps done <+: comps (done ++ '/' :: rest)
    rw [comps_slash]
    exact List.prefix_append ..

theorem mkdirLoop_spec (s : List Char) : ∀ (rest done : List Char) (t : Tree), done ≠ [] → s = done ++ rest → t.Wf →
    (mkdirLoop t done rest).2.Wf ∧ OnlyCreated t (mkdirLoop t done rest).2 (loc s) ∧ 0 ≤ (mkdirLoop t done rest).1 ∧ ((mkdirLoop t done rest).1 = 0 → Clear t (loc s) → (mkdirLoop t done rest).2.node (loc s) = some .dir)
  | [], done, t, hd, hs, w => by
    rw [List.append_nil] at hs
    subst hs
    exact createDir_spec w s (loc s) ⟨rfl, List.prefix_rfl⟩
  | c :: rest, done, t, hd, hs, w => by
    rw [mkdirLoop]
    split
    · rename_i hc
      subst hc
      obtain ⟨h1, h2, h3, h4⟩ := createDir_spec w done (loc s) (by rw [hs]; exact loc_above hd)
      cases hr : createDir t done with
      | mk r t' =>
        rw [hr] at h1 h2 h3 h4
        simp only at h1 h2 h3 h4 ⊢
        split
        · rename_i hne
          exact ⟨h1, h2, h3, fun h => absurd h hne⟩
        · obtain ⟨k1, k2, k3, k4⟩ := mkdirLoop_spec s rest (done ++ ['/']) t' (by simp) (by simp [hs]) h1
          exact ⟨k1, onlyCreated_trans h2 k2, k3, fun h hc => k4 h (onlyCreated_clear h2 hc)⟩
    · exact mkdirLoop_spec s rest (done ++ [c]) t (by simp) (by simp [hs]) w

/-- The property: if it succeeds then the directory is there. -/
def MkdirMakes : Prop :=
  ∀ (t : Tree) (path target : List Char) (incl : Bool) (t' : Tree), t.Wf → Target path incl target → mkdirP t path incl = some (0, t') → t'.node (loc target) = some .dir

/-- A file, `f`. -/
def exTree : Tree := ⟨fun l => if l.2 = [] then some .dir else if l = (false, [['f']]) then some .file else none, fun _ => false, fun _ => false⟩

theorem exTree_wf : exTree.Wf where
  root := by intro abs; rfl
  parent := by
    intro abs l n h
    unfold exTree at h ⊢
    simp only [List.append_eq_nil_iff, List.cons_ne_self, and_false, if_false, Prod.mk.injEq] at h ⊢
    by_cases hl : l = []
    · rw [if_pos hl]
    · exfalso
      rw [if_neg] at h
      · cases h
      · rintro ⟨_, h2⟩
        cases l with
        | nil => exact hl rfl
        | cons a l =>
          rw [List.cons_append] at h2
          injection h2 with _ h2
          exact absurd h2 (by simp)

/-- **C135.** The property is false of the code: if `stat` fails for another reason than that there's nothing (in this case, because a file is in the way), the directory is taken to exist. -/
theorem C135_refuted : ¬ MkdirMakes := by
  intro h
  have h1 : mkdirP exTree "f/d".toList true = some (0, exTree) := by
    have hd : dirExists exTree "f/d".toList = 20 := by decide
    unfold mkdirP
    simp only [if_true, hd]
    rfl
  have := h exTree "f/d".toList "f/d".toList true exTree exTree_wf rfl h1
  exact absurd this (by decide)

theorem selected {path target : List Char} {incl : Bool} (_ : path ≠ []) (ht : Target path incl target) : (if incl then some path else beforeLastSlash path) = some target := by
  unfold Target at ht
  cases incl with
  | true => simp only [if_true] at ht ⊢; rw [ht]
  | false =>
    simp only [Bool.false_eq_true, if_false] at ht ⊢
    obtain ⟨name, h1, h2⟩ := ht
    have hb := beforeLastSlash_spec path
    cases hl : beforeLastSlash path with
    | none => rw [hl] at hb; exact absurd (by rw [h1]; simp) hb
    | some t2 =>
      rw [hl] at hb
      obtain ⟨name2, h3, h4⟩ := hb
      rw [h1] at h3
      rcases List.append_eq_append_iff.1 h3 with ⟨q, e1, e2⟩ | ⟨q, e1, e2⟩
      · cases q with
        | nil => rw [List.append_nil] at e1; rw [e1]
        | cons x q =>
          injection e2 with _ e2
          exact absurd (by rw [e2]; simp) h2
      · cases q with
        | nil => rw [List.append_nil] at e1; rw [e1]
        | cons x q =>
          injection e2 with _ e2
          exact absurd (by rw [e2]; simp) h4

/-- **C135 (part).** It doesn't read out of bounds; nothing but the directory and the ones above it is created, whether it succeeds or not; and if it succeeds then the directory is there, unless `stat` failed for
another reason than that there's nothing. -/
theorem C135_partial (t : Tree) (w : t.Wf) (path target : List Char) (incl : Bool) (hne : path ≠ []) (ht : Target path incl target) :
    ∃ r t', mkdirP t path incl = some (r, t') ∧ t'.Wf ∧ OnlyCreated t t' (loc target) ∧
      (r = 0 → (∀ e, stat t target = .error e → e = ENOENT) → t'.node (loc target) = some .dir) := by
  have hsel := selected hne ht
  unfold mkdirP
  rw [hsel]
  simp only
  have hkeep : ∀ r : Int, r ≠ 0 → ∃ r' t', some (r, t) = some (r', t') ∧ t'.Wf ∧ OnlyCreated t t' (loc target) ∧ (r' = 0 → (∀ e, stat t target = .error e → e = ENOENT) → t'.node (loc target) = some .dir) :=
    fun r hr => ⟨r, t, rfl, w, onlyCreated_refl t _, fun h => absurd h hr⟩
  have hstat_dir : stat t target = .ok .dir → t.node (loc target) = some .dir := by
    intro hs
    unfold stat at hs
    split at hs
    · cases hs
    · cases hk : look t (loc target).1 [] (loc target).2 with
      | error e => rw [hk] at hs; cases hs
      | ok k =>
        have := look_dir w _ _ _ _ hk
        rw [List.nil_append] at this
        rw [hk] at hs
        cases k with
        | dir => exact this
        | file => simp only at hs; split at hs <;> cases hs
  cases hs : stat t target with
  | ok k =>
    cases k with
    | dir =>
      have hd : dirExists t target = 1 := by unfold dirExists; rw [hs]
      rw [if_pos (by rw [hd]; decide)]
      exact ⟨0, t, rfl, w, onlyCreated_refl t _, fun _ _ => hstat_dir hs⟩
    | file =>
      have hd : dirExists t target = -22 := by unfold dirExists; rw [hs]
      rw [if_neg (by rw [hd]; decide), if_pos (by rw [hd]; decide), hd]
      exact ⟨-22, t, rfl, w, onlyCreated_refl t _, fun h => absurd h (by decide)⟩
  | error e =>
    by_cases he : e = ENOENT
    · have hd : dirExists t target = 0 := by unfold dirExists; rw [hs]; simp only [if_pos he]
      rw [if_neg (by rw [hd]; decide), if_neg (by rw [hd]; decide)]
      cases target with
      | nil =>
        cases incl with
        | true => unfold Target at ht; simp only [if_true] at ht; exact absurd ht.symm hne
        | false =>
          simp only [Bool.false_eq_true, if_false]
          exact ⟨2, t, rfl, w, onlyCreated_refl t _, fun h => absurd h (by decide)⟩
      | cons c rest =>
        simp only
        obtain ⟨k1, k2, _, k4⟩ := mkdirLoop_spec (c :: rest) rest [c] t (by simp) rfl w
        refine ⟨_, _, rfl, k1, k2, fun h _ => k4 h ?_⟩
        subst he
        unfold stat at hs
        rw [if_neg (by simp)] at hs
        cases hk : look t (loc (c :: rest)).1 [] (loc (c :: rest)).2 with
        | ok k =>
          rw [hk] at hs
          cases k with
          | dir => cases hs
          | file => simp only at hs; split at hs
                    · injection hs with hs; exact absurd hs (by decide)
                    · cases hs
        | error e =>
          rw [hk] at hs
          simp only at hs
          injection hs with hs
          subst hs
          have := look_clear w _ _ [] (fun p hp hne => absurd (List.prefix_nil.1 hp) hne) hk
          rwa [List.nil_append] at this
    · have hd : dirExists t target = (e : Int) := by unfold dirExists; rw [hs]; simp only [if_neg he]
      rw [hd]
      have h0 : e ≠ 0 := by rcases stat_err hs with rfl | rfl | rfl <;> decide
      rw [if_pos (by omega)]
      exact ⟨0, t, rfl, w, onlyCreated_refl t _, fun _ h => absurd (h e rfl) he⟩

/-- Nothing prevents the directory: the ones above it can be searched and written, and there's no file in the way. -/
structure Free (t : Tree) (target : Loc) : Prop where
  clear : ∀ l, Above l target → t.node l ≠ some .file
  search : ∀ l, Above l target → t.denied l = false
  write : ∀ l, Above l target → t.readonly l = false

theorem above_trans {a b c : Loc} (h1 : Above a b) (h2 : Above b c) : Above a c := ⟨h1.1.trans h2.1, h1.2.trans h2.2⟩

theorem look_ok {t : Tree} (w : t.Wf) (abs : Bool) (k : Kind) : ∀ (rest seen : List Name), t.node (abs, seen ++ rest) = some k → (∀ p, p <+: seen ++ rest → t.denied (abs, p) = false) → look t abs seen rest = .ok k
  | [], seen, h, _ => by
    rw [List.append_nil] at h
    unfold look; rw [h]
  | n :: rest, seen, h, hd => by
    unfold look
    rw [wf_above w abs (n :: rest) seen (by rw [h]; rfl) (by simp)]
    simp only
    rw [hd seen (List.prefix_append ..)]
    simp only [Bool.false_eq_true, if_false]
    exact look_ok w abs k rest (seen ++ [n]) (by simpa using h) (by simpa using hd)

theorem createDir_succeeds {t : Tree} (w : t.Wf) (s : List Char) (hs : s ≠ []) (hf : Free t (loc s)) (base : List Name) (hb : t.node ((loc s).1, base) = some .dir)
    (hc : (loc s).2 = base ∨ ∃ n, (loc s).2 = base ++ [n]) : (createDir t s).1 = 0 := by
  have hm : (mkdir t s = .error EEXIST) ∨ ∃ t', mkdir t s = .ok t' := by
    unfold mkdir
    rw [if_neg hs]
    cases hl : (loc s).2.getLast? with
    | none => exact Or.inl rfl
    | some n =>
      simp only
      obtain ⟨ys, hy⟩ := List.getLast?_eq_some_iff.1 hl
      have hdl : (loc s).2.dropLast = ys := by rw [hy]; simp
      have hpre : ys <+: (loc s).2 := by rw [hy]; exact List.prefix_append ..
      have hnode : t.node ((loc s).1, ys) = some .dir := by
        rcases hc with hc | ⟨m, hc⟩
        · refine w.parent _ ys n ?_
          rw [← hy, hc, hb]; rfl
        · rw [hy] at hc
          rw [List.append_inj_left' hc rfl, hb]
      rw [hdl]
      rw [look_ok w (loc s).1 .dir ys [] (by rw [List.nil_append]; exact hnode) (fun p hp => by rw [List.nil_append] at hp; exact hf.search _ ⟨rfl, hp.trans hpre⟩)]
      simp only
      rw [hf.search ((loc s).1, ys) ⟨rfl, hpre⟩, hf.write ((loc s).1, ys) ⟨rfl, hpre⟩]
      simp only [Bool.false_eq_true, if_false]
      split
      · exact Or.inl rfl
      · exact Or.inr ⟨_, rfl⟩
  unfold createDir
  rcases hm with hm | ⟨t', hm⟩ <;> rw [hm]
  simp

theorem split_noslash : ∀ (w cur : List Char), '/' ∉ w → split cur w = [cur ++ w]
  | [], cur, _ => by simp [split]
  | c :: w, cur, h => by
    rw [split, if_neg (fun hc => h (by rw [hc]; simp)), split_noslash w _ (fun hm => h (List.mem_cons_of_mem _ hm))]
    simp

theorem comps_noslash {w : List Char} (h : '/' ∉ w) : comps w = if w = [] then [] else [w] := by
  unfold comps
  rw [split_noslash w [] h]
  by_cases hw : w = []
  · subst hw; rfl
  · rw [if_neg hw]; simp [hw]

/-- The part of a path up to its last slash, and the name after it. -/
theorem comps_last {pre w : List Char} (hp : pre = [] ∨ ∃ p, pre = p ++ ['/']) : comps (pre ++ w) = comps pre ++ comps w := by
  rcases hp with rfl | ⟨p, rfl⟩
  · rfl
  · rw [List.append_assoc, List.singleton_append, comps_slash, comps_slash]
    have : comps [] = [] := rfl
    rw [this, List.append_nil]

theorem free_created {t t' : Tree} {l : Loc} (h : OnlyCreated t t' l) (hf : Free t l) : Free t' l :=
  ⟨onlyCreated_clear h hf.clear, fun m hm => by rw [h.1]; exact hf.search m hm, fun m hm => by rw [h.2.1]; exact hf.write m hm⟩

theorem free_above {t : Tree} {l m : Loc} (hf : Free t m) (h : Above l m) : Free t l :=
  ⟨fun x hx => hf.clear x (above_trans hx h), fun x hx => hf.search x (above_trans hx h), fun x hx => hf.write x (above_trans hx h)⟩

theorem mkdirLoop_succeeds (s : List Char) : ∀ (rest done pre w : List Char) (t : Tree), done ≠ [] → s = done ++ rest → t.Wf → Free t (loc s) →
    done = pre ++ w → '/' ∉ w → (pre = [] ∨ ∃ p, pre = p ++ ['/']) → t.node ((loc s).1, comps pre) = some .dir → (mkdirLoop t done rest).1 = 0
  | [], done, pre, w, t, hd, hs, wf, hf, hw, hn, hp, hb => by
    rw [List.append_nil] at hs
    subst hs
    rw [mkdirLoop]
    refine createDir_succeeds wf s hd hf (comps pre) hb ?_
    show comps s = comps pre ∨ ∃ n, comps s = comps pre ++ [n]
    rw [hw, comps_last hp, comps_noslash hn]
    split
    · exact Or.inl (List.append_nil _)
    · exact Or.inr ⟨_, rfl⟩
  | c :: rest, done, pre, w, t, hd, hs, wf, hf, hw, hn, hp, hb => by
    rw [mkdirLoop]
    split
    · rename_i hc
      subst hc
      have ha : Above (loc done) (loc s) := by rw [hs]; exact loc_above hd
      have h1 : (createDir t done).1 = 0 := by
        refine createDir_succeeds wf done hd (free_above hf ha) (comps pre) (by rw [ha.1]; exact hb) ?_
        show comps done = comps pre ∨ ∃ n, comps done = comps pre ++ [n]
        rw [hw, comps_last hp, comps_noslash hn]
        split
        · exact Or.inl (List.append_nil _)
        · exact Or.inr ⟨_, rfl⟩
      obtain ⟨k1, k2, _, k4⟩ := createDir_spec wf done (loc s) ha
      cases hr : createDir t done with
      | mk r t' =>
        rw [hr] at h1 k1 k2 k4
        simp only at h1 k1 k2 k4 ⊢
        rw [if_neg (by simpa using h1)]
        refine mkdirLoop_succeeds s rest (done ++ ['/']) (done ++ ['/']) [] t' (by simp) (by simp [hs]) k1 (free_created k2 hf) (by simp) (by simp) (Or.inr ⟨done, rfl⟩) ?_
        have : comps (done ++ ['/']) = comps done := by
          rw [comps_slash]; exact List.append_nil _
        rw [this, ← ha.1]
        exact k4 h1 hf.clear
    · rename_i hc
      refine mkdirLoop_succeeds s rest (done ++ [c]) pre (w ++ [c]) t (by simp) (by simp [hs]) wf hf (by rw [hw]; simp) ?_ hp hb
      intro hm
      rcases List.mem_append.1 hm with hm | hm
      · exact hn hm
      · exact hc (List.mem_singleton.1 hm).symm

/-- The directory of a file name without slashes is the current directory: there's nothing to create, and nothing is. -/
theorem C135_partial_current (t : Tree) (path : List Char) (h : '/' ∉ path) : mkdirP t path false = some (0, t) := by
  have hb := beforeLastSlash_spec path
  unfold mkdirP
  cases hl : beforeLastSlash path with
  | none => simp [hl]
  | some t2 =>
    rw [hl] at hb
    obtain ⟨name2, h3, h4⟩ := hb
    exact absurd (by rw [h3]; simp) h

example : '/' ∉ "file.tal".toList := by decide

/-- **C135 (part).** If nothing prevents it then it succeeds. (Unless it's asked for the parent of a file of the root.) -/
theorem C135_partial_succeeds (t : Tree) (w : t.Wf) (path target : List Char) (incl : Bool) (hne : target ≠ []) (ht : Target path incl target) (hf : Free t (loc target)) :
    ∃ t', mkdirP t path incl = some (0, t') ∧ t'.node (loc target) = some .dir := by
  have hpath : path ≠ [] := by
    unfold Target at ht
    cases incl with
    | true => simp only [if_true] at ht; rw [← ht]; exact hne
    | false => simp only [Bool.false_eq_true, if_false] at ht; obtain ⟨n, h, _⟩ := ht; rw [h]; simp
  obtain ⟨r, t', h1, _, h3, h4⟩ := C135_partial t w path target incl hpath ht
  have hst : ∀ e, stat t target = .error e → e = ENOENT := by
    intro e he
    unfold stat at he
    rw [if_neg hne] at he
    cases hk : look t (loc target).1 [] (loc target).2 with
    | ok k =>
      have hd := look_dir w _ _ _ _ hk
      rw [List.nil_append] at hd
      cases k with
      | file => exact absurd hd (hf.clear _ ⟨rfl, List.prefix_rfl⟩)
      | dir => rw [hk] at he; cases he
    | error e' =>
      rw [hk] at he
      simp only at he
      injection he with he
      subst he
      have : ∀ (rest seen : List Name), (loc target).2 = seen ++ rest → look t (loc target).1 seen rest = .error e' → e' = ENOENT := by
        intro rest
        induction rest with
        | nil =>
          intro seen _ h
          unfold look at h
          cases hn : t.node ((loc target).1, seen) with
          | none => rw [hn] at h; injection h with h; exact h.symm
          | some k => rw [hn] at h; cases h
        | cons n rest ih =>
          intro seen hseen h
          have hab : Above ((loc target).1, seen) (loc target) := ⟨rfl, by rw [hseen]; exact List.prefix_append ..⟩
          unfold look at h
          cases hn : t.node ((loc target).1, seen) with
          | none => rw [hn] at h; injection h with h; exact h.symm
          | some k =>
            cases k with
            | file => exact absurd hn (hf.clear _ hab)
            | dir =>
              rw [hn] at h
              simp only [hf.search _ hab, Bool.false_eq_true, if_false] at h
              exact ih (seen ++ [n]) (by rw [hseen]; simp) h
      exact this _ [] (by simp) hk
  have hr : r = 0 := by
    have hsel := h1
    unfold mkdirP at h1
    cases hx : stat t target with
    | ok k =>
      cases k with
      | dir =>
        have hd : dirExists t target = 1 := by unfold dirExists; rw [hx]
        rw [selected hpath ht] at h1
        simp only [hd] at h1
        rw [if_pos (by decide)] at h1
        injection h1 with h1
        exact (congrArg Prod.fst h1).symm
      | file =>
        exfalso
        unfold stat at hx
        rw [if_neg hne] at hx
        cases hk : look t (loc target).1 [] (loc target).2 with
        | error e => rw [hk] at hx; cases hx
        | ok k =>
          have hd := look_dir w _ _ _ _ hk
          rw [List.nil_append] at hd
          cases k with
          | file => exact hf.clear _ ⟨rfl, List.prefix_rfl⟩ hd
          | dir => rw [hk] at hx; cases hx
    | error e =>
      have hd : dirExists t target = 0 := by unfold dirExists; rw [hx]; simp only [if_pos (hst e hx)]
      rw [selected hpath ht] at h1
      simp only [hd] at h1
      rw [if_neg (by decide), if_neg (by decide)] at h1
      cases target with
      | nil => exact absurd rfl hne
      | cons c rest =>
        simp only at h1
        injection h1 with h1
        refine (congrArg Prod.fst h1).symm.trans ?_
        by_cases hc : c = '/'
        · subst hc
          exact mkdirLoop_succeeds ('/' :: rest) rest ['/'] ['/'] [] t (by simp) rfl w hf rfl (by simp) (Or.inr ⟨[], rfl⟩) (w.root _)
        · exact mkdirLoop_succeeds (c :: rest) rest [c] [] [c] t (by simp) rfl w hf rfl (by simpa using fun h => hc h.symm) (Or.inl rfl) (w.root _)
  subst hr
  exact ⟨t', h1, h4 rfl hst⟩

/-- An empty tree. -/
def emptyTree : Tree := ⟨fun l => if l.2 = [] then some .dir else none, fun _ => false, fun _ => false⟩
theorem emptyTree_wf : emptyTree.Wf := ⟨fun _ => rfl, fun abs l n h => by simp [emptyTree] at h⟩
example : (mkdirP emptyTree "cache/a//b/file.cer".toList false).map (fun p => (p.1, p.2.node (loc "cache/a//b".toList), p.2.node (false, ["cache".toList]), p.2.node (loc "cache/a/b/file.cer".toList))) =
    some (0, some .dir, some .dir, none) := by decide +kernel
example : Target "cache/a//b/file.cer".toList false "cache/a//b".toList := ⟨"file.cer".toList, by decide, by decide⟩
example : Free emptyTree (loc "cache/a//b".toList) := ⟨(fun l _ h => by unfold emptyTree at h; simp only at h; split at h <;> cases h), fun _ _ => rfl, fun _ _ => rfl⟩
/-- Without the hypothesis on the path, there's an access out of bounds. -/
example : mkdirP emptyTree [] true = none := by decide +kernel
/-- The root isn't recognised as the parent of a file. -/
example : (mkdirP emptyTree "/file".toList false).map (·.1) = some 2 := by decide +kernel

end Verif.Fs
