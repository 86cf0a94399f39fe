import Verif.Inherit.Spec
import Mathlib.Data.List.Induction
/-
C208: rsync's processes keep nothing open that isn't theirs.
-/
namespace Verif.Inherit

/-! ### Lemmas -/

theorem run_snoc (l : List Step) (e : Step) (s : St) : run (l ++ [e]) s = step (run l s) e := by
  induction l generalizing s with
  | nil => rfl
  | cons a l ih => exact ih (step s a)

theorem launched_snoc (l : List Step) (e : Step) (b : Nat) (x : End) :
    Launched (l ++ [e]) b x ↔ Launched l b x ∨
      (e = .fork b ∧ (run l St.init).child b = none ∧ (step (run l St.init) e).child b ≠ none ∧ (run l St.init).server x = true) := by
  constructor
  · rintro ⟨l₁, l₂, he, h1, h2, h3⟩
    rcases List.eq_nil_or_concat l₂ with hn | ⟨m, y, hm⟩
    · subst hn
      have : l = l₁ ∧ [e] = [Step.fork b] := List.append_inj' he (by simp)
      obtain ⟨e1, e2⟩ := this
      subst e1
      have e3 : e = .fork b := by simpa using e2
      right
      subst e3
      exact ⟨rfl, h1, (by rw [← run_snoc]; exact h2), h3⟩
    · subst hm
      left
      have : l = l₁ ++ .fork b :: m ∧ [e] = [y] := List.append_inj' (by rw [he]; simp) (by simp)
      exact ⟨l₁, m, this.1, h1, h2, h3⟩
  · rintro (⟨l₁, l₂, he, h1, h2, h3⟩ | ⟨he, h1, h2, h3⟩)
    · exact ⟨l₁, l₂ ++ [e], (by rw [he]; simp), h1, h2, h3⟩
    · subst he
      exact ⟨l, [], rfl, h1, (by rw [run_snoc]; exact h2), h3⟩

/-- The validator's steps create a child, or leave them as they are. -/
theorem server_child (s : St) (e : Step) (b : Nat) :
    (serverStep s e).child b = s.child b ∨ (e = .fork b ∧ s.pc b = 2 ∧ (serverStep s e).child b = some ⟨s.server, 0, true⟩) := by
  cases e with
  | fork a =>
    simp only [serverStep]
    by_cases h : s.pc a = 2
    · rw [if_pos h]
      by_cases hb : b = a
      · subst hb
        right
        exact ⟨rfl, h, by simp [St.at, upd]⟩
      · left; simp [St.at, upd, hb]
    · rw [if_neg h]; exact Or.inl rfl
  | accept c => left; simp only [serverStep]; split <;> rfl
  | listen c => left; simp only [serverStep]; split <;> rfl
  | pipeErr c => left; simp only [serverStep]; split <;> rfl
  | pipeOut c => left; simp only [serverStep]; split <;> rfl
  | pipeOutFails c => left; simp only [serverStep]; split <;> rfl
  | forkFails c => left; simp only [serverStep]; split <;> rfl
  | closeErrW c => left; simp only [serverStep]; split <;> rfl
  | closeOutW c => left; simp only [serverStep]; split <;> rfl
  | closeErrR c => left; simp only [serverStep]; split <;> rfl
  | closeOutR c => left; simp only [serverStep]; split <;> rfl
  | _ => exact Or.inl rfl

theorem child_server (s : St) (e : Step) : (childStep s e).server = s.server ∧ (childStep s e).pc = s.pc ∧ (childStep s e).running = s.running := by
  cases e <;> first | exact ⟨rfl, rfl, rfl⟩ | (simp only [childStep]; split <;> (try split) <;> exact ⟨rfl, rfl, rfl⟩)

/-- What the children's steps do to a child. -/
theorem child_child (s : St) (e : Step) (b : Nat) :
    (childStep s e).child b = s.child b ∨
      ∃ c c', s.child b = some c ∧ (childStep s e).child b = some c' ∧
        ((c'.running = false ∧ ∀ x, c'.holds x = false) ∨
          (c.running = true ∧ c'.running = true ∧ ∀ x, x.isRead = false → c'.holds x = c.holds x)) := by
  cases e with
  | dupErr a =>
    simp only [childStep]
    cases hc : s.child a with
    | none => exact Or.inl rfl
    | some c =>
      simp only
      by_cases h : c.running = true ∧ c.stage = 0
      · rw [if_pos h]
        by_cases hb : b = a
        · subst hb
          right
          refine ⟨c, { c with holds := upd c.holds (.errR b) false, stage := 1 }, hc, by simp [upd], Or.inr ⟨h.1, h.1, ?_⟩⟩
          intro x hx
          simp only [upd]
          by_cases e : x = .errR b
          · subst e; simp [End.isRead] at hx
          · rw [if_neg e]
        · left; simp [upd, hb]
      · rw [if_neg h]; exact Or.inl rfl
  | dupOut a =>
    simp only [childStep]
    cases hc : s.child a with
    | none => exact Or.inl rfl
    | some c =>
      simp only
      by_cases h : c.running = true ∧ c.stage = 1
      · rw [if_pos h]
        by_cases hb : b = a
        · subst hb
          right
          refine ⟨c, { c with holds := upd c.holds (.outR b) false, stage := 2 }, hc, by simp [upd], Or.inr ⟨h.1, h.1, ?_⟩⟩
          intro x hx
          simp only [upd]
          by_cases e : x = .outR b
          · subst e; simp [End.isRead] at hx
          · rw [if_neg e]
        · left; simp [upd, hb]
      · rw [if_neg h]; exact Or.inl rfl
  | childEnds a =>
    simp only [childStep]
    cases hc : s.child a with
    | none => exact Or.inl rfl
    | some c =>
      simp only
      by_cases hb : b = a
      · subst hb
        right
        exact ⟨c, { c with holds := fun _ => false, running := false }, hc, by simp [upd], Or.inl ⟨rfl, fun _ => rfl⟩⟩
      · left; simp [upd, hb]
  | _ => exact Or.inl rfl

/-- The step of the validator creates no child unless it's a `fork`; and then the children do nothing. -/
theorem step_child (s : St) (e : Step) (b : Nat) :
    (step s e).child b = s.child b ∨
    (e = .fork b ∧ s.pc b = 2 ∧ s.running = true ∧ (step s e).child b = some ⟨s.server, 0, true⟩) ∨
      ∃ c c', s.child b = some c ∧ (step s e).child b = some c' ∧
        ((c'.running = false ∧ ∀ x, c'.holds x = false) ∨
          (c.running = true ∧ c'.running = true ∧ ∀ x, x.isRead = false → c'.holds x = c.holds x)) := by
  unfold step
  by_cases hr : s.running = true
  · rw [if_pos hr]
    rcases server_child s e b with h | ⟨he, hp, h⟩
    · rcases child_child (serverStep s e) e b with g | ⟨c, c', g1, g2, g3⟩
      · left; rw [g, h]
      · right; right; exact ⟨c, c', (by rw [← h]; exact g1), g2, g3⟩
    · right; left
      subst he
      refine ⟨rfl, hp, hr, ?_⟩
      exact h
  · rw [if_neg hr]
    rcases child_child s e b with g | ⟨c, c', g1, g2, g3⟩
    · left; exact g
    · right; right; exact ⟨c, c', g1, g2, g3⟩

structure Inv (l : List Step) : Prop where
  absent : ∀ b, (run l St.init).child b = none → ∀ x, ¬ Launched l b x
  alive : ∀ b c, (run l St.init).child b = some c → c.running = true → ∀ x, x.isRead = false → (c.holds x = true ↔ Launched l b x)
  dead : ∀ b c, (run l St.init).child b = some c → c.running = false → ∀ x, c.holds x = false
  pc : ∀ b, (run l St.init).child b ≠ none → (run l St.init).pc b ≥ 3

theorem pc_server (s : St) (e : Step) (b : Nat) (h : s.pc b ≥ 3) : (serverStep s e).pc b ≥ 3 := by
  have key : ∀ a n, s.pc a ≤ 2 ∨ n ≥ 3 → upd s.pc a n b ≥ 3 := by
    intro a n hn
    simp only [upd]
    by_cases hb : b = a
    · subst hb
      rw [if_pos rfl]
      omega
    · rw [if_neg hb]; exact h
  cases e <;> simp only [serverStep] <;> (try exact h) <;> split <;> (try exact h) <;> (refine key _ _ ?_; omega)

theorem inv_nil : Inv [] := by
  refine ⟨?_, ?_, ?_, ?_⟩
  · rintro b _ x ⟨l₁, l₂, h, _⟩
    simp at h
  · intro b c h; cases h
  · intro b c h; cases h
  · intro b h; exact absurd rfl h

theorem inv_snoc (l : List Step) (e : Step) (h : Inv l) : Inv (l ++ [e]) := by
  have keep : ∀ b, (run l St.init).child b ≠ none → ∀ x, (Launched (l ++ [e]) b x ↔ Launched l b x) := by
    intro b hb x
    rw [launched_snoc]
    constructor
    · rintro (h1 | ⟨_, h1, _⟩)
      · exact h1
      · exact absurd h1 hb
    · exact Or.inl
  refine ⟨?_, ?_, ?_, ?_⟩
  · intro b hb x hl
    rw [run_snoc] at hb
    rcases (launched_snoc l e b x).mp hl with h1 | ⟨_, _, h1, _⟩
    · rcases step_child (run l St.init) e b with g | ⟨_, _, _, g⟩ | ⟨_, _, _, g, _⟩
      · exact h.absent b (by rw [← g]; exact hb) x h1
      · rw [hb] at g; cases g
      · rw [hb] at g; cases g
    · exact h1 hb
  · intro b c hb hr x hx
    rw [run_snoc] at hb
    rcases step_child (run l St.init) e b with g | ⟨he, hp, hrun, g⟩ | ⟨c0, c', g1, g2, g3⟩
    · rw [g] at hb
      rw [keep b (by rw [hb]; simp) x]
      exact h.alive b c hb hr x hx
    · rw [g] at hb
      cases hb
      have hn : (run l St.init).child b = none := by
        by_contra hne
        have := h.pc b hne
        omega
      rw [launched_snoc]
      constructor
      · intro hs
        exact Or.inr ⟨he, hn, (by rw [g]; simp), hs⟩
      · rintro (h1 | ⟨_, _, _, h1⟩)
        · exact absurd h1 (h.absent b hn x)
        · exact h1
    · rw [hb] at g2
      cases g2
      rcases g3 with ⟨g3, _⟩ | ⟨g3, _, g4⟩
      · rw [hr] at g3; cases g3
      · rw [keep b (by rw [g1]; simp) x, g4 x hx]
        exact h.alive b c0 g1 g3 x hx
  · intro b c hb hr x
    rw [run_snoc] at hb
    rcases step_child (run l St.init) e b with g | ⟨he, hp, hrun, g⟩ | ⟨c0, c', g1, g2, g3⟩
    · rw [g] at hb
      exact h.dead b c hb hr x
    · rw [g] at hb; cases hb; cases hr
    · rw [hb] at g2
      cases g2
      rcases g3 with ⟨_, g4⟩ | ⟨_, g3, _⟩
      · exact g4 x
      · rw [hr] at g3; cases g3
  · intro b hb
    rw [run_snoc] at hb ⊢
    have hpc : (step (run l St.init) e).pc = (if (run l St.init).running then serverStep (run l St.init) e else run l St.init).pc :=
      (child_server _ e).2.1
    rcases step_child (run l St.init) e b with g | ⟨he, hp, hrun, g⟩ | ⟨c0, c', g1, g2, g3⟩
    · rw [g] at hb
      have := h.pc b hb
      rw [hpc]
      by_cases hr : (run l St.init).running = true
      · rw [if_pos hr]; exact pc_server _ _ _ this
      · rw [if_neg hr]; exact this
    · subst he
      rw [hpc, if_pos hrun]
      simp only [serverStep]
      rw [if_pos hp]
      simp [St.at, upd]
    · have := h.pc b (by rw [g1]; simp)
      rw [hpc]
      by_cases hr : (run l St.init).running = true
      · rw [if_pos hr]; exact pc_server _ _ _ this
      · rw [if_neg hr]; exact this

theorem inv (l : List Step) : Inv l := by
  induction l using List.reverseRec with
  | nil => exact inv_nil
  | append_singleton l e ih => exact inv_snoc l e ih

/-! ### C208 -/

/-- What's open, exactly: what the validator has open, and what it had open when it launched an rsync that runs. -/
theorem C208_exact (l : List Step) (x : End) (hx : x.isRead = false) :
    Open (run l St.init) x ↔ (run l St.init).server x = true ∨ ∃ b, Runs (run l St.init) b ∧ Launched l b x := by
  constructor
  · rintro (h | ⟨b, c, h1, h2⟩)
    · exact Or.inl h
    · right
      cases hr : c.running with
      | true => exact ⟨b, ⟨c, h1, hr⟩, ((inv l).alive b c h1 hr x hx).mp h2⟩
      | false =>
        have := (inv l).dead b c h1 hr x
        rw [h2] at this; cases this
  · rintro (h | ⟨b, ⟨c, h1, h2⟩, h3⟩)
    · exact Or.inl h
    · exact Or.inr ⟨b, c, h1, ((inv l).alive b c h1 h2 x hx).mpr h3⟩

/-- The claims, if no other rsync that runs was launched in between. -/
theorem C208_partial (l : List Step) :
    (∀ a, ¬ Runs (run l St.init) a → (run l St.init).server (.errW a) = false → (run l St.init).server (.outW a) = false →
      (∀ b, b ≠ a → Runs (run l St.init) b → ¬ Launched l b (.errW a) ∧ ¬ Launched l b (.outW a)) →
        ¬ Open (run l St.init) (.errW a) ∧ ¬ Open (run l St.init) (.outW a)) ∧
    (∀ c, (run l St.init).server (.conn c) = false → (∀ b, Runs (run l St.init) b → ¬ Launched l b (.conn c)) → ¬ Open (run l St.init) (.conn c)) ∧
    ((∀ b, ¬ Runs (run l St.init) b) → OwnEnd l ∧ Hangs l) := by
  have own : ∀ a, ¬ Runs (run l St.init) a → (run l St.init).server (.errW a) = false → (run l St.init).server (.outW a) = false →
      (∀ b, b ≠ a → Runs (run l St.init) b → ¬ Launched l b (.errW a) ∧ ¬ Launched l b (.outW a)) →
        ¬ Open (run l St.init) (.errW a) ∧ ¬ Open (run l St.init) (.outW a) := by
    intro a hr he ho hb
    constructor
    · rw [C208_exact l _ rfl]
      rintro (h | ⟨b, h1, h2⟩)
      · rw [he] at h; cases h
      · by_cases e : b = a
        · subst e; exact hr h1
        · exact (hb b e h1).1 h2
    · rw [C208_exact l _ rfl]
      rintro (h | ⟨b, h1, h2⟩)
      · rw [ho] at h; cases h
      · by_cases e : b = a
        · subst e; exact hr h1
        · exact (hb b e h1).2 h2
  have conn : ∀ c, (run l St.init).server (.conn c) = false → (∀ b, Runs (run l St.init) b → ¬ Launched l b (.conn c)) → ¬ Open (run l St.init) (.conn c) := by
    intro c hc hb
    rw [C208_exact l _ rfl]
    rintro (h | ⟨b, h1, h2⟩)
    · rw [hc] at h; cases h
    · exact hb b h1 h2
  refine ⟨own, conn, ?_⟩
  intro hn
  exact ⟨fun a hr he ho => own a hr he ho (fun b _ h => absurd h (hn b)), fun c hc => conn c hc (fun b h => absurd h (hn b))⟩

/-- What a thread of an attempt has open, between `create_pipes` and its end. -/
theorem ends_snoc (l : List Step) (e : Step) (a : Nat)
    (h : (run l St.init).running = true → ((run l St.init).pc a = 1 → (run l St.init).server (.errW a) = true) ∧
      ((run l St.init).pc a = 2 → (run l St.init).server (.errW a) = true ∧ (run l St.init).server (.outW a) = true)) :
    (run (l ++ [e]) St.init).running = true →
      ((run (l ++ [e]) St.init).pc a = 1 → (run (l ++ [e]) St.init).server (.errW a) = true) ∧
      ((run (l ++ [e]) St.init).pc a = 2 → (run (l ++ [e]) St.init).server (.errW a) = true ∧ (run (l ++ [e]) St.init).server (.outW a) = true) := by
  rw [run_snoc]
  generalize run l St.init = s at h
  have hs := child_server (if s.running then serverStep s e else s) e
  have e0 : step s e = childStep (if s.running then serverStep s e else s) e := rfl
  rw [e0, hs.1, hs.2.1, hs.2.2]
  by_cases hr : s.running = true
  · rw [if_pos hr]
    have h := h hr
    intro _
    cases e with
    | pipeErr b =>
      simp only [serverStep]
      by_cases hp : s.pc b = 0
      · rw [if_pos hp]
        by_cases hb : a = b
        · subst hb
          simp [St.at, St.opens, upd]
        · simpa [St.at, St.opens, upd, hb] using h
      · rw [if_neg hp]; exact h
    | pipeOut b =>
      simp only [serverStep]
      by_cases hp : s.pc b = 1
      · rw [if_pos hp]
        by_cases hb : a = b
        · subst hb
          simp only [St.at, St.opens, upd, if_true]
          refine ⟨fun h => absurd h (by decide), fun _ => ?_⟩
          simpa using h.1 hp
        · simpa [St.at, St.opens, upd, hb] using h
      · rw [if_neg hp]; exact h
    | pipeOutFails b =>
      simp only [serverStep]
      by_cases hp : s.pc b = 1
      · rw [if_pos hp]
        by_cases hb : a = b
        · subst hb
          simp [St.at, St.closes, upd]
        · simpa [St.at, St.closes, upd, hb] using h
      · rw [if_neg hp]; exact h
    | fork b =>
      simp only [serverStep]
      by_cases hp : s.pc b = 2
      · rw [if_pos hp]
        by_cases hb : a = b
        · subst hb
          simp [St.at, upd]
        · simpa [St.at, upd, hb] using h
      · rw [if_neg hp]; exact h
    | forkFails b =>
      simp only [serverStep]
      by_cases hp : s.pc b = 2
      · rw [if_pos hp]
        by_cases hb : a = b
        · subst hb
          simp [St.at, St.closes, upd]
        · simpa [St.at, St.closes, upd, hb] using h
      · rw [if_neg hp]; exact h
    | closeErrW b =>
      simp only [serverStep]
      by_cases hp : s.pc b = 3
      · rw [if_pos hp]
        by_cases hb : a = b
        · subst hb
          simp [St.at, St.closes, upd]
        · simpa [St.at, St.closes, upd, hb] using h
      · rw [if_neg hp]; exact h
    | closeOutW b =>
      simp only [serverStep]
      by_cases hp : s.pc b = 4
      · rw [if_pos hp]
        by_cases hb : a = b
        · subst hb
          simp [St.at, St.closes, upd]
        · simpa [St.at, St.closes, upd, hb] using h
      · rw [if_neg hp]; exact h
    | closeErrR b =>
      simp only [serverStep]
      by_cases hp : s.pc b = 5
      · rw [if_pos hp]; simpa [St.closes, upd] using h
      · rw [if_neg hp]; exact h
    | closeOutR b =>
      simp only [serverStep]
      by_cases hp : s.pc b = 5
      · rw [if_pos hp]; simpa [St.closes, upd] using h
      · rw [if_neg hp]; exact h
    | accept c =>
      simp only [serverStep]
      by_cases hp : s.used (.conn c) = true
      · rw [if_pos hp]; exact h
      · rw [if_neg hp]; simpa [St.opens, upd] using h
    | listen c =>
      simp only [serverStep]
      by_cases hp : s.used (.listen c) = true
      · rw [if_pos hp]; exact h
      · rw [if_neg hp]; simpa [St.opens, upd] using h
    | closeConn c => simpa [serverStep, St.closes, upd] using h
    | closeListen c => simpa [serverStep, St.closes, upd] using h
    | ends => rename_i hh; simp [serverStep] at hh
    | dupErr b => exact h
    | dupOut b => exact h
    | childEnds b => exact h
  · rw [if_neg hr]
    intro hh; exact absurd hh hr

theorem ends_inv (l : List Step) (a : Nat) :
    (run l St.init).running = true → ((run l St.init).pc a = 1 → (run l St.init).server (.errW a) = true) ∧
      ((run l St.init).pc a = 2 → (run l St.init).server (.errW a) = true ∧ (run l St.init).server (.outW a) = true) := by
  induction l using List.reverseRec with
  | nil => intro _; exact ⟨(fun h => (by cases (h : (0:Nat) = 1))), (fun h => (by cases (h : (0:Nat) = 2)))⟩
  | append_singleton l e ih => exact ends_snoc l e a ih

theorem launched_own (l : List Step) (a : Nat) (h : (run l St.init).child a ≠ none) : Launched l a (.errW a) ∧ Launched l a (.outW a) := by
  induction l using List.reverseRec with
  | nil => exact absurd rfl h
  | append_singleton l e ih =>
    rw [launched_snoc, launched_snoc]
    rw [run_snoc] at h
    by_cases hn : (run l St.init).child a = none
    · rcases step_child (run l St.init) e a with g | ⟨he, hp, hr, g⟩ | ⟨c0, c', g1, g2, g3⟩
      · rw [g] at h; exact absurd hn h
      · have := (ends_inv l a hr).2 hp
        exact ⟨Or.inr ⟨he, hn, h, this.1⟩, Or.inr ⟨he, hn, h, this.2⟩⟩
      · rw [hn] at g1; cases g1
    · exact ⟨Or.inl (ih hn).1, Or.inl (ih hn).2⟩

/-- The validator doesn't see an end before rsync has ended. -/
theorem C208_not_before (l : List Step) (a : Nat) (h : Runs (run l St.init) a) : Open (run l St.init) (.errW a) ∧ Open (run l St.init) (.outW a) := by
  obtain ⟨c, h1, h2⟩ := h
  have := launched_own l a (by rw [h1]; simp)
  exact ⟨(C208_exact l _ rfl).mpr (Or.inr ⟨a, ⟨c, h1, h2⟩, this.1⟩), (C208_exact l _ rfl).mpr (Or.inr ⟨a, ⟨c, h1, h2⟩, this.2⟩)⟩

theorem dead_server (l : List Step) (x : End) (h : (run l St.init).running = false) : (run l St.init).server x = false := by
  induction l using List.reverseRec with
  | nil => cases h
  | append_singleton l e ih =>
    rw [run_snoc] at h ⊢
    have hs := child_server (if (run l St.init).running then serverStep (run l St.init) e else run l St.init) e
    have e0 : step (run l St.init) e = childStep (if (run l St.init).running then serverStep (run l St.init) e else run l St.init) e := rfl
    rw [e0] at h ⊢
    rw [hs.2.2] at h
    rw [hs.1]
    generalize run l St.init = s at *
    by_cases hr : s.running = true
    · rw [if_pos hr] at h ⊢
      cases e with
      | ends => rfl
      | _ =>
        exfalso
        revert h
        simp only [serverStep]
        first
          | (simp [hr]; done)
          | (simp [St.closes, hr]; done)
          | (split <;> simp [St.closes, St.opens, St.at, hr])
    · rw [if_neg hr] at h ⊢
      exact ih h

/-- The addresses are free when the validator has ended, and so have the rsyncs that it launched while it listened on them. -/
theorem C208_frees (l : List Step) (h : (run l St.init).running = false) (a : Nat)
    (hb : ∀ b, Runs (run l St.init) b → ¬ Launched l b (.listen a)) : ¬ Open (run l St.init) (.listen a) := by
  rw [C208_exact l _ rfl]
  rintro (g | ⟨b, h1, h2⟩)
  · rw [dead_server l _ h] at g; cases g
  · exact hb b h1 h2

/-- The validator's copies of the writing ends are closed when it waits. -/
def Shut (s : St) (a : Nat) : Prop := (s.pc a = 4 ∨ s.pc a = 5 → s.server (.errW a) = false) ∧ (s.pc a = 5 → s.server (.outW a) = false)

theorem shut_server (s : St) (e : Step) (a : Nat) (h : Shut s a) : Shut (serverStep s e) a := by
  unfold Shut at h ⊢
  cases e with
  | pipeErr b | pipeOut b | pipeOutFails b | fork b | forkFails b | closeErrW b | closeOutW b =>
    simp only [serverStep]
    split
    · rename_i hp
      by_cases hb : a = b
      · subst hb
        simp [St.at, St.opens, St.closes, upd, hp] at h ⊢
        try exact h
      · simpa [St.at, St.opens, St.closes, upd, hb] using h
    · exact h
  | closeErrR b | closeOutR b | accept b | listen b =>
    simp only [serverStep]
    split
    · first | exact h | simpa [St.opens, St.closes, upd] using h
    · first | exact h | simpa [St.opens, St.closes, upd] using h
  | closeConn b | closeListen b => simpa [serverStep, St.closes, upd] using h
  | ends => exact ⟨fun _ => rfl, fun _ => rfl⟩
  | dupErr b | dupOut b | childEnds b => exact h

theorem shut_inv (l : List Step) (a : Nat) : Shut (run l St.init) a := by
  induction l using List.reverseRec with
  | nil => exact ⟨fun _ => rfl, fun _ => rfl⟩
  | append_singleton l e ih =>
    rw [run_snoc]
    have hs := child_server (if (run l St.init).running then serverStep (run l St.init) e else run l St.init) e
    have e0 : step (run l St.init) e = childStep (if (run l St.init).running then serverStep (run l St.init) e else run l St.init) e := rfl
    have g : Shut (if (run l St.init).running then serverStep (run l St.init) e else run l St.init) a := by
      by_cases hr : (run l St.init).running = true
      · rw [if_pos hr]; exact shut_server _ _ _ ih
      · rw [if_neg hr]; exact ih
    unfold Shut at g ⊢
    rw [e0, hs.1, hs.2.1]
    exact g

/-- When the validator waits for the output of an rsync that it launched alone, it waits for this rsync. -/
theorem C208_waits (l : List Step) (a : Nat) (hw : Waits (run l St.init) a)
    (hb : ∀ b, b ≠ a → Runs (run l St.init) b → ¬ Launched l b (.errW a) ∧ ¬ Launched l b (.outW a)) :
    (Open (run l St.init) (.errW a) ↔ Runs (run l St.init) a) ∧ (Open (run l St.init) (.outW a) ↔ Runs (run l St.init) a) := by
  have sh := shut_inv l a
  have : ¬ Runs (run l St.init) a → ¬ Open (run l St.init) (.errW a) ∧ ¬ Open (run l St.init) (.outW a) :=
    fun hr => (C208_partial l).1 a hr (sh.1 (Or.inr hw)) (sh.2 hw) hb
  constructor
  · exact ⟨fun h => by_contra fun hr => (this hr).1 h, fun h => (C208_not_before l a h).1⟩
  · exact ⟨fun h => by_contra fun hr => (this hr).2 h, fun h => (C208_not_before l a h).2⟩

example : Waits (run [.pipeErr 0, .pipeOut 0, .fork 0, .closeErrW 0, .closeOutW 0] St.init) 0 := by decide

/-- Attempt 0 creates its pipes, and before it closes its copies attempt 1 launches its rsync. The rsync of attempt 0 ends. -/
def twoDownloads : List Step :=
  [.pipeErr 0, .pipeOut 0, .pipeErr 1, .pipeOut 1, .fork 1, .closeErrW 1, .closeOutW 1, .dupErr 1, .dupOut 1,
   .fork 0, .closeErrW 0, .closeOutW 0, .dupErr 0, .dupOut 0, .childEnds 0]

/-- The validator closes a connection while an rsync runs that it launched before. -/
def router : List Step :=
  [.listen 0, .accept 0, .pipeErr 0, .pipeOut 0, .fork 0, .closeErrW 0, .closeOutW 0, .dupErr 0, .dupOut 0, .closeConn 0]

/-- The claims are false of the code. -/
theorem C208_refuted : ¬ OwnEnd twoDownloads ∧ ¬ Hangs router ∧ ¬ Frees (router ++ [.ends]) := by
  refine ⟨?_, ?_, ?_⟩
  · intro h
    have hr : ¬ Runs (run twoDownloads St.init) 0 := by
      rintro ⟨c, h1, h2⟩
      have e : (run twoDownloads St.init).child 0 = some ⟨fun _ => false, 2, false⟩ := rfl
      rw [e] at h1
      cases h1
      cases h2
    exact (h 0 hr rfl rfl).1 (Or.inr ⟨1, _, rfl, rfl⟩)
  · intro h
    exact h 0 rfl (Or.inr ⟨0, _, rfl, rfl⟩)
  · intro h
    exact h rfl 0 (Or.inr ⟨0, _, rfl, rfl⟩)

/-- One download after the other: the claims hold. -/
def serial : List Step :=
  [.accept 0, .pipeErr 0, .pipeOut 0, .fork 0, .closeErrW 0, .closeOutW 0, .dupErr 0, .dupOut 0, .childEnds 0,
   .pipeErr 1, .pipeOut 1, .fork 1, .closeErrW 1, .closeOutW 1, .dupErr 1]

example : ¬ Open (run serial St.init) (.errW 0) ∧ Open (run serial St.init) (.errW 1) ∧ Open (run serial St.init) (.outW 1) := by
  refine ⟨?_, (C208_not_before serial 1 ⟨_, rfl, rfl⟩)⟩
  rintro (h | ⟨b, c, h1, h2⟩)
  · cases h
  · match b, h1 with
    | 0, h1 => cases h1; cases h2
    | 1, h1 => cases h1; cases h2
    | n + 2, h1 => cases h1

end Verif.Inherit
