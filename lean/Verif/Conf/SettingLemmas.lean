import Verif.Conf.ParseLemmas
/-
Command lines as sequences of settings.
-/
namespace Verif.Conf
open Verif.Res (Byte)
open Verif.Slurm (Json)

def applyAll : List (Opt × Setting) → Conf → Out Conf
  | [], c => .ok c
  | x :: xs, c =>
    match parse x.1 x.2 c with
    | .ok c => applyAll xs c
    | r => r

theorem applyAll_append (xs ys : List (Opt × Setting)) (c c' : Conf) (h : applyAll xs c = .ok c') : applyAll (xs ++ ys) c = applyAll ys c' := by
  induction xs generalizing c with
  | nil => injection h with h; subst h; rfl
  | cons x xs ih =>
    rw [applyAll] at h
    rw [List.cons_append, applyAll]
    cases hp : parse x.1 x.2 c with
    | ok c1 => rw [hp] at h; exact ih c1 h
    | fail e => rw [hp] at h; cases h
    | exit e => rw [hp] at h; cases h
    | ub => rw [hp] at h; cases h

theorem applyAll_split (xs ys : List (Opt × Setting)) (c c' : Conf) (h : applyAll (xs ++ ys) c = .ok c') :
    ∃ c1, applyAll xs c = .ok c1 ∧ applyAll ys c1 = .ok c' := by
  induction xs generalizing c with
  | nil => exact ⟨c, rfl, h⟩
  | cons x xs ih =>
    rw [List.cons_append, applyAll] at h
    cases hp : parse x.1 x.2 c with
    | ok c1 =>
      rw [hp] at h
      obtain ⟨c2, h1, h2⟩ := ih c1 h
      exact ⟨c2, by rw [applyAll, hp]; exact h1, h2⟩
    | fail e => rw [hp] at h; cases h
    | exit e => rw [hp] at h; cases h
    | ub => rw [hp] at h; cases h

def fileSettings (root : Json) (os : List Opt) : List (Opt × Setting) :=
  os.filterMap (fun o => if o.json then (findJson root o.name).map (fun j => (o, .json j)) else none)

theorem jsonToConfig_eq (root : Json) (os : List Opt) (c : Conf) : jsonToConfig root os c = applyAll (fileSettings root os) c := by
  induction os generalizing c with
  | nil => rfl
  | cons o os ih =>
    rw [jsonToConfig]
    by_cases hj : o.json = false
    · rw [if_pos hj, ih]
      simp [fileSettings, hj]
    · rw [if_neg hj]
      have hj' : o.json = true := by simpa using hj
      cases hf : findJson root o.name with
      | none =>
        have e : fileSettings root (o :: os) = fileSettings root os := by simp [fileSettings, hf]
        rw [e, ← ih]
      | some j =>
        have e : fileSettings root (o :: os) = (o, .json j) :: fileSettings root os := by simp [fileSettings, hf, hj']
        rw [e, applyAll]
        have e2 : parse o (.json j) c = parseJson o j c := rfl
        dsimp only
        rw [e2]
        cases parseJson o j c with
        | ok c => exact ih c
        | fail _ => rfl
        | exit _ => rfl
        | ub => rfl

theorem fileSettings_mem (root : Json) (os : List Opt) (x : Opt × Setting) (h : x ∈ fileSettings root os) : x.1 ∈ os ∧ x.1.json = true ∧ ∃ j, x.2 = .json j ∧ findJson root x.1.name = some j := by
  obtain ⟨o, h1, h2⟩ := List.mem_filterMap.1 h
  by_cases hj : o.json = true
  · rw [if_pos hj, Option.map_eq_some_iff] at h2
    obtain ⟨j, h3, rfl⟩ := h2
    exact ⟨h1, hj, j, rfl, h3⟩
  · rw [if_neg hj] at h2; cases h2

/-- The settings of one argument. -/
def argSettings (env : Env) (a : Nat × Option (List Byte)) : List (Opt × Setting) :=
  match options.find? (fun o => o.getopt && o.id == a.1) with
  | none => []
  | some o =>
    if o.handler = .none then [(o, .argv a.2)]
    else
      match a.2.bind env.load with
      | none => []
      | some root => fileSettings root options

theorem settings_cons (env : Env) (a : Nat × Option (List Byte)) (args : List (Nat × Option (List Byte))) :
    settings env (a :: args) = argSettings env a ++ settings env args := rfl

theorem find_mem (id : Nat) (o : Opt) (h : options.find? (fun o => o.getopt && o.id == id) = some o) : o ∈ options ∧ o.getopt = true ∧ o.id = id := by
  have h1 := List.mem_of_find?_eq_some h
  have h2 := List.find?_some h
  simp only [Bool.and_eq_true, beq_iff_eq] at h2
  exact ⟨h1, h2.1, h2.2⟩

theorem settings_mem (env : Env) (args : List (Nat × Option (List Byte))) (x : Opt × Setting) (h : x ∈ settings env args) : x.1 ∈ options := by
  induction args with
  | nil => cases h
  | cons a args ih =>
    rw [settings_cons] at h
    rcases List.mem_append.1 h with h | h
    · unfold argSettings at h
      cases hf : options.find? (fun o => o.getopt && o.id == a.1) with
      | none => rw [hf] at h; cases h
      | some o =>
        rw [hf] at h
        dsimp only at h
        by_cases hh : o.handler = .none
        · rw [if_pos hh, List.mem_singleton] at h
          rw [h]; exact (find_mem _ _ hf).1
        · rw [if_neg hh] at h
          cases hl : a.2.bind env.load with
          | none => rw [hl] at h; cases h
          | some root => rw [hl] at h; exact (fileSettings_mem root options x h).1
    · exact ih h

theorem handleOpt_ok (env : Env) (a : Nat × Option (List Byte)) (c c' : Conf) (h : handleOpt env options a.1 a.2 c = .ok c') :
    applyAll (argSettings env a) c = .ok c' := by
  unfold handleOpt at h
  unfold argSettings
  cases hf : options.find? (fun o => o.getopt && o.id == a.1) with
  | none => rw [hf] at h; cases h
  | some o =>
    rw [hf] at h
    dsimp only at h ⊢
    by_cases hh : o.handler = .none
    · rw [if_pos hh] at h ⊢
      rw [applyAll]
      have e : parse o (.argv a.2) c = parseArgv o a.2 c := rfl
      dsimp only
      rw [e, h]
      rfl
    · rw [if_neg hh] at h ⊢
      unfold runHandler at h
      cases ho : o.handler with
      | none => exact absurd ho hh
      | help => rw [ho] at h; cases h
      | usage => rw [ho] at h; cases h
      | version => rw [ho] at h; cases h
      | json =>
        rw [ho] at h
        cases ha : a.2 with
        | none => rw [ha] at h; cases h
        | some file =>
          rw [ha] at h
          dsimp only at h
          unfold setConfigFromFile at h
          rw [Option.bind_some]
          cases hl : env.load file with
          | none => rw [hl] at h; cases h
          | some root => rw [hl] at h; dsimp only at h ⊢; rw [← jsonToConfig_eq]; exact h

theorem handleOpts_ok (env : Env) (args : List (Nat × Option (List Byte))) (c c' : Conf) (h : handleOpts env options args c = .ok c') :
    applyAll (settings env args) c = .ok c' := by
  induction args generalizing c with
  | nil => exact h
  | cons a args ih =>
    obtain ⟨id, arg⟩ := a
    rw [handleOpts] at h
    cases hp : handleOpt env options id arg c with
    | ok c1 =>
      rw [hp] at h
      rw [settings_cons, applyAll_append _ _ _ _ (handleOpt_ok env (id, arg) c c1 hp)]
      exact ih c1 h
    | fail e => rw [hp] at h; cases h
    | exit e => rw [hp] at h; cases h
    | ub => rw [hp] at h; cases h

theorem initActions_field (l : List Json) (c c' : Conf) (h : initActions l c = .ok c') : c'.field = c.field := by
  induction l generalizing c with
  | nil => injection h with h; subst h; rfl
  | cons j l ih =>
    rw [initActions] at h
    cases hp : initAction j c with
    | ok c1 =>
      rw [hp] at h
      rw [ih c1 h]
      unfold initAction at hp
      repeat' split at hp
      all_goals first | (cases hp; rfl) | cases hp
    | fail e => rw [hp] at h; cases h
    | exit e => rw [hp] at h; cases h
    | ub => rw [hp] at h; cases h

/-- What a setting does to a field. -/
theorem parse_field (o : Opt) (ho : o ∈ options) (s : Setting) (c c' : Conf) (h : parse o s c = .ok c') :
    (∀ k, ¬ Writes o k → c'.field k = c.field k) ∧ (o.type ≠ .incidences → Means o s (c'.field o.name)) ∧
    (o.type = .offline → ∀ k, (k = ["rsync", "enabled"] ∨ k = ["http", "enabled"]) → ∃ b, MeansBool s b ∧ c'.field k = .bool (!b)) := by
  by_cases hi : o.type = .incidences
  · refine ⟨?_, fun h => absurd hi h, fun h => by rw [hi] at h; cases h⟩
    intro k _
    cases s with
    | argv a =>
      have e : parse o (.argv a) c = .ub := by unfold parse parseArgv; simp only [hi]
      rw [e] at h; cases h
    | json j =>
      have e : parse o (.json j) c = incidenceUpdate j c := by unfold parse parseJson; simp only [hi]
      rw [e] at h
      cases j with
      | arr l => rw [initActions_field l c c' h]
      | null => cases h
      | bool b => cases h
      | int i => cases h
      | real => cases h
      | str s => cases h
      | obj m => cases h
  · obtain ⟨v, h1, rfl⟩ := (parse_iff o ho hi s c c').1 h
    refine ⟨fun k hk => store_other o v c k hk, fun _ => by rw [store_own o ho]; exact h1, ?_⟩
    intro ht k hk
    simp only [Means, ht] at h1
    obtain ⟨b, rfl, hb⟩ := h1
    exact ⟨b, hb, store_enabled o ht b c k hk⟩

theorem applyAll_other (xs : List (Opt × Setting)) (hm : ∀ x ∈ xs, x.1 ∈ options) (k : Key) (hk : ∀ x ∈ xs, ¬ Writes x.1 k) (c c' : Conf)
    (h : applyAll xs c = .ok c') : c'.field k = c.field k := by
  induction xs generalizing c with
  | nil => injection h with h; subst h; rfl
  | cons x xs ih =>
    rw [applyAll] at h
    cases hp : parse x.1 x.2 c with
    | ok c1 =>
      rw [hp] at h
      rw [ih (fun y hy => hm y (by simp [hy])) (fun y hy => hk y (by simp [hy])) c1 h]
      exact (parse_field x.1 (hm x (by simp)) x.2 c c1 hp).1 k (hk x (by simp))
    | fail e => rw [hp] at h; cases h
    | exit e => rw [hp] at h; cases h
    | ub => rw [hp] at h; cases h

/-- Induction on the settings: what's true of the initial configuration and kept by every setting is true of the result. -/
theorem applyAll_inv (P : Conf → Prop) (hP : ∀ o ∈ options, ∀ s c c', P c → parse o s c = .ok c' → P c') (xs : List (Opt × Setting)) (hm : ∀ x ∈ xs, x.1 ∈ options)
    (c c' : Conf) (hc : P c) (h : applyAll xs c = .ok c') : P c' := by
  induction xs generalizing c with
  | nil => injection h with h; subst h; exact hc
  | cons x xs ih =>
    rw [applyAll] at h
    cases hp : parse x.1 x.2 c with
    | ok c1 =>
      rw [hp] at h
      exact ih (fun y hy => hm y (by simp [hy])) c1 (hP x.1 (hm x (by simp)) x.2 c c1 hc hp) h
    | fail e => rw [hp] at h; cases h
    | exit e => rw [hp] at h; cases h
    | ub => rw [hp] at h; cases h

theorem validateConfig_same (env : Env) (payload : Bool) (c c' : Conf) (h : validateConfig env payload c = .ok c') : c' = c := by
  unfold validateConfig at h
  repeat' split at h
  all_goals first | (cases h; rfl) | cases h

theorem finish_ok (env : Env) (payload : Bool) (c c' : Conf) (h : finish env payload c = .ok c') :
    validateConfig env payload c = .ok c ∧ c.flag ["init-tals"] = false ∧ c.flag ["init-as0-tals"] = false ∧
    ((c.flag ["daemon"] = false ∧ c' = c) ∨
      (c.flag ["daemon"] = true ∧ env.daemonize = 0 ∧ c' = (c.set ["log", "output"] (.word 0)).set ["validation-log", "output"] (.word 0))) := by
  unfold finish at h
  cases hv : validateConfig env payload c with
  | ok c1 =>
    have := validateConfig_same env payload c c1 hv
    subst this
    rw [hv] at h
    dsimp only at h
    by_cases h1 : c1.flag ["init-tals"] = true ∨ c1.flag ["init-as0-tals"] = true
    · rw [if_pos h1] at h; cases h
    · rw [if_neg h1] at h
      rw [not_or] at h1
      refine ⟨rfl, by simpa using h1.1, by simpa using h1.2, ?_⟩
      by_cases h2 : c1.flag ["daemon"] = true
      · rw [if_pos h2] at h
        by_cases h3 : env.daemonize = 0
        · rw [if_pos h3] at h; injection h with h; exact Or.inr ⟨h2, h3, h.symm⟩
        · rw [if_neg h3] at h; cases h
      · rw [if_neg h2] at h; injection h with h; exact Or.inl ⟨by simpa using h2, h.symm⟩
  | fail e => rw [hv] at h; cases h
  | exit e => rw [hv] at h; cases h
  | ub => rw [hv] at h; cases h

theorem flags_ok (env : Env) (args : List (Nat × Option (List Byte))) (payload : Bool) (c : Conf) (h : handleFlagsConfig env args payload = .ok c) :
    ∃ c1, applyAll (settings env args) initial = .ok c1 ∧ finish env payload c1 = .ok c := by
  unfold handleFlagsConfig at h
  cases ho : handleOpts env options args initial with
  | ok c1 => rw [ho] at h; exact ⟨c1, handleOpts_ok env args initial c1 ho, h⟩
  | fail e => rw [ho] at h; cases h
  | exit e => rw [ho] at h; cases h
  | ub => rw [ho] at h; cases h

end Verif.Conf
